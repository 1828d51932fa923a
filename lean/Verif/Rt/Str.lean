import Verif.Rt.Mem
/-!
# Strings: assignment, concatenation

The routines are in `memCode` (`Verif.Rt.Mem`).  A string is in memory as its length and its characters.
-/
namespace FB.Rt
open Ins Opd

/-- The string at an address: a length byte followed by the characters (`doc/manual.md`, strings). -/
def strAt (r : W → B) (p : W) : List B := (List.range (r p).toNat).map fun i => r (p + BitVec.ofNat 16 (i + 1))

/-! ## Copies of disjoint blocks -/

theorem copyDown_out (s d : W) (n : Nat) (r : W → B) (a : W) (h : ∀ j < n, a ≠ d + BitVec.ofNat 16 j) : copyDown s d n r a = r a := by
  induction n generalizing r with
  | zero => rfl
  | succ n ih =>
    rw [copyDown, ih _ (fun j hj => h j (by omega)), upd, if_neg (h n (by omega))]

theorem copyDown_in (s d : W) (n : Nat) (r : W → B) (hn : n ≤ 65536) (h : ∀ i < n, ∀ j < n, s + BitVec.ofNat 16 i ≠ d + BitVec.ofNat 16 j)
    (i : Nat) (hi : i < n) : copyDown s d n r (d + BitVec.ofNat 16 i) = r (s + BitVec.ofNat 16 i) := by
  induction n generalizing r with
  | zero => omega
  | succ n ih =>
    rw [copyDown]
    by_cases e : i = n
    · subst e
      rw [copyDown_out]
      · simp [upd]
      · intro j hj e
        have := congrArg (· - d) e
        simp only [BitVec.add_comm d, BitVec.add_sub_cancel] at this
        have := congrArg BitVec.toNat this
        simp only [BitVec.toNat_ofNat] at this
        omega
    · rw [ih _ (by omega) (fun i hi j hj => h i (by omega) j (by omega)) (by omega), upd, if_neg (h i (by omega) n (by omega))]

theorem copyDown_same (s : W) (n : Nat) (r : W → B) : copyDown s s n r = r := by
  induction n generalizing r with
  | zero => rfl
  | succ n ih => rw [copyDown, upd_same, ih]

/-! ## The pointers -/

theorem idx_zero (w : W) : idx w 0 = w := idx0 w

theorem pointers_set (m : M) (k : Code) (st : List Slot) (hk : m.stk = .ret k :: st)
    (hp : m.ram (word m.zp.saddr m.zp.saddrh + 1#16) ≠ 0#8) :
    ∃ a c z n v, Reach memCode memCode.get_pointers m k { m with a := a, c := c, z := z, n := n, v := v, y := 0, stk := st, zp := { m.zp with
      msrc := m.a, msrch := m.x, mdst := m.ram (word m.zp.saddr m.zp.saddrh), mdsth := m.ram (word m.zp.saddr m.zp.saddrh + 1) } } := by
  refine ⟨m.ram (word m.zp.saddr m.zp.saddrh), m.c, decide (m.ram (word m.zp.saddr m.zp.saddrh) = 0),
    topBit (m.ram (word m.zp.saddr m.zp.saddrh)), m.v, ⟨10, ?_⟩⟩
  rt_exec [memCode.get_pointers.eq, idx0, idx1, hp, hk]

/-- Room for `size` more bytes. -/
def room (m : M) (size : Nat) : Prop := (word m.zp.arr m.zp.arrh).toNat + size < (word (m.ram 0x2E5#16) (m.ram 0x2E6#16)).toNat

theorem alloc_flags (l h al ah tl th : B) (c : Bool) (hc : c = addC l al false) :
    (addC (add8 h ah c) (~~~ th) (addC (add8 l al false) (~~~ tl) true) = false ∧ addC h ah c = false) ↔
      (word l h).toNat + (word al ah).toNat < (word tl th).toNat := by
  have := l.isLt; have := h.isLt; have := al.isLt; have := ah.isLt; have := tl.isLt; have := th.isLt
  have e1 : (~~~ th).toNat = 255 - th.toNat := by simp
  have e2 : (~~~ tl).toNat = 255 - tl.toNat := by simp
  have ec : c.toNat = (l.toNat + al.toNat) / 256 := by rw [hc]; simp
  rw [show ∀ b : Bool, (b = false) = (b.toNat = 0) by intro b; cases b <;> simp, show ∀ b : Bool, (b = false) = (b.toNat = 0) by intro b; cases b <;> simp]
  simp only [addC_toNat, add8_toNat, word_toNat, e1, e2, ec, Bool.toNat_true, Bool.toNat_false, Nat.add_zero]
  by_cases h1 : l.toNat + al.toNat < 256
  · rw [show (l.toNat + al.toNat) / 256 = 0 by omega, show (l.toNat + al.toNat) % 256 = l.toNat + al.toNat by omega]
    by_cases h2 : h.toNat + ah.toNat < 256
    · rw [show (h.toNat + ah.toNat + 0) % 256 = h.toNat + ah.toNat by omega]; omega
    · omega
  · rw [show (l.toNat + al.toNat) / 256 = 1 by omega, show (l.toNat + al.toNat) % 256 = l.toNat + al.toNat - 256 by omega]
    by_cases h2 : h.toNat + ah.toNat + 1 < 256
    · rw [show (h.toNat + ah.toNat + 1) % 256 = h.toNat + ah.toNat + 1 by omega]; omega
    · omega

theorem alloc_correct (m : M) (k : Code) (st : List Slot) (hk : m.stk = .ret k :: st) (hr : room m (word m.a m.x).toNat) :
    ∃ m', Reach memCode memCode.alloc_array m k m' ∧ m'.stk = st ∧ m'.sl = m.sl ∧ m'.sh = m.sh ∧ m'.x = 0 ∧ m'.y = 0 ∧
      m'.ram = fill (word m.zp.arr m.zp.arrh) (word m.a m.x).toNat 0 m.ram ∧
      word m'.zp.mdst m'.zp.mdsth = word m.zp.arr m.zp.arrh ∧ word m'.zp.arr m'.zp.arrh = word m.zp.arr m.zp.arrh + word m.a m.x ∧
      m'.zp.msrc = m.zp.msrc ∧ m'.zp.msrch = m.zp.msrch ∧ m'.zp.sptr = m.zp.sptr ∧ m'.zp.saddr = m.zp.saddr ∧ m'.zp.saddrh = m.zp.saddrh ∧
      m'.zp.mins = m.zp.mins := by
  obtain ⟨f1, f2⟩ := (alloc_flags m.zp.arr m.zp.arrh m.a m.x (m.ram 0x2E5#16) (m.ram 0x2E6#16) _ rfl).2 hr
  obtain ⟨m1, r1, e1⟩ : ∃ m1, Reach memCode memCode.alloc_array m memCode.mem_set m1 ∧ m1 =
      { m with zp := { m.zp with tmp1 := m.a, tmp1h := m.x, mdst := m.zp.arr, mdsth := m.zp.arrh, arr := add8 m.zp.arr m.a false,
                                 arrh := add8 m.zp.arrh m.x (addC m.zp.arr m.a false) },
               a := add8 (add8 m.zp.arrh m.x (addC m.zp.arr m.a false)) (~~~ m.ram 0x2E6#16) (addC (add8 m.zp.arr m.a false) (~~~ (m.ram 0x2E5#16)) true),
               y := 0, z := true, n := false, c := false,
               v := addV (add8 m.zp.arrh m.x (addC m.zp.arr m.a false)) (~~~ m.ram 0x2E6#16) (addC (add8 m.zp.arr m.a false) (~~~ (m.ram 0x2E5#16)) true) } := by
    refine ⟨_, ⟨19, ?_⟩, rfl⟩
    rt_exec [memCode.alloc_array.eq, memCode.mem_set_0.eq, f1, f2]
  obtain ⟨b, c, v, h, r2, w⟩ := mem_set_correct m1 k st (by rw [e1]; exact hk)
  subst e1
  refine ⟨_, r1.trans r2, rfl, rfl, rfl, rfl, rfl, rfl, w, ?_, rfl, rfl, rfl, rfl, rfl, rfl⟩
  exact add16 _ _ _ _

theorem alloc_fails (m : M) (hr : ¬ room m (word m.a m.x).toNat) : Fails memCode memCode.alloc_array m := by
  have f := mt (alloc_flags m.zp.arr m.zp.arrh m.a m.x (m.ram 0x2E5#16) (m.ram 0x2E6#16) _ rfl).1 hr
  cases f2 : addC m.zp.arrh m.x (addC m.zp.arr m.a false)
  · cases f1 : addC (add8 m.zp.arrh m.x (addC m.zp.arr m.a false)) (~~~ m.ram 0x2E6#16) (addC (add8 m.zp.arr m.a false) (~~~ (m.ram 0x2E5#16)) true)
    · exact absurd ⟨f1, f2⟩ f
    · refine ⟨30, ?_⟩
      rt_exec [memCode.alloc_array.eq, memCode.err_nomem.eq, f1, f2]
  · refine ⟨30, ?_⟩
    rt_exec [memCode.alloc_array.eq, memCode.err_nomem.eq, f2]

/-- The state after `get_pointers`: source, destination, and what memory and the free memory pointer are. -/
structure Got (m m' : M) (st : List Slot) (d : W) (r : W → B) (top : W) : Prop where
  y : m'.y = 0
  stk : m'.stk = st
  sl : m'.sl = m.sl
  sh : m'.sh = m.sh
  ram : m'.ram = r
  msrc : m'.zp.msrc = m.a
  msrch : m'.zp.msrch = m.x
  dst : word m'.zp.mdst m'.zp.mdsth = d
  arr : word m'.zp.arr m'.zp.arrh = top
  sptr : m'.zp.sptr = m.zp.sptr
  saddr : m'.zp.saddr = m.zp.saddr
  saddrh : m'.zp.saddrh = m.zp.saddrh
  mins : m'.zp.mins = m.zp.mins

/-- Address of the destination variable. -/
def M.sad (m : M) : W := word m.zp.saddr m.zp.saddrh
/-- Start of free memory. -/
def M.free (m : M) : W := word m.zp.arr m.zp.arrh

theorem got_set (m : M) (k : Code) (st : List Slot) (hk : m.stk = .ret k :: st) (hp : m.ram (m.sad + 1#16) ≠ 0#8) :
    ∃ m', Reach memCode memCode.get_pointers m k m' ∧ Got m m' st (m.peek m.sad) m.ram m.free := by
  obtain ⟨a, c, z, n, v, r⟩ := pointers_set m k st hk hp
  exact ⟨_, r, rfl, rfl, rfl, rfl, rfl, rfl, rfl, (mkW_eq _ _).symm, rfl, rfl, rfl, rfl, rfl⟩

theorem got_reach (m : M) (hp : m.ram (m.sad + 1#16) = 0#8) :
    ∃ m', Reach memCode memCode.get_pointers m memCode.alloc_array m' ∧ m' = { m with
      a := 0, x := 1, y := 0, z := false, n := false, zp := { m.zp with msrc := m.a, msrch := m.x }, ram := updMem2 m.ram m.sad m.free } := by
  refine ⟨_, ⟨13, ?_⟩, rfl⟩
  rw [M.sad] at hp
  rt_exec [memCode.get_pointers.eq, memCode.gp_alloc.eq, idx0, idx1, hp]
  rw [upd2_eq m.ram m.sad m.free m.zp.arr m.zp.arrh rfl, upd_comm (Ne.symm (add_one_ne _))]
  rfl

/-- `updMem2` does not touch the top of memory, unless the variable is there. -/
theorem got_alloc (m : M) (k : Code) (st : List Slot) (hk : m.stk = .ret k :: st) (hp : m.ram (m.sad + 1#16) = 0#8)
    (hr : (word m.zp.arr m.zp.arrh).toNat + 256 < (word (updMem2 m.ram m.sad m.free 0x2E5#16) (updMem2 m.ram m.sad m.free 0x2E6#16)).toNat) :
    ∃ m', Reach memCode memCode.get_pointers m k m' ∧
      Got m m' st m.free (fill m.free 256 0 (updMem2 m.ram m.sad m.free)) (m.free + 256) := by
  obtain ⟨m1, r1, e1⟩ := got_reach m hp
  obtain ⟨m2, r2, h1, h2, h3, h4, h5, h6, h7, h8, h9, h10, h11, h12, h13, h14⟩ := alloc_correct m1 k st (by rw [e1]; exact hk)
    (by rw [e1]; exact hr)
  subst e1
  exact ⟨m2, r1.trans r2, h5, h1, h2, h3, h6, h9, h10, h7, h8, h11, h12, h13, h14⟩

theorem got_fails (m : M) (hp : m.ram (m.sad + 1#16) = 0#8)
    (hr : ¬ (word m.zp.arr m.zp.arrh).toNat + 256 < (word (updMem2 m.ram m.sad m.free 0x2E5#16) (updMem2 m.ram m.sad m.free 0x2E6#16)).toNat) :
    Fails memCode memCode.get_pointers m := by
  obtain ⟨m1, r1, e1⟩ := got_reach m hp
  exact r1.fails (alloc_fails m1 (by rw [e1]; exact hr))

/-! ## Assignment -/

/-- The rest of `EXE_COPY_STR` and `EXE_CAT_STR`, after the call to `get_pointers` (`copystr.asm:70-79,85-109`). -/
def copyRest : Code := memCode.EXE_COPY_STR.tail
def catRest : Code := memCode.EXE_CAT_STR.tail

theorem copy_enter (m : M) : Reach memCode memCode.EXE_COPY_STR m memCode.get_pointers { m with stk := .ret copyRest :: m.stk } := by
  refine ⟨1, ?_⟩
  rw [copyRest]
  rt_exec [memCode.EXE_COPY_STR.eq]
theorem cat_enter (m : M) : Reach memCode memCode.EXE_CAT_STR m memCode.get_pointers { m with stk := .ret catRest :: m.stk } := by
  refine ⟨1, ?_⟩
  rw [catRest]
  rt_exec [memCode.EXE_CAT_STR.eq]

/-- What is left as it was by the string instructions. -/
structure Rest (m m' : M) : Prop where
  stk : m'.stk = m.stk
  sl : m'.sl = m.sl
  sh : m'.sh = m.sh
  zp : Same m.zp m'.zp

/-- The copy loop, entered with the number of bytes in `Y`. -/
theorem cloop (m : M) (hy : m.y ≠ 0#8) (hi : m.zp.mins = 0x88) : ∃ m', Halts memCode memCode.cs_cloop m m' ∧
    m'.ram = copyDown (word m.zp.msrc m.zp.msrch + 1) (word m.zp.mdst m.zp.mdsth + 1) m.y.toNat m.ram ∧ Rest m m' := by
  have hyn : m.y.toNat ≠ 0 := fun e => hy (BitVec.eq_of_toNat_eq e)
  obtain ⟨m1, r1, e1⟩ : ∃ m1, Reach memCode memCode.cs_cloop m memCode.move_loop m1 ∧ m1 =
      { m with stk := .ret (.lb "cs_xit" :: memCode.cs_xit) :: m.stk } := by
    refine ⟨_, ⟨1, ?_⟩, rfl⟩
    rt_exec [memCode.cs_cloop.eq]
  obtain ⟨a, b, r2⟩ := loop_down (m.y.toNat - 1) m1 _ _ (by rw [e1]; show m.y.toNat = _; omega) (by rw [e1]) (by rw [e1]; exact hi)
  have r2 := (r1.trans r2).trans ⟨1, rfl⟩
  subst e1
  refine ⟨?_, r2.halts ⟨1, ?_⟩, ?_, ?_⟩
  rotate_left
  · rt_exec [memCode.cs_xit.eq]
    rfl
  · show copyDown _ _ (m.y.toNat - 1 + 1) _ = _
    rw [Nat.sub_add_cancel (Nat.pos_of_ne_zero hyn)]
    rfl
  · exact ⟨rfl, rfl, rfl, rfl, rfl, rfl, rfl, rfl, rfl⟩

theorem copy_rest (m : M) (hy : m.y = 0#8) (hi : m.zp.mins = 0x88) : ∃ m', Halts memCode copyRest m m' ∧ Rest m m' ∧
    m'.ram = copyDown (word m.zp.msrc m.zp.msrch + 1) (word m.zp.mdst m.zp.mdsth + 1) (m.ram (word m.zp.msrc m.zp.msrch)).toNat
      (upd m.ram (word m.zp.mdst m.zp.mdsth) (m.ram (word m.zp.msrc m.zp.msrch))) := by
  by_cases h : m.ram (word m.zp.msrc m.zp.msrch) = 0#8
  · refine ⟨?_, ⟨6, ?_⟩, ?_⟩
    rotate_left
    · rt_exec [copyRest, memCode.EXE_COPY_STR.eq, memCode.cs_xit.eq, h, hy, idx0]
      rfl
    · refine ⟨⟨rfl, rfl, rfl, rfl, rfl, rfl, rfl, rfl, rfl⟩, ?_⟩
      simp [h, copyDown]
  · obtain ⟨m1, r1, e1⟩ : ∃ m1, Reach memCode copyRest m memCode.cs_cloop m1 ∧ m1 =
        { m with a := m.ram (word m.zp.msrc m.zp.msrch), y := m.ram (word m.zp.msrc m.zp.msrch), z := false,
                 n := topBit (m.ram (word m.zp.msrc m.zp.msrch)),
                 ram := upd m.ram (word m.zp.mdst m.zp.mdsth) (m.ram (word m.zp.msrc m.zp.msrch)) } := by
      refine ⟨_, ⟨5, ?_⟩, rfl⟩
      rt_exec [copyRest, memCode.EXE_COPY_STR.eq, h, hy, idx0]
    obtain ⟨m', h', e, k⟩ := cloop m1 (by rw [e1]; exact h) (by rw [e1]; exact hi)
    subst e1
    exact ⟨m', r1.halts h', ⟨k.stk, k.sl, k.sh, k.zp.sptr, k.zp.saddr, k.zp.saddrh, k.zp.arr, k.zp.arrh, k.zp.mins⟩, e⟩

/-- Length of the concatenation. -/
def catLen (x y : B) : B := if addC x y false then 255 else add8 x y false

theorem cat_rest (m : M) (hy : m.y = 0#8) (hi : m.zp.mins = 0x88) (S D : W) (hS : word m.zp.msrc m.zp.msrch = S) (hD : word m.zp.mdst m.zp.mdsth = D) :
    ∃ m', Halts memCode catRest m m' ∧ Rest m m' ∧
    m'.ram = copyDown (S + 1) (D + BitVec.ofNat 16 (m.ram D).toNat + 1) ((catLen (m.ram D) (m.ram S)).toNat - (m.ram D).toNat)
      (upd m.ram D (catLen (m.ram D) (m.ram S))) := by
  obtain ⟨m1, r1, e1⟩ : ∃ m1, Reach memCode catRest m memCode.ct_ok m1 ∧ ∃ c z n v, m1 =
      { m with a := catLen (m.ram D) (m.ram S), y := 0, c := c, z := z, n := n, v := v, zp := { m.zp with tmp1 := m.ram D } } := by
    cases h : addC (m.ram D) (m.ram S) false
    · refine ⟨?_, ⟨5, ?_⟩, ?_⟩
      rotate_left
      · rt_exec [catRest, memCode.EXE_CAT_STR.eq, h, hy, idx0, hS, hD]
        rfl
      · exact ⟨_, _, _, _, by rw [catLen, h]; rfl⟩
    · refine ⟨?_, ⟨7, ?_⟩, ?_⟩
      rotate_left
      · rt_exec [catRest, memCode.EXE_CAT_STR.eq, h, hy, idx0, hS, hD]
        rfl
      · exact ⟨_, _, _, _, by rw [catLen, h]; rfl⟩
  obtain ⟨c, z, n, v, e1⟩ := e1
  generalize hL : catLen (m.ram D) (m.ram S) = L at *
  have hx := (m.ram D).isLt; have hs := (m.ram S).isLt
  have hge : (m.ram D).toNat ≤ L.toNat := by
    rw [← hL, catLen]; split
    · show _ ≤ 255; omega
    · next h => simp [addC] at h; simp; omega
  have hsub : (add8 L (~~~ m.ram D) true).toNat = L.toNat - (m.ram D).toNat := by
    have := L.isLt
    have e1 : (~~~ m.ram D).toNat = 255 - (m.ram D).toNat := by simp
    rw [add8_toNat, e1]; simp; omega
  by_cases h0 : add8 L (~~~ m.ram D) true = 0#8
  · rw [h0] at hsub
    subst e1
    refine ⟨?_, r1.halts ⟨5, ?_⟩, ?_⟩
    rotate_left
    · rt_exec [memCode.ct_ok.eq, memCode.cs_xit.eq, h0, hy, idx0, hD]
      rfl
    · refine ⟨⟨rfl, rfl, rfl, rfl, rfl, rfl, rfl, rfl, rfl⟩, ?_⟩
      rw [← hsub]
      rfl
  · obtain ⟨m2, r2, i1, i2, i3, i4, i5, i6, i7, i8, i9⟩ : ∃ m2, Reach memCode memCode.ct_ok m1 memCode.cs_cloop m2 ∧
        m2.y = add8 L (~~~ m.ram D) true ∧ m2.stk = m.stk ∧ m2.sl = m.sl ∧ m2.sh = m.sh ∧ m2.ram = upd m.ram D L ∧ Same m.zp m2.zp ∧
        m2.zp.msrc = m.zp.msrc ∧ m2.zp.msrch = m.zp.msrch ∧ word m2.zp.mdst m2.zp.mdsth = D + BitVec.ofNat 16 (m.ram D).toNat := by
      subst e1
      cases h1 : addC (m.ram D) m.zp.mdst false
      · refine ⟨?_, ⟨10, ?_⟩, ?_⟩
        rotate_left
        · rt_exec [memCode.ct_ok.eq, h0, hy, idx0, hD, h1]
          rfl
        · refine ⟨rfl, rfl, rfl, rfl, rfl, ⟨rfl, rfl, rfl, rfl, rfl, rfl⟩, rfl, rfl, ?_⟩
          show word (add8 (m.ram D) m.zp.mdst false) m.zp.mdsth = _
          rw [← hD] at h1 hx ⊢
          have := m.zp.mdst.isLt; have := m.zp.mdsth.isLt
          simp [addC] at h1
          apply BitVec.eq_of_toNat_eq
          simp; omega
      · refine ⟨?_, ⟨12, ?_⟩, ?_⟩
        rotate_left
        · rt_exec [memCode.ct_ok.eq, h0, hy, idx0, hD, h1]
          rfl
        · refine ⟨rfl, rfl, rfl, rfl, rfl, ⟨rfl, rfl, rfl, rfl, rfl, rfl⟩, rfl, rfl, ?_⟩
          show word (add8 (m.ram D) m.zp.mdst false) (m.zp.mdsth + 1#8) = _
          rw [← hD] at h1 hx ⊢
          have := m.zp.mdst.isLt; have := m.zp.mdsth.isLt
          simp [addC] at h1
          apply BitVec.eq_of_toNat_eq
          simp; omega
    obtain ⟨m', h', e, k⟩ := cloop m2 (by rw [i1]; exact h0) (by rw [i6.mins]; exact hi)
    refine ⟨m', r1.halts (r2.halts h'), ⟨k.stk.trans i2, k.sl.trans i3, k.sh.trans i4, i6.trans k.zp⟩, ?_⟩
    rw [e, i1, i5, i7, i8, i9, hsub, hS]

/-! ## What the copies are as strings -/

theorem off_ne (p : W) {i j : Nat} (hi : i < 65536) (hj : j < 65536) (h : i ≠ j) : p + BitVec.ofNat 16 i ≠ p + BitVec.ofNat 16 j := by
  intro e
  have := congrArg (· - p) e
  simp only [BitVec.add_comm p, BitVec.add_sub_cancel] at this
  have := congrArg BitVec.toNat this
  simp only [BitVec.toNat_ofNat] at this
  omega

theorem off_ne' {p a b : W} (i j : Nat) (ha : a = p + BitVec.ofNat 16 i) (hb : b = p + BitVec.ofNat 16 j) (hi : i < 65536) (hj : j < 65536)
    (h : i ≠ j) : a ≠ b := by
  rw [ha, hb]; exact off_ne p hi hj h

theorem off_zero (p : W) : p + BitVec.ofNat 16 0 = p := by simp
theorem off_add (p : W) (i j : Nat) : p + BitVec.ofNat 16 i + BitVec.ofNat 16 j = p + BitVec.ofNat 16 (i + j) := by
  rw [BitVec.add_assoc, ← BitVec.ofNat_add]
theorem off_one (p : W) (j : Nat) : p + 1 + BitVec.ofNat 16 j = p + BitVec.ofNat 16 (j + 1) := by
  rw [show (1 : W) = BitVec.ofNat 16 1 from rfl, off_add, Nat.add_comm]
theorem off_of (p a : W) : a = p + BitVec.ofNat 16 (a - p).toNat := by
  rw [BitVec.ofNat_toNat, BitVec.setWidth_eq, BitVec.add_comm, BitVec.sub_add_cancel]

theorem strAt_length (r : W → B) (p : W) : (strAt r p).length = (r p).toNat := by simp [strAt]
theorem strAt_get (r : W → B) (p : W) (i : Nat) (h : i < (strAt r p).length) : (strAt r p)[i] = r (p + BitVec.ofNat 16 (i + 1)) := by
  simp [strAt]

/-- Source and destination of a copy: the same string, or blocks without common bytes. -/
def Apart (r : W → B) (s d : W) : Prop :=
  s = d ∨ ∀ i ≤ (r s).toNat, ∀ j ≤ 255, s + BitVec.ofNat 16 i ≠ d + BitVec.ofNat 16 j

theorem copy_out (r : W → B) (s d : W) (n : Nat) (v : B) (hn : n ≤ 255) (t : Nat) (ht : t + n ≤ 255) (a : W) (ha : 256 ≤ (a - d).toNat) :
    copyDown (s + 1) (d + BitVec.ofNat 16 t + 1) n (upd r d v) a = r a := by
  have hd := off_of d a
  have hl := (a - d).isLt
  rw [copyDown_out, upd, if_neg]
  · exact off_ne' _ 0 hd (off_zero d).symm hl (by omega) (by omega)
  · intro j hj
    exact off_ne' _ (t + (j + 1)) hd (by rw [off_one, off_add]) hl (by omega) (by omega)

theorem copy_str (r : W → B) (s d : W) (h : Apart r s d) :
    strAt (copyDown (s + 1) (d + 1) (r s).toNat (upd r d (r s))) d = strAt r s := by
  have hn := (r s).isLt
  rcases h with rfl | h
  · rw [copyDown_same, upd_same]
  · have e0 : copyDown (s + 1) (d + 1) (r s).toNat (upd r d (r s)) d = r s := by
      rw [copyDown_out]
      · simp [upd]
      · intro j hj
        exact off_ne' 0 (j + 1) (off_zero d).symm (off_one d j) (by omega) (by omega) (by omega)
    apply List.ext_getElem
    · rw [strAt_length, strAt_length, e0]
    · intro i h1 h2
      rw [strAt_get, strAt_get]
      rw [strAt_length] at h2
      rw [← off_one, ← off_one, copyDown_in _ _ _ _ (by omega) _ _ h2, upd, if_neg]
      · have := h (i + 1) (by omega) 0 (by omega)
        rwa [off_zero, ← off_one] at this
      · intro i hi j hj
        rw [off_one, off_one]
        exact h (i + 1) (by omega) (j + 1) (by omega)

theorem catLen_toNat (x y : B) : (catLen x y).toNat = min (x.toNat + y.toNat) 255 := by
  have := x.isLt; have := y.isLt
  rw [catLen]; split
  · next h => simp [addC] at h; show 255 = _; omega
  · next h => simp [addC] at h; simp; omega

theorem cat_str (r : W → B) (s d : W) (h : Apart r s d) :
    strAt (copyDown (s + 1) (d + BitVec.ofNat 16 (r d).toNat + 1) ((catLen (r d) (r s)).toNat - (r d).toNat) (upd r d (catLen (r d) (r s)))) d =
      (strAt r d ++ strAt r s).take 255 := by
  have hn := (r s).isLt; have hm := (r d).isLt
  have hc := catLen_toNat (r d) (r s)
  generalize catLen (r d) (r s) = L at *
  have e0 : copyDown (s + 1) (d + BitVec.ofNat 16 (r d).toNat + 1) (L.toNat - (r d).toNat) (upd r d L) d = L := by
    rw [copyDown_out]
    · simp [upd]
    · intro j hj
      exact off_ne' 0 ((r d).toNat + (j + 1)) (off_zero d).symm (by rw [off_one, off_add]) (by omega) (by omega) (by omega)
  apply List.ext_getElem
  · rw [List.length_take, List.length_append, strAt_length, strAt_length, strAt_length, e0, hc, Nat.min_comm]
  · intro i h1 h2
    rw [List.getElem_take, strAt_get]
    rw [strAt_length, e0] at h1
    by_cases hi : i < (r d).toNat
    · rw [List.getElem_append_left (by rw [strAt_length]; exact hi), strAt_get, copyDown_out, upd, if_neg]
      · exact off_ne' (i + 1) 0 rfl (off_zero d).symm (by omega) (by omega) (by omega)
      · intro j hj
        exact off_ne' (i + 1) ((r d).toNat + (j + 1)) rfl (by rw [off_one, off_add]) (by omega) (by omega) (by omega)
    · have hi' : i - (r d).toNat < L.toNat - (r d).toNat := by omega
      rw [List.getElem_append_right (by rw [strAt_length]; omega), strAt_get]
      simp only [strAt_length]
      have e : d + BitVec.ofNat 16 (i + 1) = d + BitVec.ofNat 16 (r d).toNat + 1 + BitVec.ofNat 16 (i - (r d).toNat) := by
        rw [off_one, off_add]; congr 2; have : (r d).toNat ≤ i := by omega
        omega
      rw [e, copyDown_in _ _ _ _ (by omega) _ _ hi', off_one, upd, if_neg]
      · rcases h with h | h
        · subst h
          exact off_ne' (i - (r s).toNat + 1) 0 rfl (off_zero s).symm (by omega) (by omega) (by omega)
        · have := h (i - (r d).toNat + 1) (by omega) 0 (by omega)
          rwa [off_zero] at this
      · intro i hi j hj
        rcases h with h | h
        · subst h
          exact off_ne' (i + 1) ((r s).toNat + (j + 1)) (off_one s i) (by rw [off_one, off_add]) (by omega) (by omega) (by omega)
        · have := h (i + 1) (by omega) ((r d).toNat + (j + 1)) (by omega)
          rwa [← off_one, ← off_add, ← off_one] at this

end FB.Rt
