import Verif.Rt.Str
/-!
# The memory areas of the native compiler

The routines of `/repo/src/alloc.asm` are `allocArea` in `Verif.Rt.Mem`; here is what they do to the pointers and to the memory.
-/
namespace FB.Rt
open Ins Opd

/-- Pointer number `i` (`memptr.asm:38-48`): `prog_ptr`, `var_buf`, `label_buf`, `laddr_buf`, `mem_end`. -/
def ptr (r : W → B) (i : Nat) : W := word (r (memStart + BitVec.ofNat 16 (2 * i))) (r (memStart + BitVec.ofNat 16 (2 * i + 1)))

/-- `MEMTOP` of the OS (`alloc.asm:77`). -/
def memTop (r : W → B) : W := word (r 0x2E5) (r 0x2E6)

theorem upd_ne {r : W → B} {a b : W} {v : B} (h : b ≠ a) : upd r a v b = r b := by simp [upd, h]

/-- `copyDown` to a higher address, the blocks may overlap. -/
theorem copyDown_up (s : W) (n L : Nat) (r : W → B) (h : s.toNat + n + L ≤ 65536) (i : Nat) (hi : i < L) :
    copyDown s (s + BitVec.ofNat 16 n) L r (s + BitVec.ofNat 16 (n + i)) = r (s + BitVec.ofNat 16 i) := by
  induction L generalizing r with
  | zero => omega
  | succ L ih =>
    rw [copyDown]
    by_cases e : i = L
    · subst e
      rw [copyDown_out, off_add, upd_at]
      intro j hj
      rw [off_add]
      exact off_ne _ (by omega) (by omega) (by omega)
    · rw [ih _ (by omega) (by omega), upd_ne]
      rw [off_add]
      exact off_ne _ (by omega) (by omega) (by omega)

/-- Carry out of the comparison with `MEMTOP`. -/
theorem aa_flag (n l h tl th : B) (hw : (word l h).toNat ≤ 65280) :
    addC (add8 0#8 h (addC n l false)) (~~~ th) (addC (add8 n l false) (~~~ tl) true) =
      decide ((word tl th).toNat ≤ (word l h).toNat + n.toNat) := by
  have := n.isLt; have := l.isLt; have := h.isLt; have := tl.isLt; have := th.isLt
  rw [word_toNat] at hw
  rw [addC, decide_eq_decide]
  simp only [add8_toNat, addC_toNat, word_toNat, BitVec.toNat_not, BitVec.toNat_ofNat, Bool.toNat_true, Bool.toNat_false]
  omega

/-- Not enough memory. -/
theorem aa_fails (m : M) (h4 : (ptr m.ram 4).toNat ≤ 65280) (hf : (memTop m.ram).toNat ≤ (ptr m.ram 4).toNat + m.a.toNat) :
    Fails memCode memCode.alloc_area_8 m := by
  have hc := aa_flag m.a (m.ram 170#16) (m.ram 171#16) (m.ram 741#16) (m.ram 742#16) h4
  rw [decide_eq_true (by exact hf)] at hc
  refine ⟨12, ?_⟩
  rt_exec [memCode.alloc_area_8.eq, memCode.err_nomem.eq, hc]

/-- Enough memory. -/
theorem aa_start (m : M) (h4 : (ptr m.ram 4).toNat ≤ 65280) (hf : (ptr m.ram 4).toNat + m.a.toNat < (memTop m.ram).toNat) :
    ∃ m1, Reach memCode memCode.alloc_area_8 m memCode.aa_ok m1 ∧ m1.x = m.x ∧ m1.c = false ∧ m1.stk = m.stk ∧ m1.sl = m.sl ∧ m1.sh = m.sh ∧
      m1.ram = m.ram ∧ m1.zp = { m.zp with tmp1 := m.a } := by
  have hc := aa_flag m.a (m.ram 170#16) (m.ram 171#16) (m.ram 741#16) (m.ram 742#16) h4
  rw [decide_eq_false (by exact Nat.not_le.mpr hf)] at hc
  refine ⟨?_, ⟨9, ?_⟩, ?_⟩
  rotate_left
  · rt_exec [memCode.alloc_area_8.eq, memCode.err_nomem.eq, hc]
    rfl
  · exact ⟨rfl, rfl, rfl, rfl, rfl, rfl, rfl⟩

theorem idx_even (i : Nat) (hi : i ≤ 4) (w : W) : idx w (BitVec.ofNat 8 (2 * i)) = w + BitVec.ofNat 16 (2 * i) := by
  simp [idx]; congr 1; omega

theorem sub_len (pl ph el eh : B) (h : (word pl ph).toNat ≤ (word el eh).toNat) :
    (word (add8 el (~~~ pl) true) (add8 eh (~~~ ph) (addC el (~~~ pl) true))).toNat = (word el eh).toNat - (word pl ph).toNat := by
  have := pl.isLt; have := ph.isLt; have := el.isLt; have := eh.isLt
  rw [word_toNat, word_toNat] at h
  simp only [add8_toNat, addC_toNat, word_toNat, BitVec.toNat_not, Bool.toNat_true]
  omega

theorem add_len (pl ph n : B) : word (add8 pl n false) (add8 ph 0#8 (addC pl n false)) = word pl ph + BitVec.ofNat 16 n.toNat := by
  have := pl.isLt; have := ph.isLt; have := n.isLt
  apply BitVec.eq_of_toNat_eq
  simp only [add8_toNat, addC_toNat, word_toNat, BitVec.toNat_add, BitVec.toNat_ofNat, Bool.toNat_false]
  omega

/-- The pointers and the length of the copy. -/
theorem aa_setup (m : M) (i : Nat) (hi : i ≤ 4) (hx : m.x = BitVec.ofNat 8 (2 * i)) (hc : m.c = false)
    (hle : (ptr m.ram i).toNat ≤ (ptr m.ram 4).toNat) :
    ∃ m1, Reach memCode memCode.aa_ok m memCode.move_dwn m1 ∧ m1.stk = .ret (.lb "aa_ret" :: memCode.aa_ret) :: m.stk ∧ m1.sl = m.sl ∧ m1.sh = m.sh ∧
      m1.ram = upd m.ram saveX m.x ∧ m1.ax.toNat = (ptr m.ram 4).toNat - (ptr m.ram i).toNat ∧ word m1.zp.msrc m1.zp.msrch = ptr m.ram i ∧
      word m1.zp.mdst m1.zp.mdsth = ptr m.ram i + BitVec.ofNat 16 m.zp.tmp1.toNat ∧ DSame m.zp m1.zp := by
  have i1 : idx 162#16 m.x ≠ 172#16 := by
    rw [hx, idx_even i hi]; intro e; have := congrArg BitVec.toNat e; simp at this; omega
  have i2 : idx 163#16 m.x ≠ 172#16 := by
    rw [hx, idx_even i hi]; intro e; have := congrArg BitVec.toNat e; simp at this; omega
  have p : ptr m.ram i = word (m.ram (idx 162#16 m.x)) (m.ram (idx 163#16 m.x)) := by
    rw [hx, idx_even i hi, idx_even i hi, ptr]
    congr 2
    apply BitVec.eq_of_toNat_eq; simp; omega
  rw [p] at hle
  refine ⟨?_, ⟨18, ?_⟩, ?_⟩
  rotate_left
  · rt_exec [memCode.aa_ok.eq, upd_ne, i1, i2, hc]
    rfl
  · refine ⟨rfl, rfl, rfl, rfl, ?_, ?_, ?_, ?_⟩
    · rw [p]; exact sub_len _ _ _ _ hle
    · rw [p]
    · rw [p]; exact add_len _ _ _
    · exact ⟨⟨rfl, rfl, rfl, rfl, rfl, rfl⟩, rfl, rfl⟩

/-- One pointer moved: the bytes of the pointer after the loop body. -/
theorem aa_bump (m : M) (i : Nat) (hi : i ≤ 4) (hx : m.x = BitVec.ofNat 8 (2 * i)) :
    ∃ m1, Reach memCode memCode.aa_loop m memCode.aa_skip m1 ∧ m1.x = m.x ∧ m1.stk = m.stk ∧ m1.sl = m.sl ∧ m1.sh = m.sh ∧ m1.zp = m.zp ∧
      ptr m1.ram i = ptr m.ram i + BitVec.ofNat 16 m.zp.tmp1.toNat ∧
      ∀ a, a ≠ memStart + BitVec.ofNat 16 (2 * i) → a ≠ memStart + BitVec.ofNat 16 (2 * i + 1) → m1.ram a = m.ram a := by
  have e1 : idx 162#16 m.x = memStart + BitVec.ofNat 16 (2 * i) := by rw [hx, idx_even i hi]; rfl
  have e2 : idx 163#16 m.x = memStart + BitVec.ofNat 16 (2 * i + 1) := by
    rw [hx, idx_even i hi]; apply BitVec.eq_of_toNat_eq; simp; omega
  have ne : memStart + BitVec.ofNat 16 (2 * i + 1) ≠ memStart + BitVec.ofNat 16 (2 * i) := off_ne _ (by omega) (by omega) (by omega)
  generalize hl : memStart + BitVec.ofNat 16 (2 * i) = L at *
  generalize hh : memStart + BitVec.ofNat 16 (2 * i + 1) = H at *
  have p : ∀ r, ptr r i = word (r L) (r H) := by intro r; rw [ptr, hl, hh]
  have w := add_len (m.ram L) (m.ram H) m.zp.tmp1
  cases hc : addC (m.ram L) m.zp.tmp1 false
  · refine ⟨?_, ⟨5, ?_⟩, ?_⟩
    rotate_left
    · rt_exec [memCode.aa_loop.eq, e1, e2, hc]
      rfl
    · refine ⟨rfl, rfl, rfl, rfl, rfl, ?_, ?_⟩
      · rw [p, p]
        show word (upd m.ram L _ L) (upd m.ram L _ H) = _
        rw [upd_at, upd_ne ne, ← w, hc]
        congr 1
        apply BitVec.eq_of_toNat_eq; have := (m.ram H).isLt; simp; omega
      · intro a h1 h2
        exact upd_ne h1
  · refine ⟨?_, ⟨7, ?_⟩, ?_⟩
    rotate_left
    · rt_exec [memCode.aa_loop.eq, e1, e2, hc, upd_ne, ne]
      rfl
    · refine ⟨rfl, rfl, rfl, rfl, rfl, ?_, ?_⟩
      · rw [p, p]
        show word (upd (upd m.ram L _) H _ L) (upd (upd m.ram L _) H _ H) = _
        rw [upd_at, upd_ne ne.symm, upd_at, ← w, hc]
        congr 1
      · intro a h1 h2
        exact (upd_ne h2).trans (upd_ne h1)

/-- A byte that is not part of the pointers. -/
def NotPtr (a : W) : Prop := ∀ b < 10, a ≠ memStart + BitVec.ofNat 16 b

/-- The loop over the pointers. -/
theorem aa_loop_correct (d : Nat) : ∀ (m : M) (i : Nat) (k : Code) (st : List Slot), i + d = 4 → m.x = BitVec.ofNat 8 (2 * i) → m.stk = .ret k :: st →
    ∃ m1, Reach memCode memCode.aa_loop m k m1 ∧ m1.stk = st ∧ m1.sl = m.sl ∧ m1.sh = m.sh ∧ m1.zp = m.zp ∧
      (∀ j ≤ 4, ptr m1.ram j = if i ≤ j then ptr m.ram j + BitVec.ofNat 16 m.zp.tmp1.toNat else ptr m.ram j) ∧
      ∀ a, NotPtr a → m1.ram a = m.ram a := by
  induction d with
  | zero =>
    intro m i k st hd hx hk
    obtain ⟨m1, r1, x1, s1, l1, h1, z1, p1, o1⟩ := aa_bump m i (by omega) hx
    obtain rfl : i = 4 := by omega
    refine ⟨?_, r1.trans ⟨5, ?_⟩, ?_⟩
    rotate_left
    · rt_exec [memCode.aa_skip.eq, x1, hx, s1, hk]
      rfl
    · refine ⟨rfl, l1, h1, z1, ?_, ?_⟩
      · intro j hj
        by_cases e : j = 4
        · subst e; rw [if_pos (by omega)]; exact p1
        · rw [if_neg (by omega)]
          show ptr m1.ram j = _
          rw [ptr, ptr, o1 _ (off_ne _ (by omega) (by omega) (by omega)) (off_ne _ (by omega) (by omega) (by omega)),
            o1 _ (off_ne _ (by omega) (by omega) (by omega)) (off_ne _ (by omega) (by omega) (by omega))]
      · intro a ha
        exact o1 a (ha _ (by omega)) (ha _ (by omega))
  | succ d ih =>
    intro m i k st hd hx hk
    obtain ⟨m1, r1, x1, s1, l1, h1, z1, p1, o1⟩ := aa_bump m i (by omega) hx
    have hx2 : m1.x + 1#8 + 1#8 = BitVec.ofNat 8 (2 * (i + 1)) := by
      rw [x1, hx]; apply BitVec.eq_of_toNat_eq; simp; omega
    have hne : ¬ (m1.x + 1#8 + 1#8 - 10#8 = 0#8) := by
      rw [hx2]; intro e; have := congrArg BitVec.toNat e; simp at this; omega
    obtain ⟨m2, r2, e2⟩ : ∃ m2, Reach memCode memCode.aa_skip m1 memCode.aa_loop m2 ∧ ∃ c z n, m2 = { m1 with x := m1.x + 1#8 + 1#8, c := c, z := z, n := n } := by
      refine ⟨?_, ⟨4, ?_⟩, ?_⟩
      rotate_left
      · rt_exec [memCode.aa_skip.eq, hne]
        rfl
      · exact ⟨_, _, _, rfl⟩
    obtain ⟨c, z, n, e2⟩ := e2
    obtain ⟨m3, r3, s3, l3, h3, z3, p3, o3⟩ := ih m2 (i + 1) k st (by omega) (by rw [e2]; exact hx2) (by rw [e2]; exact s1.trans hk)
    subst e2
    refine ⟨m3, r1.trans (r2.trans r3), s3, l3.trans l1, h3.trans h1, z3.trans z1, ?_, ?_⟩
    · intro j hj
      rw [p3 j hj]
      show (if i + 1 ≤ j then ptr m1.ram j + BitVec.ofNat 16 m1.zp.tmp1.toNat else ptr m1.ram j) = _
      rw [z1]
      by_cases e : j = i
      · subst e; rw [if_neg (by omega), if_pos (by omega)]; exact p1
      · have : ptr m1.ram j = ptr m.ram j := by
          rw [ptr, ptr, o1 _ (off_ne _ (by omega) (by omega) (by omega)) (off_ne _ (by omega) (by omega) (by omega)),
            o1 _ (off_ne _ (by omega) (by omega) (by omega)) (off_ne _ (by omega) (by omega) (by omega))]
        rw [this]
        by_cases hij : i ≤ j
        · rw [if_pos (by omega), if_pos hij]
        · rw [if_neg (by omega), if_neg hij]
    · intro a ha
      rw [o3 a ha]
      exact o1 a (ha _ (by omega)) (ha _ (by omega))

/-- The pointers are in order, above the OS and page zero, and not at the very end of the memory. -/
structure Ordered (r : W → B) : Prop where
  lo : 0x300 ≤ (ptr r 0).toNat
  mono : ∀ i < 4, (ptr r i).toNat ≤ (ptr r (i + 1)).toNat
  hi : (ptr r 4).toNat ≤ 65280

theorem Ordered.le {r : W → B} (h : Ordered r) : ∀ i j, i ≤ j → j ≤ 4 → (ptr r i).toNat ≤ (ptr r j).toNat := by
  intro i j hij hj
  induction j with
  | zero => obtain rfl : i = 0 := by omega
            exact Nat.le_refl _
  | succ j ih =>
    by_cases e : i = j + 1
    · subst e; exact Nat.le_refl _
    · exact Nat.le_trans (ih (by omega) (by omega)) (h.mono j (by omega))

/-- What a call of `alloc_area_8` for area `i` and `n` bytes does to the memory. -/
structure Grown (r r' : W → B) (i n : Nat) : Prop where
  ptrs : ∀ j ≤ 4, (ptr r' j).toNat = (ptr r j).toNat + if i ≤ j then n else 0
  moved : ∀ a, (ptr r i).toNat ≤ a → a < (ptr r 4).toNat → r' (BitVec.ofNat 16 (a + n)) = r (BitVec.ofNat 16 a)
  rest : ∀ a : W, NotPtr a → a ≠ saveX → a.toNat < (ptr r i).toNat + n ∨ (ptr r 4).toNat + n ≤ a.toNat → r' a = r a

theorem alloc_area_correct (m : M) (i : Nat) (k : Code) (st : List Slot) (hi : i ≤ 4) (hx : m.x = BitVec.ofNat 8 (2 * i))
    (hk : m.stk = .ret k :: st) (hm : m.zp.mins = 0x88) (ho : Ordered m.ram) (hf : (ptr m.ram 4).toNat + m.a.toNat < (memTop m.ram).toNat) :
    ∃ m', Reach memCode memCode.alloc_area_8 m k m' ∧ m'.stk = st ∧ m'.sl = m.sl ∧ m'.sh = m.sh ∧ (Same m.zp m'.zp ∧ m'.zp.texts = m.zp.texts) ∧
      Grown m.ram m'.ram i m.a.toNat := by
  have hn := m.a.isLt
  have h0i := ho.le 0 i (by omega) hi
  have hi4 := ho.le i 4 hi (by omega)
  have hlo := ho.lo
  have hhi := ho.hi
  obtain ⟨m1, r1, x1, c1, s1, l1, h1, a1, z1⟩ := aa_start m ho.hi hf
  obtain ⟨m2, r2, s2, l2, h2, a2, ax2, sr2, ds2, z2⟩ := aa_setup m1 i hi (x1.trans hx) c1 (by rw [a1]; exact hi4)
  rw [a1] at ax2 sr2 ds2 a2
  obtain ⟨m3, r3, s3, l3, h3, z3, a3⟩ := move_dwn_correct m2 _ _ (by rw [z2.mins, z1]; exact hm) s2 (by rw [ax2]; omega)
  have t1 : m1.zp.tmp1 = m.a := by rw [z1]
  rw [sr2, ds2, ax2, a2, t1] at a3
  have out : ∀ a : W, a ≠ saveX → a.toNat < (ptr m.ram i).toNat + m.a.toNat ∨ (ptr m.ram 4).toNat + m.a.toNat ≤ a.toNat → m3.ram a = m.ram a := by
    intro a ha hr
    rw [a3, copyDown_out, upd_ne ha]
    intro j hj e
    have := congrArg BitVec.toNat e
    rw [off_add, BitVec.toNat_add, BitVec.toNat_ofNat] at this
    omega
  have sx : m3.ram saveX = m.x := by
    rw [a3, copyDown_out, upd_at, x1]
    intro j hj e
    have := congrArg BitVec.toNat e
    rw [off_add, BitVec.toNat_add, BitVec.toNat_ofNat] at this
    have : saveX.toNat = 172 := rfl
    omega
  have pk : ∀ j ≤ 4, ptr m3.ram j = ptr m.ram j := by
    intro j hj
    have q : ∀ b < 10, m3.ram (memStart + BitVec.ofNat 16 b) = m.ram (memStart + BitVec.ofNat 16 b) := by
      intro b hb
      have : (memStart + BitVec.ofNat 16 b).toNat = 162 + b := by simp; omega
      refine out _ ?_ (by omega)
      intro e
      have := congrArg BitVec.toNat e
      simp at this
      omega
    rw [ptr, ptr, q _ (by omega), q _ (by omega)]
  obtain ⟨m4, r4, e4⟩ : ∃ m4, Reach memCode (.lb "aa_ret" :: memCode.aa_ret) m3 memCode.aa_loop m4 ∧ ∃ z n, m4 = { m3 with x := m3.ram saveX, z := z, n := n } := by
    refine ⟨?_, ⟨3, ?_⟩, ?_⟩
    rotate_left
    · rt_exec [memCode.aa_ret.eq]
      rfl
    · exact ⟨_, _, rfl⟩
  obtain ⟨z, n, e4⟩ := e4
  obtain ⟨m5, r5, s5, l5, h5, z5, p5, o5⟩ := aa_loop_correct (4 - i) m4 i k st (by omega) (by rw [e4]; exact sx.trans hx)
    (by rw [e4]; exact s3.trans (s1.trans hk))
  have z4 : m4.zp = m3.zp := by rw [e4]
  have a4 : m4.ram = m3.ram := by rw [e4]
  have t3 : m4.zp.tmp1 = m.a := by rw [z4, z3.tmp1, z2.tmp1, z1]
  have zz : Same m.zp m5.zp := by
    rw [z5, z4]
    refine Same.trans ?_ (z2.toSame.trans z3.toSame)
    rw [z1]; exact ⟨rfl, rfl, rfl, rfl, rfl, rfl⟩
  have zt : m5.zp.texts = m.zp.texts := by rw [z5, z4, z3.texts, z2.texts, z1]; rfl
  refine ⟨m5, r1.trans (r2.trans (r3.trans (r4.trans r5))), s5, ?_, ?_, ⟨zz, zt⟩, ?_, ?_, ?_⟩
  · rw [l5, e4]; exact l3.trans (l2.trans l1)
  · rw [h5, e4]; exact h3.trans (h2.trans h1)
  · intro j hj
    rw [p5 j hj, a4, pk j hj, t3]
    have := ho.le j 4 hj (by omega)
    split
    · rw [BitVec.toNat_add, BitVec.toNat_ofNat]; omega
    · rfl
  · intro a ha1 ha2
    have e : BitVec.ofNat 16 (a + m.a.toNat) = ptr m.ram i + BitVec.ofNat 16 (m.a.toNat + (a - (ptr m.ram i).toNat)) := by
      apply BitVec.eq_of_toNat_eq
      rw [BitVec.toNat_add, BitVec.toNat_ofNat, BitVec.toNat_ofNat]; omega
    have e' : BitVec.ofNat 16 a = ptr m.ram i + BitVec.ofNat 16 (a - (ptr m.ram i).toNat) := by
      apply BitVec.eq_of_toNat_eq
      rw [BitVec.toNat_add, BitVec.toNat_ofNat, BitVec.toNat_ofNat]; omega
    rw [o5, a4, a3, e, copyDown_up _ _ _ _ (by omega) _ (by omega), ← e', upd_ne]
    · intro e
      have := congrArg BitVec.toNat e
      rw [BitVec.toNat_ofNat] at this
      have : saveX.toNat = 172 := rfl
      omega
    · intro b hb e
      have := congrArg BitVec.toNat e
      rw [BitVec.toNat_ofNat, BitVec.toNat_add, BitVec.toNat_ofNat] at this
      have : memStart.toNat = 162 := rfl
      omega
  · intro a ha hs hr
    rw [o5 a ha, a4, out a hs hr]

/-- `alloc_prog`: the size is `opos`, which is reset. -/
theorem alloc_prog_start (m : M) : ∃ z n, Reach memCode memCode.alloc_prog m memCode.alloc_area_8
    { m with a := m.ram oPos, x := 0, z := z, n := n, ram := upd m.ram oPos 0 } := by
  refine ⟨true, false, ⟨4, ?_⟩⟩
  rt_exec [memCode.alloc_prog.eq]

/-- `alloc_laddr`: the last area. -/
theorem alloc_laddr_start (m : M) : ∃ z n, Reach memCode memCode.alloc_laddr m memCode.alloc_area_8 { m with x := 8, z := z, n := n } := by
  refine ⟨false, false, ⟨2, ?_⟩⟩
  rt_exec [memCode.alloc_laddr.eq]
  rfl

/-- `parser_alloc_init`: the low byte of the address is in `A`, the high byte in `Y`. -/
theorem alloc_init (m : M) (k : Code) (st : List Slot) (hk : m.stk = .ret k :: st) :
    ∃ m', Reach memCode memCode.parser_alloc_init m k m' ∧ m'.stk = st ∧ m'.sl = m.sl ∧ m'.sh = m.sh ∧ m'.zp = m.zp ∧
      word (m'.ram endPtr) (m'.ram (endPtr + 1)) = word m.a m.y ∧ ptr m'.ram 0 = word m.a m.y ∧
      (∀ j, 1 ≤ j → j ≤ 4 → ptr m'.ram j = word m.a (m.y + 1)) ∧
      ∀ a, (∀ b < 12, a ≠ endPtr + BitVec.ofNat 16 b) → m'.ram a = m.ram a := by
  refine ⟨?_, ⟨36, ?_⟩, ?_⟩
  rotate_left
  · rt_exec [memCode.parser_alloc_init.eq, memCode.pai_loop.eq, topBit, idx, hk]
    rfl
  · refine ⟨rfl, rfl, rfl, rfl, ?_, ?_, ?_, ?_⟩
    · simp [upd, BitVec.add_sub_cancel]
    · simp [ptr, upd, BitVec.add_sub_cancel]
    · intro j h1 h4
      rcases (by omega : j = 1 ∨ j = 2 ∨ j = 3 ∨ j = 4) with rfl | rfl | rfl | rfl <;> simp [ptr, upd]
    · intro a ha
      have := ha 0 (by omega); have := ha 1 (by omega); have := ha 2 (by omega); have := ha 3 (by omega); have := ha 4 (by omega)
      have := ha 5 (by omega); have := ha 6 (by omega); have := ha 7 (by omega); have := ha 8 (by omega); have := ha 9 (by omega)
      have := ha 10 (by omega); have := ha 11 (by omega)
      simp at *
      simp [upd, *]

end FB.Rt
