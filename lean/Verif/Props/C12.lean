import Verif.Rt.StrOps
import Verif.Props.C07
import Verif.Props.C11
/-!
# C12–C15: strings and blocks of memory

The routines are transcriptions of the assembly text in `Verif.Rt.Mem` and `Verif.Rt.StrOps`.  `strAt r p` is the string
(a list of bytes) whose length byte is at `p` in the memory `r`.
-/
namespace FB
open FB.Rt

/-! ## C12 -/

/-- The address `a` is outside of the 256 bytes from `d` on. -/
def Outside (d a : W) : Prop := 256 ≤ (a - d).toNat

instance (d a : W) : Decidable (Outside d a) := by unfold Outside; infer_instance

/-- Value of the string variable at `v`: a variable holds the address of its string. -/
def Rt.M.strVar (m : M) (v : W) : List B := strAt m.ram (m.peek v)

/-- The word `free + 256` is below `MEMTOP` (`$2E5`): there is room for a string. -/
def Room (m : M) : Prop := m.free.toNat + 256 < (m.peek 0x2E5).toNat

/-- The memory after the allocation of a new string for the variable at `v`. -/
theorem new_at (m : M) (a : W) (h : Outside m.free a) (h1 : a ≠ m.sad) (h2 : a ≠ m.sad + 1) :
    fill m.free 256 0 (updMem2 m.ram m.sad m.free) a = m.ram a := by
  simp only [fill, updMem2, updMem, if_neg h1, if_neg h2]
  rw [if_neg]; exact Nat.not_lt.2 h

theorem new_top (m : M) (h1 : m.sad ≠ 0x2E4) (h2 : m.sad ≠ 0x2E5) (h3 : m.sad ≠ 0x2E6) :
    updMem2 m.ram m.sad m.free 0x2E5#16 = m.ram 0x2E5 ∧ updMem2 m.ram m.sad m.free 0x2E6#16 = m.ram 0x2E6 := by
  have a1 : (0x2E5#16) ≠ m.sad := Ne.symm h2
  have a2 : (0x2E6#16) ≠ m.sad := Ne.symm h3
  have a3 : (0x2E5#16) ≠ m.sad + 1 := by
    intro e; apply h1; have := congrArg (· - 1#16) e; exact ((BitVec.add_sub_cancel _ _).symm.trans this.symm).trans rfl
  have a4 : (0x2E6#16) ≠ m.sad + 1 := by
    intro e; apply h2; have := congrArg (· - 1#16) e; exact ((BitVec.add_sub_cancel _ _).symm.trans this.symm).trans rfl
  simp only [updMem2, updMem, if_neg a1, if_neg a2, if_neg a3, if_neg a4]
  exact ⟨rfl, rfl⟩

theorem strAt_congr {r r' : W → B} {p : W} (h : ∀ i ≤ (r p).toNat, r' (p + BitVec.ofNat 16 i) = r (p + BitVec.ofNat 16 i)) : strAt r' p = strAt r p := by
  have h0 := h 0 (by omega); rw [off_zero] at h0
  rw [strAt, strAt, h0]
  apply List.map_congr_left
  intro i hi; rw [List.mem_range] at hi; exact h _ (by omega)

/-- State of the machine that the program can observe, besides memory and `AX`; the start of free memory is `top`. -/
structure StrDone (m m' : M) (top : W) : Prop where
  stk : m'.stk = m.stk
  sl : m'.sl = m.sl
  sh : m'.sh = m.sh
  sptr : m'.zp.sptr = m.zp.sptr
  saddr : m'.zp.saddr = m.zp.saddr
  saddrh : m'.zp.saddrh = m.zp.saddrh
  mins : m'.zp.mins = m.zp.mins
  free : m'.free = top

theorem done_of {m m1 m2 : M} {st k : List Slot} {d : W} {r : W → B} {top : W} (g : Got { m with stk := k } m1 st d r top) (hs : st = m.stk) (q : Rest m1 m2) :
    StrDone m m2 top :=
  ⟨q.stk.trans (g.stk.trans hs), q.sl.trans g.sl, q.sh.trans g.sh, q.zp.sptr.trans g.sptr, q.zp.saddr.trans g.saddr, q.zp.saddrh.trans g.saddrh,
   q.zp.mins.trans g.mins, by rw [M.free, q.zp.arr, q.zp.arrh]; exact g.arr⟩

theorem copy_outside (r : W → B) (s d a : W) (h : Outside d a) : copyDown (s + 1) (d + 1) (r s).toNat (upd r d (r s)) a = r a := by
  have hl := (r s).isLt
  have := copy_out r s d (r s).toNat (r s) (by omega) 0 (by omega) a h
  rwa [off_zero] at this

theorem cat_outside (r : W → B) (s d a : W) (h : Outside d a) :
    copyDown (s + 1) (d + BitVec.ofNat 16 (r d).toNat + 1) ((catLen (r d) (r s)).toNat - (r d).toNat) (upd r d (catLen (r d) (r s))) a = r a := by
  have hl := (r s).isLt; have hd := (r d).isLt
  have hc := catLen_toNat (r d) (r s)
  exact copy_out r s d _ _ (by omega) _ (by omega) a h

/-- **C12.** `v$ = s$` when the variable has a string: the variable has the value of the source, and only its own buffer of
256 bytes is written.  The source is the same string or does not touch that buffer. -/
theorem C12_assign (m : M) (hi : m.zp.mins = 0x88) (hp : m.ram (m.sad + 1) ≠ 0)
    (hv : Outside (m.peek m.sad) m.sad) (hv' : Outside (m.peek m.sad) (m.sad + 1)) (ha : Apart m.ram m.ax (m.peek m.sad)) :
    ∃ m', Halts memCode memCode.EXE_COPY_STR m m' ∧ m'.strVar m.sad = strAt m.ram m.ax ∧
      (∀ a, Outside (m.peek m.sad) a → m'.ram a = m.ram a) ∧ StrDone m m' m.free := by
  obtain ⟨m1, r1, g⟩ := got_set { m with stk := .ret copyRest :: m.stk } _ _ rfl hp
  obtain ⟨m2, h2, k, e⟩ := copy_rest m1 g.y (g.mins.trans hi)
  rw [g.dst, g.msrc, g.msrch, g.ram] at e
  have hout : ∀ a, Outside (m.peek m.sad) a → m2.ram a = m.ram a := by
    intro a h; rw [e]; exact copy_outside m.ram m.ax (m.peek m.sad) a h
  refine ⟨m2, (copy_enter m).halts (r1.halts h2), ?_, hout, done_of g rfl k⟩
  have : m2.peek m.sad = m.peek m.sad := by rw [M.peek, M.peek, hout _ hv, hout _ hv']
  rw [M.strVar, this, e]
  exact copy_str m.ram m.ax (m.peek m.sad) ha

/-- **C12.** `v$ =+ s$` when the variable has a string: as many characters of the source as fit in 255 are appended. -/
theorem C12_append (m : M) (hi : m.zp.mins = 0x88) (hp : m.ram (m.sad + 1) ≠ 0)
    (hv : Outside (m.peek m.sad) m.sad) (hv' : Outside (m.peek m.sad) (m.sad + 1)) (ha : Apart m.ram m.ax (m.peek m.sad)) :
    ∃ m', Halts memCode memCode.EXE_CAT_STR m m' ∧ m'.strVar m.sad = (m.strVar m.sad ++ strAt m.ram m.ax).take 255 ∧
      (∀ a, Outside (m.peek m.sad) a → m'.ram a = m.ram a) ∧ StrDone m m' m.free := by
  obtain ⟨m1, r1, g⟩ := got_set { m with stk := .ret catRest :: m.stk } _ _ rfl hp
  obtain ⟨m2, h2, k, e⟩ := cat_rest m1 g.y (g.mins.trans hi) m.ax (m.peek m.sad) (by rw [g.msrc, g.msrch]; rfl) g.dst
  rw [g.ram] at e
  have hout : ∀ a, Outside (m.peek m.sad) a → m2.ram a = m.ram a := by
    intro a h; rw [e]; exact cat_outside m.ram m.ax (m.peek m.sad) a h
  refine ⟨m2, (cat_enter m).halts (r1.halts h2), ?_, hout, done_of g rfl k⟩
  have : m2.peek m.sad = m.peek m.sad := by rw [M.peek, M.peek, hout _ hv, hout _ hv']
  rw [M.strVar, this, e]
  exact cat_str m.ram m.ax (m.peek m.sad) ha

/-- Conditions for the first assignment to a variable: it has no string (the high byte of its pointer is 0), the variable is
not in the words of the OS, nor in free memory, and the source is not in free memory nor contains the variable. -/
structure NewVar (m : M) : Prop where
  null : m.ram (m.sad + 1) = 0
  os : m.sad ≠ 0x2E4 ∧ m.sad ≠ 0x2E5 ∧ m.sad ≠ 0x2E6
  var : Outside m.free m.sad
  var' : Outside m.free (m.sad + 1)
  src : ∀ i ≤ (m.ram m.ax).toNat, Outside m.free (m.ax + BitVec.ofNat 16 i) ∧ m.ax + BitVec.ofNat 16 i ≠ m.sad ∧
    m.ax + BitVec.ofNat 16 i ≠ m.sad + 1

theorem room_new {m : M} (hn : NewVar m) : (word m.zp.arr m.zp.arrh).toNat + 256 <
    (word (updMem2 m.ram m.sad m.free 0x2E5#16) (updMem2 m.ram m.sad m.free 0x2E6#16)).toNat ↔ Room m := by
  obtain ⟨h1, h2, h3⟩ := hn.os
  rw [(new_top m h1 h2 h3).1, (new_top m h1 h2 h3).2, Room, M.peek, mkW_eq]
  exact Iff.rfl

/-- The source in the new memory. -/
theorem new_src {m : M} (hn : NewVar m) :
    strAt (fill m.free 256 0 (updMem2 m.ram m.sad m.free)) m.ax = strAt m.ram m.ax ∧
    Apart (fill m.free 256 0 (updMem2 m.ram m.sad m.free)) m.ax m.free ∧ (fill m.free 256 0 (updMem2 m.ram m.sad m.free)) m.free = 0 := by
  have h : ∀ i ≤ (m.ram m.ax).toNat, (fill m.free 256 0 (updMem2 m.ram m.sad m.free)) (m.ax + BitVec.ofNat 16 i) = m.ram (m.ax + BitVec.ofNat 16 i) := by
    intro i hi; obtain ⟨h1, h2, h3⟩ := hn.src i hi; exact new_at m _ h1 h2 h3
  have h0 := h 0 (by omega); rw [off_zero] at h0
  refine ⟨strAt_congr h, .inr ?_, ?_⟩
  · intro i hi j hj e
    rw [h0] at hi
    have := (hn.src i hi).1
    rw [e, Outside, BitVec.add_comm, BitVec.add_sub_cancel, BitVec.toNat_ofNat] at this
    omega
  · simp [fill]

theorem new_ptr {m m2 : M} (hn : NewVar m) (h : ∀ a, Outside m.free a → m2.ram a = fill m.free 256 0 (updMem2 m.ram m.sad m.free) a) :
    m2.peek m.sad = m.free := by
  have e1 := h _ hn.var
  have e2 := h _ hn.var'
  have o1 : ¬ (m.sad - m.free).toNat < 256 := Nat.not_lt.2 hn.var
  have o2 : ¬ (m.sad + 1 - m.free).toNat < 256 := Nat.not_lt.2 hn.var'
  have : ({ m2 with ram := updMem2 m.ram m.sad m.free } : M).peek m.sad = m.free :=
    peek_upd2 _ m.ram m.sad m.free rfl
  rw [← this, M.peek, M.peek, e1, e2]
  simp only [fill, if_neg o1, if_neg o2]

theorem new_out {m : M} {m2 : M} (h : ∀ a, Outside m.free a → m2.ram a = fill m.free 256 0 (updMem2 m.ram m.sad m.free) a)
    (a : W) (ha : Outside m.free a) (h1 : a ≠ m.sad) (h2 : a ≠ m.sad + 1) : m2.ram a = m.ram a := by
  rw [h a ha]; exact new_at m a ha h1 h2

/-- **C12.** First assignment to a variable: it gets a buffer of its own at the start of free memory, and nothing else is
written. -/
theorem C12_assign_new (m : M) (hi : m.zp.mins = 0x88) (hn : NewVar m) (hr : Room m) :
    ∃ m', Halts memCode memCode.EXE_COPY_STR m m' ∧ m'.strVar m.sad = strAt m.ram m.ax ∧ m'.peek m.sad = m.free ∧
      (∀ a, Outside m.free a → a ≠ m.sad → a ≠ m.sad + 1 → m'.ram a = m.ram a) ∧ StrDone m m' (m.free + 256) := by
  obtain ⟨m1, r1, g⟩ := got_alloc { m with stk := .ret copyRest :: m.stk } _ _ rfl hn.null ((room_new hn).2 hr)
  obtain ⟨m2, h2, k, e⟩ := copy_rest m1 g.y (g.mins.trans hi)
  rw [g.dst, g.msrc, g.msrch, g.ram] at e
  obtain ⟨s1, s2, s3⟩ := new_src hn
  have hout : ∀ a, Outside m.free a → m2.ram a = fill m.free 256 0 (updMem2 m.ram m.sad m.free) a := by
    intro a h; rw [e]; exact copy_outside (fill m.free 256 0 (updMem2 m.ram m.sad m.free)) m.ax m.free a h
  refine ⟨m2, (copy_enter m).halts (r1.halts h2), ?_, new_ptr hn hout, new_out hout, done_of g rfl k⟩
  rw [M.strVar, new_ptr hn hout, e, ← s1]
  exact copy_str _ m.ax m.free s2

/-- **C12.** Append to a variable without a string: the same as assignment. -/
theorem C12_append_new (m : M) (hi : m.zp.mins = 0x88) (hn : NewVar m) (hr : Room m) :
    ∃ m', Halts memCode memCode.EXE_CAT_STR m m' ∧ m'.strVar m.sad = strAt m.ram m.ax ∧ m'.peek m.sad = m.free ∧
      (∀ a, Outside m.free a → a ≠ m.sad → a ≠ m.sad + 1 → m'.ram a = m.ram a) ∧ StrDone m m' (m.free + 256) := by
  obtain ⟨m1, r1, g⟩ := got_alloc { m with stk := .ret catRest :: m.stk } _ _ rfl hn.null ((room_new hn).2 hr)
  obtain ⟨m2, h2, k, e⟩ := cat_rest m1 g.y (g.mins.trans hi) m.ax m.free (by rw [g.msrc, g.msrch]; rfl) g.dst
  rw [g.ram] at e
  obtain ⟨s1, s2, s3⟩ := new_src hn
  have hout : ∀ a, Outside m.free a → m2.ram a = fill m.free 256 0 (updMem2 m.ram m.sad m.free) a := by
    intro a h; rw [e]; exact cat_outside (fill m.free 256 0 (updMem2 m.ram m.sad m.free)) m.ax m.free a h
  refine ⟨m2, (cat_enter m).halts (r1.halts h2), ?_, new_ptr hn hout, new_out hout, done_of g rfl k⟩
  rw [M.strVar, new_ptr hn hout, e]
  refine (cat_str (fill m.free 256 0 (updMem2 m.ram m.sad m.free)) m.ax m.free s2).trans ?_
  have hl := strAt_length (fill m.free 256 0 (updMem2 m.ram m.sad m.free)) m.free
  rw [s3] at hl
  rw [s1, List.length_eq_zero_iff.1 hl, List.nil_append, List.take_of_length_le]
  rw [strAt_length]; have := (m.ram m.ax).isLt; omega

/-- **C12.** Without room for the buffer the program ends with an error, in both cases. -/
theorem C12_no_memory (m : M) (hn : NewVar m) (hr : ¬ Room m) :
    Fails memCode memCode.EXE_COPY_STR m ∧ Fails memCode memCode.EXE_CAT_STR m :=
  ⟨(copy_enter m).fails (got_fails { m with stk := .ret copyRest :: m.stk } hn.null (mt (room_new hn).1 hr)),
   (cat_enter m).fails (got_fails { m with stk := .ret catRest :: m.stk } hn.null (mt (room_new hn).1 hr))⟩

/-! ## C13 -/

/-- The documented value of `s$[pos, count]` (`manual.md`, string expressions): the characters from position `pos` (from 1 on),
at most `count` of them. -/
def substr (s : List B) (pos count : Int) : List B :=
  if 1 ≤ pos then (s.drop (pos - 1).toNat).take count.toNat else []

/-- Positions other than 0. -/
theorem slice_nonzero (m : M) (he : Entry m) (h0 : m.stkAt 0 ≠ 0) (ha : Apart m.ram (m.stkAt 1) LB) :
    ∃ m' r, Halts idxCode idxCode.EXE_STR_IDX m m' ∧ m'.ax = LB ∧ Moved m m' r ∧
      strAt r LB = substr (strAt m.ram (m.stkAt 1)) (m.stkAt 0).toInt m.ax.toInt ∧ ∀ a, Outside LB a → r a = m.ram a := by
  have e0 : m.stkAt 0 = word (m.sl m.y) (m.sh m.y) := stkAt0 he
  have lx := m.x.isLt; have la := m.a.isLt; have l1 := (m.sl m.y).isLt; have l2 := (m.sh m.y).isLt
  have hax : m.ax.toNat = m.a.toNat + 256 * m.x.toNat := by simp [M.ax]
  have hpos : (m.stkAt 0).toNat = (m.sl m.y).toNat + 256 * (m.sh m.y).toNat := by rw [e0]; simp
  have hs := strAt_length m.ram (m.stkAt 1)
  have lr := (m.ram (m.stkAt 1)).isLt
  by_cases hz : topBit m.x = true ∨ m.sh m.y ≠ 0#8
  · obtain ⟨m', h, e, k⟩ := idx_zero_case m hz
    refine ⟨m', _, h, e, k, ?_, fun a h => ?_⟩
    · have : substr (strAt m.ram (m.stkAt 1)) (m.stkAt 0).toInt m.ax.toInt = [] := by
        rw [substr]
        by_cases hp : 1 ≤ (m.stkAt 0).toInt
        · rw [if_pos hp]
          rcases hz with hz | hz
          · have hz : 128 ≤ m.x.toNat := by simpa [topBit] using hz
            have : m.ax.toInt.toNat = 0 := by rw [toInt16]; split <;> omega
            rw [this, List.take_zero]
          · have hz : (m.sh m.y).toNat ≠ 0 := fun e => hz (BitVec.eq_of_toNat_eq e)
            rw [List.drop_eq_nil_of_le, List.take_nil]
            rw [hs]; rw [toInt16] at hp ⊢; split at hp <;> (try split) <;> omega
        · rw [if_neg hp]
      rw [this, ← List.length_eq_zero_iff, strAt_length]
      simp [upd]
    · have := slice_out m.ram 0 0 0 (by omega) a h
      rw [upd, if_neg]
      rintro rfl
      rw [Outside, BitVec.sub_self] at h; simp at h
  · have hx : topBit m.x = false := by simpa using fun h => hz (.inl h)
    have hp : m.sh m.y = 0#8 := by by_contra h; exact hz (.inr h)
    obtain ⟨m', h, e, k⟩ := slice_correct m he hx hp
    have hx' : m.x.toNat < 128 := by simpa [topBit] using hx
    rw [hp] at hpos
    have hpn : (m.sl m.y).toNat ≠ 0 := by
      intro h; apply h0; apply BitVec.eq_of_toNat_eq; rw [hpos, h]; rfl
    have hm1 : (m.sl m.y - 1).toNat = (m.sl m.y).toNat - 1 := by
      have : (1 : B).toNat = 1 := rfl
      rw [BitVec.toNat_sub, this]; omega
    refine ⟨m', _, h, e, k, ?_, fun a h => slice_out m.ram _ _ _ ?_ a h⟩
    · rw [idx, hm1]
      refine (slice_str m.ram (m.stkAt 1) (m.sl m.y).toNat (idxCount m).toNat (by omega) (by omega) (by have := (idxCount m).isLt; omega) ha).trans ?_
      have hp2 : (m.stkAt 0).toInt = (m.sl m.y).toNat := by rw [toInt16, hpos]; split <;> simp_all <;> omega
      rw [substr, hp2, if_pos (by omega), show ((m.sl m.y).toNat - 1 : Int).toNat = (m.sl m.y).toNat - 1 by omega]
      by_cases hx0 : m.x = 0#8
      · have : m.ax.toInt.toNat = (idxCount m).toNat := by
          rw [idxCount, if_pos hx0, toInt16, hax, hx0]; simp; split <;> omega
        rw [this]
      · have hxn : m.x.toNat ≠ 0 := fun e => hx0 (BitVec.eq_of_toNat_eq e)
        have e1 : (idxCount m).toNat = 255 := by rw [idxCount, if_neg hx0]; rfl
        have e2 : 255 ≤ m.ax.toInt.toNat := by rw [toInt16]; split <;> omega
        rw [e1, List.take_of_length_le (by rw [List.length_drop]; omega), List.take_of_length_le (by rw [List.length_drop]; omega)]
    · have := (idxCount m).isLt
      rw [sliceLen]; omega

/-- Position 0: the position wraps to 255 and the first character read is past the end of every string. -/
theorem slice_at_zero (m : M) (he : Entry m) (h0 : m.stkAt 0 = 0) :
    ∃ m' r, Halts idxCode idxCode.EXE_STR_IDX m m' ∧ m'.ax = LB ∧ Moved m m' r ∧ strAt r LB = [] ∧ ∀ a, Outside LB a → r a = m.ram a := by
  have e0 : m.stkAt 0 = word (m.sl m.y) (m.sh m.y) := stkAt0 he
  have lr := (m.ram (m.stkAt 1)).isLt
  have l0 : (m.sl m.y).toNat + 256 * (m.sh m.y).toNat = 0 := by rw [← word_toNat, ← e0, h0]; rfl
  have hl : m.sl m.y = 0#8 := BitVec.eq_of_toNat_eq (by show _ = 0; omega)
  have hh : m.sh m.y = 0#8 := BitVec.eq_of_toNat_eq (by show _ = 0; omega)
  by_cases hx : topBit m.x = true
  · obtain ⟨m', h, e, k⟩ := idx_zero_case m (.inl hx)
    refine ⟨m', _, h, e, k, ?_, fun a h => ?_⟩
    · rw [← List.length_eq_zero_iff, strAt_length]; simp [upd]
    · rw [upd, if_neg]
      rintro rfl
      rw [Outside, BitVec.sub_self] at h; simp at h
  · have hx : topBit m.x = false := by simpa using hx
    obtain ⟨m', h, e, k⟩ := slice_correct m he hx hh
    have hs : sliceLen (m.ram (m.stkAt 1)).toNat (m.sl m.y - 1).toNat (idxCount m).toNat = 0 := by
      rw [hl, sliceLen]; have : (0#8 - 1).toNat = 255 := rfl
      omega
    rw [hs] at k
    refine ⟨m', _, h, e, k, ?_, fun a h => slice_out m.ram _ _ _ (by omega) a h⟩
    rw [← List.length_eq_zero_iff, strAt_length]; simp [upd]

/-- **C13.** `s$[pos, count]` for every position and every count.  The result is in the line buffer, which is the only memory
written; the string is in the line buffer itself (a slice of a slice) or elsewhere. -/
theorem C13_slice (m : M) (he : Entry m) (ha : Apart m.ram (m.stkAt 1) LB) :
    ∃ m', Halts idxCode idxCode.EXE_STR_IDX m m' ∧ m'.ax = LB ∧
      strAt m'.ram LB = substr (strAt m.ram (m.stkAt 1)) (m.stkAt 0).toInt m.ax.toInt ∧
      (∀ a, Outside LB a → m'.ram a = m.ram a) ∧ Moved m m' m'.ram := by
  by_cases h0 : m.stkAt 0 = 0
  · obtain ⟨m', r, h, e, k, e1, e2⟩ := slice_at_zero m he h0
    obtain rfl := k.ram
    refine ⟨m', h, e, ?_, e2, k⟩
    rw [e1, substr, if_neg]; rw [h0]; decide
  · obtain ⟨m', r, h, e, k, e1, e2⟩ := slice_nonzero m he h0 ha
    obtain rfl := k.ram
    exact ⟨m', h, e, e1, e2, k⟩

/-! ## C14 -/

theorem cmpX_cases (l l' : List B) : cmpX l l' = 1 ∨ cmpX l l' = 255 ∨ cmpX l l' = 0 := by
  induction l generalizing l' with
  | nil => cases l' <;> simp [cmpX]
  | cons a l ih =>
    cases l' with
    | nil => simp [cmpX]
    | cons b l' => rw [cmpX]; split; exact ih l'; split <;> simp

/-- **C14.** `CMP_STR` followed by the integer comparison (`basic.syn:251-257`) decides the lexicographic order of the two
strings by their (unsigned) bytes, in which a proper prefix comes first; `s` is the left operand, in the stack, and `t` the right
one, in `AX`. -/
theorem C14_compare (m : M) (he : Entry m) (s t : List Nat) (hs : s = (strAt m.ram (m.stkAt 0)).map BitVec.toNat)
    (ht : t = (strAt m.ram m.ax).map BitVec.toNat) :
    ∃ m1, Halts cmpStrCode cmpStrCode.EXE_CMP_STR m m1 ∧ m1.ram = m.ram ∧
      (∃ m', Halts cmpCode cmpCode.EXE_LT { m1 with y := m1.zp.sptr } m' ∧ m'.ax = (if s < t then 1 else 0) ∧ m'.zp.sptr = m.zp.sptr + 1) ∧
      (∃ m', Halts cmpCode cmpCode.EXE_GT { m1 with y := m1.zp.sptr } m' ∧ m'.ax = (if t < s then 1 else 0) ∧ m'.zp.sptr = m.zp.sptr + 1) ∧
      (∃ m', Halts cmpCode cmpCode.EXE_EQ { m1 with y := m1.zp.sptr } m' ∧ m'.ax = (if s = t then 1 else 0) ∧ m'.zp.sptr = m.zp.sptr + 1) ∧
      (∃ m', Halts cmpCode cmpCode.EXE_NEQ { m1 with y := m1.zp.sptr } m' ∧ m'.ax = (if s ≠ t then 1 else 0) ∧ m'.zp.sptr = m.zp.sptr + 1) := by
  obtain ⟨m1, h, k⟩ := cmp_correct m he
  have hinj : s = t ↔ strAt m.ram m.ax = strAt m.ram (m.stkAt 0) := by
    rw [hs, ht]; exact ⟨fun h => ((List.map_inj_right (fun _ _ h => BitVec.eq_of_toNat_eq h)).1 h).symm, fun h => by rw [h]⟩
  obtain ⟨p1, p2, p3⟩ := cmpX_spec (strAt m.ram m.ax) (strAt m.ram (m.stkAt 0))
  rw [← hs, ← ht] at p1 p2
  rw [← hinj] at p3
  have hx := cmpX_cases (strAt m.ram m.ax) (strAt m.ram (m.stkAt 0))
  generalize cmpX (strAt m.ram m.ax) (strAt m.ram (m.stkAt 0)) = X at *
  have hst : ({ m1 with y := m1.zp.sptr } : M).stkAt 0 = word X X := by
    simp [M.stkAt, k.sl, k.sh, k.zp.sptr, upd]
  have hax : ({ m1 with y := m1.zp.sptr } : M).ax = 0 := k.ax
  have hsp : ({ m1 with y := m1.zp.sptr } : M).zp.sptr = m.zp.sptr := k.zp.sptr
  obtain ⟨⟨a1, b1, c1, d1⟩, ⟨a2, b2, c2, d2⟩, ⟨a3, b3, c3, d3⟩, ⟨a4, b4, c4, d4⟩⟩ := C09_comparisons { m1 with y := m1.zp.sptr } rfl
  rw [hst, hax] at c1 c2 c3 c4
  have q : ((word X X).toInt < (0 : W).toInt ↔ s < t) ∧ ((word X X).toInt > (0 : W).toInt ↔ t < s) ∧ ((word X X).toInt = (0 : W).toInt ↔ s = t) := by
    rw [← p1, ← p2, ← p3]
    rcases hx with rfl | rfl | rfl <;> decide
  obtain ⟨q1, q2, q3⟩ := q
  refine ⟨m1, h, k.ram, ⟨a1, b1, ?_, by rw [d1.sptr, hsp]⟩, ⟨a2, b2, ?_, by rw [d2.sptr, hsp]⟩, ⟨a3, b3, ?_, by rw [d3.sptr, hsp]⟩, ⟨a4, b4, ?_, by rw [d4.sptr, hsp]⟩⟩
  · rw [c1]; simp only [q1]
  · rw [c2]; simp only [q2]
  · rw [c3]; simp only [q3]
  · rw [c4]; simp only [ne_eq, q3]

/-! ## C15 -/

/-- **C15.** `MOVE source, destination, n` leaves memory as the documented ascending loop does, for all addresses and lengths. -/
theorem C15_move (m : M) (he : Entry m) (hi : m.zp.mins = 0x88) : ∃ m', Halts memCode memCode.EXE_MOVE m m' ∧
    Moved m m' (copyUp (m.stkAt 1) (m.stkAt 0) m.ax.toNat m.ram) := move_correct m he hi

/-- **C15.** `-MOVE source, destination, n` leaves memory as the documented descending loop does, for all addresses and for lengths
up to 65280.  Missing: lengths from 65281 on, for which it is false (`C15_nmove_refuted`). -/
theorem C15_nmove_partial (m : M) (he : Entry m) (hi : m.zp.mins = 0x88) (hl : m.ax.toNat ≤ 65280) : ∃ m', Halts memCode memCode.EXE_NMOVE m m' ∧
    Moved m m' (copyDown (m.stkAt 1) (m.stkAt 0) m.ax.toNat m.ram) := nmove_correct m he hi hl

/-- A state: `s` and `t` are the entries of the stack (`t` the top), `a` is `AX`, the destination variable is at `$2000`, free memory
from `$5000` to `$BC1F`. -/
def exMem (s t a : W) (ram : W → B) : M :=
  { a := lo a, x := hi a, y := 0x20, c := false, z := false, n := false, v := false, stk := [.byte 7]
    zp := { tmp1 := 1, tmp1h := 2, tmp2 := 3, tmp2h := 4, tmp3 := 5, tmp3h := 6, dsign := 0, sptr := 0x20, saddr := 0, saddrh := 0x20,
            msrc := 0, msrch := 0, mdst := 0, mdsth := 0, mins := 0x88, arr := 0, arrh := 0x50, op1 := 0, op2 := 0, op3 := 0, tmp4 := 0, ioerr := 0,
            inb := 0, inbh := 0, cix := 0 }
    sl := fun i => if i = 0x20 then lo t else if i = 0x21 then lo s else 0
    sh := fun i => if i = 0x20 then hi t else if i = 0x21 then hi s else 0
    ram := ram }

/-- **C15 is false** for long blocks: `-MOVE 0, 1, 65281` does not copy the last byte. -/
theorem C15_nmove_refuted : ∃ m, Entry m ∧ m.zp.mins = 0x88 ∧
    ∀ m', Halts memCode memCode.EXE_NMOVE m m' → m'.ram ≠ copyDown (m.stkAt 1) (m.stkAt 0) m.ax.toNat m.ram := by
  let r : W → B := fun w => if w = 65280 then 1 else 0
  have hax : (exMem 0 1 65281 r).ax.toNat = 65281 := by decide
  refine ⟨exMem 0 1 65281 r, rfl, rfl, fun m' h e => ?_⟩
  obtain ⟨m2, h2, k⟩ := nmove_long (exMem 0 1 65281 r) rfl rfl (by rw [hax]; omega)
  obtain rfl := h.unique h2
  have e1 : (exMem 0 1 65281 r).stkAt 1 = 0 := by decide
  have e0 : (exMem 0 1 65281 r).stkAt 0 = 1 := by decide
  have k := k.ram
  rw [e, hax, e0, e1] at k
  have k := congrFun k 65281
  rw [show 65281 - 65280 = 1 from rfl, show (65281 : Nat) = 65280 + 1 from rfl, copyDown, copyDown_out _ _ _ _ _ (fun j hj => ?_)] at k
  · revert k; show ¬ _; simp only [upd, copyDown]; decide
  · exact off_ne' (p := 1) 65280 j (by decide) rfl (by omega) (by omega) (by omega)

/-- **C15.** `MSET destination, n, v` sets exactly `n` bytes. -/
theorem C15_mset (m : M) (he : Entry m) : ∃ m', Halts memCode memCode.EXE_MSET m m' ∧
    Moved m m' (fill (m.stkAt 1) (m.stkAt 0).toNat (lo m.ax) m.ram) := mset_correct m he

/-! ## Examples -/

/-- `"HELLO"` at `$4000`; the variable at `$2000` points to `$3080`, with `"AB"`; `MEMTOP` is `$BC1F`. -/
def exRam : W → B := fun w =>
  match w.toNat with
  | 0x4000 => 5 | 0x4001 => 72 | 0x4002 => 69 | 0x4003 => 76 | 0x4004 => 76 | 0x4005 => 79
  | 0x2000 => 0x80 | 0x2001 => 0x30 | 0x3080 => 2 | 0x3081 => 65 | 0x3082 => 66
  | 0x2E5 => 0x1F | 0x2E6 => 0xBC
  | _ => 0
/-- The same when the variable has no string yet, and the top of memory is `top`. -/
def exRam0 (top : B) : W → B := fun w => if w = 0x2000 ∨ w = 0x2001 then 0 else if w = 0x2E6 then top else exRam w

theorem exApart {r : W → B} {s d : W} (h : (r s).toNat ≤ 255) (h1 : 256 ≤ (s - d).toNat) (h2 : 256 ≤ (d - s).toNat) : Apart r s d := by
  right
  intro i hi j hj e
  have := congrArg BitVec.toNat e
  have l1 := s.isLt; have l2 := d.isLt
  rw [BitVec.toNat_sub] at h1 h2
  rw [BitVec.toNat_add, BitVec.toNat_add, BitVec.toNat_ofNat, BitVec.toNat_ofNat] at this
  omega

example : ∃ m', Halts memCode memCode.EXE_COPY_STR (exMem 0 0 0x4000 exRam) m' ∧ m'.strVar 0x2000 = [72, 69, 76, 76, 79] := by
  obtain ⟨m', h, e, _⟩ := C12_assign (exMem 0 0 0x4000 exRam) rfl (by decide) (by decide) (by decide) (exApart (by decide) (by decide) (by decide))
  exact ⟨m', h, e.trans (by decide)⟩
example : ∃ m', Halts memCode memCode.EXE_CAT_STR (exMem 0 0 0x4000 exRam) m' ∧ m'.strVar 0x2000 = [65, 66, 72, 69, 76, 76, 79] := by
  obtain ⟨m', h, e, _⟩ := C12_append (exMem 0 0 0x4000 exRam) rfl (by decide) (by decide) (by decide) (exApart (by decide) (by decide) (by decide))
  exact ⟨m', h, e.trans (by decide)⟩
theorem exNew (top : B) (h : top = 0xBC ∨ top = 0x50) : NewVar (exMem 0 0 0x4000 (exRam0 top)) := by
  rcases h with rfl | rfl
  all_goals refine ⟨by decide, by decide, by decide, by decide, ?_⟩
  all_goals
    intro i hi
    have : i ≤ 5 := hi
    rcases (by omega : i = 0 ∨ i = 1 ∨ i = 2 ∨ i = 3 ∨ i = 4 ∨ i = 5) with rfl | rfl | rfl | rfl | rfl | rfl <;> decide
example : ∃ m', Halts memCode memCode.EXE_COPY_STR (exMem 0 0 0x4000 (exRam0 0xBC)) m' ∧ m'.strVar 0x2000 = [72, 69, 76, 76, 79] ∧
    m'.peek 0x2000 = 0x5000 := by
  obtain ⟨m', h, e, e', _⟩ := C12_assign_new (exMem 0 0 0x4000 (exRam0 0xBC)) rfl (exNew _ (.inl rfl)) (by unfold Room; decide)
  exact ⟨m', h, e.trans (by decide), e'⟩
example : ∃ m', Halts memCode memCode.EXE_CAT_STR (exMem 0 0 0x4000 (exRam0 0xBC)) m' ∧ m'.strVar 0x2000 = [72, 69, 76, 76, 79] := by
  obtain ⟨m', h, e, _⟩ := C12_append_new (exMem 0 0 0x4000 (exRam0 0xBC)) rfl (exNew _ (.inl rfl)) (by unfold Room; decide)
  exact ⟨m', h, e.trans (by decide)⟩
example : Fails memCode memCode.EXE_COPY_STR (exMem 0 0 0x4000 (exRam0 0x50)) :=
  (C12_no_memory _ (exNew _ (.inr rfl)) (by unfold Room; decide)).1
/-- `"HELLO"[2,3]`, `"HELLO"[4,-1]`, `"HELLO"[3,1000]`. -/
example : ∃ m', Halts idxCode idxCode.EXE_STR_IDX (exMem 0x4000 2 3 exRam) m' ∧ strAt m'.ram LB = [69, 76, 76] := by
  obtain ⟨m', h, _, e, _⟩ := C13_slice (exMem 0x4000 2 3 exRam) rfl (exApart (by decide) (by decide) (by decide))
  exact ⟨m', h, e.trans (by decide)⟩
example : ∃ m', Halts idxCode idxCode.EXE_STR_IDX (exMem 0x4000 4 (-1) exRam) m' ∧ strAt m'.ram LB = [] := by
  obtain ⟨m', h, _, e, _⟩ := C13_slice (exMem 0x4000 4 (-1) exRam) rfl (exApart (by decide) (by decide) (by decide))
  exact ⟨m', h, e.trans (by decide)⟩
example : ∃ m', Halts idxCode idxCode.EXE_STR_IDX (exMem 0x4000 3 1000 exRam) m' ∧ strAt m'.ram LB = [76, 76, 79] := by
  obtain ⟨m', h, _, e, _⟩ := C13_slice (exMem 0x4000 3 1000 exRam) rfl (exApart (by decide) (by decide) (by decide))
  exact ⟨m', h, e.trans (by decide)⟩
/-- `"AB" < "HELLO"`. -/
example : ∃ m1 m', Halts cmpStrCode cmpStrCode.EXE_CMP_STR (exMem 0 0x3080 0x4000 exRam) m1 ∧
    Halts cmpCode cmpCode.EXE_LT { m1 with y := m1.zp.sptr } m' ∧ m'.ax = 1 := by
  obtain ⟨m1, h, _, ⟨m', h', e, _⟩, _⟩ := C14_compare (exMem 0 0x3080 0x4000 exRam) rfl _ _ rfl rfl
  exact ⟨m1, m', h, h', e.trans (by decide)⟩
/-- Overlapping blocks. -/
example : ∃ m', Halts memCode memCode.EXE_MOVE (exMem 0x4001 0x4002 3 exRam) m' ∧ m'.ram 0x4004 = 72 := by
  obtain ⟨m', h, k⟩ := C15_move (exMem 0x4001 0x4002 3 exRam) rfl rfl
  exact ⟨m', h, by rw [k.ram, show (exMem 0x4001 0x4002 3 exRam).ax.toNat = 3 by decide]; decide⟩
example : ∃ m', Halts memCode memCode.EXE_NMOVE (exMem 0x4001 0x4002 3 exRam) m' ∧ m'.ram 0x4004 = 76 := by
  obtain ⟨m', h, k⟩ := C15_nmove_partial (exMem 0x4001 0x4002 3 exRam) rfl rfl (by decide)
  exact ⟨m', h, by rw [k.ram, show (exMem 0x4001 0x4002 3 exRam).ax.toNat = 3 by decide]; decide⟩
example : ∃ m', Halts memCode memCode.EXE_MSET (exMem 0x4001 3 42 exRam) m' ∧ m'.ram 0x4003 = 42 ∧ m'.ram 0x4004 = 76 := by
  obtain ⟨m', h, k⟩ := C15_mset (exMem 0x4001 3 42 exRam) rfl
  exact ⟨m', h, by rw [k.ram]; decide, by rw [k.ram]; decide⟩

end FB
