import Verif.Rt.Arith
import Verif.Rt.Labels
import Mathlib.Tactic.Ring
import Mathlib.Tactic.Linarith
/-!
# `INC`, `DEC`, `FOR` and `NEXT`

Transcription of `/repo/src/interp/{inc,dec,for,for_exit}.asm`.  What they do to memory is stated with `updMem2`, the
store of a word of the virtual machine (`Verif.VM`).
-/
namespace FB.Rt
open Ins Opd

theorem mkW_eq (l h : B) : mkW l h = word l h := by
  rw [word_append]
  apply BitVec.eq_of_toNat_eq
  have := l.isLt; have := h.isLt
  simp only [mkW, BitVec.toNat_append, BitVec.toNat_or, BitVec.toNat_shiftLeft, BitVec.toNat_setWidth]
  rw [Nat.mod_eq_of_lt (by omega : l.toNat < _), Nat.mod_eq_of_lt (a := h.toNat) (by omega), Nat.mod_eq_of_lt]
  rw [Nat.shiftLeft_eq]; omega

theorem lo_word (l h : B) : lo (word l h) = l := by
  have := l.isLt; have := h.isLt
  apply BitVec.eq_of_toNat_eq; simp [lo]; omega

theorem hi_word (l h : B) : hi (word l h) = h := by
  have := l.isLt; have := h.isLt
  apply BitVec.eq_of_toNat_eq; simp [hi, Nat.shiftRight_eq_div_pow]; omega

theorem idx_page (lo h x : B) : idx (word lo h) x = word x h + BitVec.ofNat 16 lo.toNat := by
  have := lo.isLt; have := h.isLt; have := x.isLt
  apply BitVec.eq_of_toNat_eq; simp [idx]; omega

/-- `EXE_INC` as assembled by default, `inc.asm:37,49-57`.  The two operands that the code modifies are the cells `op1`
(`loadL`) and `op2` (`loadH`). -/
def incCode : Code :=
  asm!["EXE_INC", stx (zp .op2), stx (zp .op1), tax,
   "loadL", inc (pageX 0 .op1), Ins.bne "xit",
   "loadH", inc (pageX 1 .op2), "xit", next]

/-- `EXE_INC` assembled with `NO_SMCODE`, `inc.asm:37-48`. -/
def incCodeN : Code :=
  asm!["EXE_INC", sta (zp .saddr), stx (zp .saddrh), ldy (imm 0), lda (indY .saddr .saddrh), clc, adc (imm 1),
   sta (indY .saddr .saddrh), bcc "xit", iny, lda (indY .saddr .saddrh), adc (imm 0), sta (indY .saddr .saddrh),
   "xit", next]

/-- `EXE_DEC` as assembled by default, `dec.asm:37,49-58`; `op1` is `loadL1`, `op2` is `loadL2`, `op3` is `loadH`. -/
def decCode : Code :=
  asm!["EXE_DEC", stx (zp .op3), stx (zp .op1), stx (zp .op2), tax,
   "loadL1", lda (pageX 0 .op1), Ins.bne "loadL2",
   "loadH", dec (pageX 1 .op3),
   "loadL2", dec (pageX 0 .op2), next]

/-- `EXE_DEC` assembled with `NO_SMCODE`, `dec.asm:37-48`. -/
def decCodeN : Code :=
  asm!["EXE_DEC", sta (zp .saddr), stx (zp .saddrh), ldy (imm 0), lda (indY .saddr .saddrh), clc, adc (imm 0xFF),
   sta (indY .saddr .saddrh), bcs "xit", iny, lda (indY .saddr .saddrh), adc (imm 0xFF), sta (indY .saddr .saddrh),
   "xit", next]

code_labels incCode
code_labels incCodeN
code_labels decCode
code_labels decCodeN

/-- The word at an address. -/
def M.peek (m : M) (a : W) : W := mkW (m.ram a) (m.ram (a + 1))

/-- What the program can observe is as before, except for `AX`, the store address, and memory, which is `r`. -/
structure Stored (m m' : M) (r : W → B) : Prop where
  stk : m'.stk = m.stk
  sl : m'.sl = m.sl
  sh : m'.sh = m.sh
  ram : m'.ram = r
  sptr : m'.zp.sptr = m.zp.sptr
  arr : m'.zp.arr = m.zp.arr
  arrh : m'.zp.arrh = m.zp.arrh
  mins : m'.zp.mins = m.zp.mins

theorem add_one_ne (a : W) : a + 1 ≠ a := by bv_omega

/-- Bytes stored at `a` and at `a + 1`. -/
theorem upd2_eq (r : W → B) (a v : W) (l h : B) (e : v = word l h) : updMem2 r a v = upd (upd r a l) (a + 1) h := by
  subst e
  funext x
  simp only [updMem2, updMem, upd, lo_word, hi_word]

theorem upd_same (r : W → B) (a : W) : upd r a (r a) = r := by
  funext x; simp only [upd]; split <;> simp_all

theorem upd_comm {r : W → B} {a b : W} {u v : B} (h : a ≠ b) : upd (upd r a u) b v = upd (upd r b v) a u := by
  funext x; simp only [upd]; split <;> split <;> simp_all

theorem idx0 (w : W) : idx w 0#8 = w := by simp [idx]
theorem idx1 (w : W) : idx w 1#8 = w + 1 := by simp [idx]
theorem page0 (h x : B) : idx (word 0#8 h) x = word x h := by rw [idx_page]; simp
theorem page1 (h x : B) : idx (word 1#8 h) x = word x h + 1 := by rw [idx_page]; simp

theorem add_ne (r : W → B) (a : W) (v : B) : upd r a v (a + 1#16) = r (a + 1#16) := by
  simp only [upd]; exact if_neg (add_one_ne a)
theorem sub_ne (r : W → B) (a : W) (v : B) : upd r (a + 1#16) v a = r a := by
  simp only [upd]; exact if_neg (Ne.symm (add_one_ne a))

theorem inc_mem (r : W → B) (a : W) : updMem2 r a (mkW (r a) (r (a + 1)) + 1) =
    if r a + 1#8 = 0#8 then upd (upd r a 0) (a + 1) (r (a + 1) + 1) else upd r a (r a + 1) := by
  have hl := (r a).isLt; have hh := (r (a + 1)).isLt
  rw [mkW_eq]
  split
  · next h =>
    apply upd2_eq
    have h := congrArg BitVec.toNat h
    simp at h
    apply BitVec.eq_of_toNat_eq
    simp at hh ⊢
    omega
  · next h =>
    rw [upd2_eq r a _ (r a + 1) (r (a + 1)), show r (a + 1) = upd r a (r a + 1) (a + 1) by simp only [upd]; rw [if_neg (add_one_ne a)], upd_same]
    have h : (r a + 1#8).toNat ≠ 0 := fun e => h (BitVec.eq_of_toNat_eq e)
    simp at h
    apply BitVec.eq_of_toNat_eq
    simp at hh ⊢
    omega

theorem dec_mem (r : W → B) (a : W) : updMem2 r a (mkW (r a) (r (a + 1)) - 1) =
    if r a = 0#8 then upd (upd r (a + 1) (r (a + 1) - 1)) a 255 else upd r a (r a - 1) := by
  have hl := (r a).isLt; have hh := (r (a + 1)).isLt
  rw [mkW_eq]
  split
  · next h =>
    rw [upd_comm (add_one_ne a)]
    apply upd2_eq
    rw [h]
    apply BitVec.eq_of_toNat_eq
    simp [BitVec.toNat_sub] at hh ⊢
    omega
  · next h =>
    rw [upd2_eq r a _ (r a - 1) (r (a + 1)), show r (a + 1) = upd r a (r a - 1) (a + 1) by simp only [upd]; rw [if_neg (add_one_ne a)], upd_same]
    have h : (r a).toNat ≠ 0 := fun e => h (BitVec.eq_of_toNat_eq e)
    apply BitVec.eq_of_toNat_eq
    simp [BitVec.toNat_sub] at hh ⊢
    omega

theorem inc_correct (m : M) (_ : Entry m) : ∃ m', Halts incCode incCode m m' ∧
    Stored m m' (updMem2 m.ram m.ax (m.peek m.ax + 1)) := by
  rw [M.peek, inc_mem]
  by_cases h : m.ram (word m.a m.x) + 1#8 = 0#8
  · refine ⟨?_, ⟨20, ?_⟩, ?_⟩
    rotate_left
    · rt_exec [incCode.top, incCode.EXE_INC.eq, incCode.loadL.eq, incCode.loadH.eq, incCode.xit.eq, h, page0, page1, add_ne]
      rfl
    · refine ⟨rfl, rfl, rfl, ?_, rfl, rfl, rfl, rfl⟩
      simp [M.ax, h]
  · refine ⟨?_, ⟨20, ?_⟩, ?_⟩
    rotate_left
    · rt_exec [incCode.top, incCode.EXE_INC.eq, incCode.loadL.eq, incCode.loadH.eq, incCode.xit.eq, h, page0, page1, add_ne]
      rfl
    · refine ⟨rfl, rfl, rfl, ?_, rfl, rfl, rfl, rfl⟩
      simp [M.ax, h]

theorem incN_correct (m : M) (_ : Entry m) : ∃ m', Halts incCodeN incCodeN m m' ∧
    Stored m m' (updMem2 m.ram m.ax (m.peek m.ax + 1)) := by
  rw [M.peek, inc_mem]
  have hl := (m.ram (word m.a m.x)).isLt
  cases h : addC (m.ram (word m.a m.x)) 1#8 false
  · have h' : ¬ m.ram (word m.a m.x) + 1#8 = 0#8 := by simp [addC] at h; bv_omega
    have e : add8 (m.ram (word m.a m.x)) 1#8 false = m.ram (word m.a m.x) + 1#8 := by simp [add8]; bv_omega
    refine ⟨?_, ⟨20, ?_⟩, ?_⟩
    rotate_left
    · rt_exec [incCodeN.top, incCodeN.EXE_INC.eq, incCodeN.xit.eq, h, idx0, idx1, add_ne, e]
      rfl
    · refine ⟨rfl, rfl, rfl, ?_, rfl, rfl, rfl, rfl⟩
      simp [M.ax, h']
  · have h' : m.ram (word m.a m.x) + 1#8 = 0#8 := by simp [addC] at h; bv_omega
    have e : add8 (m.ram (word m.a m.x)) 1#8 false = m.ram (word m.a m.x) + 1#8 := by simp [add8]; bv_omega
    refine ⟨?_, ⟨20, ?_⟩, ?_⟩
    rotate_left
    · rt_exec [incCodeN.top, incCodeN.EXE_INC.eq, incCodeN.xit.eq, h, idx0, idx1, add_ne, e, h']
      rfl
    · refine ⟨rfl, rfl, rfl, ?_, rfl, rfl, rfl, rfl⟩
      have e : ∀ z : B, add8 z 0#8 true = z + 1#8 := by intro z; simp [add8]; bv_omega
      simp [M.ax, h', e]

theorem dec_correct (m : M) (_ : Entry m) : ∃ m', Halts decCode decCode m m' ∧
    Stored m m' (updMem2 m.ram m.ax (m.peek m.ax - 1)) := by
  rw [M.peek, dec_mem]
  by_cases h : m.ram (word m.a m.x) = 0#8
  · refine ⟨?_, ⟨20, ?_⟩, ?_⟩
    rotate_left
    · rt_exec [decCode.top, decCode.EXE_DEC.eq, decCode.loadL1.eq, decCode.loadH.eq, decCode.loadL2.eq, h, page0, page1, sub_ne]
      rfl
    · refine ⟨rfl, rfl, rfl, ?_, rfl, rfl, rfl, rfl⟩
      simp [M.ax, h]
  · refine ⟨?_, ⟨20, ?_⟩, ?_⟩
    rotate_left
    · rt_exec [decCode.top, decCode.EXE_DEC.eq, decCode.loadL1.eq, decCode.loadH.eq, decCode.loadL2.eq, h, page0, page1, sub_ne]
      rfl
    · refine ⟨rfl, rfl, rfl, ?_, rfl, rfl, rfl, rfl⟩
      simp [M.ax, h]

theorem decN_correct (m : M) (_ : Entry m) : ∃ m', Halts decCodeN decCodeN m m' ∧
    Stored m m' (updMem2 m.ram m.ax (m.peek m.ax - 1)) := by
  rw [M.peek, dec_mem]
  have hl := (m.ram (word m.a m.x)).isLt
  have e : add8 (m.ram (word m.a m.x)) 255#8 false = m.ram (word m.a m.x) - 1#8 := by simp [add8]; bv_omega
  have e' : ∀ z : B, add8 z 255#8 false = z - 1#8 := by intro z; simp [add8]; bv_omega
  cases h : addC (m.ram (word m.a m.x)) 255#8 false
  · have h' : m.ram (word m.a m.x) = 0#8 := by simp [addC] at h; bv_omega
    refine ⟨?_, ⟨20, ?_⟩, ?_⟩
    rotate_left
    · rt_exec [decCodeN.top, decCodeN.EXE_DEC.eq, decCodeN.xit.eq, h, idx0, idx1, add_ne, e]
      rfl
    · refine ⟨rfl, rfl, rfl, ?_, rfl, rfl, rfl, rfl⟩
      simp [M.ax, h', e']
      exact upd_comm (Ne.symm (add_one_ne _))
  · have h' : ¬ m.ram (word m.a m.x) = 0#8 := by simp [addC] at h; bv_omega
    refine ⟨?_, ⟨20, ?_⟩, ?_⟩
    rotate_left
    · rt_exec [decCodeN.top, decCodeN.EXE_DEC.eq, decCodeN.xit.eq, h, idx0, idx1, add_ne, e]
      rfl
    · refine ⟨rfl, rfl, rfl, ?_, rfl, rfl, rfl, rfl⟩
      simp [M.ax, h']

/-! ## `FOR` and `NEXT` -/

/-- The value `v` is past the limit, going in the direction of the step. -/
def past (step limit v : W) : Bool :=
  if step.toInt < 0 then decide (v.toInt < limit.toInt) else decide (limit.toInt < v.toInt)

theorem stkAt_y {m : M} (he : Entry m) (i : B) : m.stkAt i = word (m.sl (m.y + i)) (m.sh (m.y + i)) := by
  simp only [M.stkAt]; rw [show m.zp.sptr = m.y from he.symm]

theorem neg_word (l h : B) : ((word l h).toInt < 0) ↔ topBit h = true := by
  have := l.isLt; have := h.isLt
  rw [toInt16]; simp only [word_toNat, topBit, decide_eq_true_eq]; split <;> omega

theorem add16 (a x l h : B) : word (add8 a l false) (add8 x h (addC a l false)) = word a x + word l h := by
  have := a.isLt; have := x.isLt; have := l.isLt; have := h.isLt
  apply BitVec.eq_of_toNat_eq
  simp; omega

/-- `EXE_FOR_NEXT`: the step is added to the variable and the result compared with the limit. -/
theorem for_next_correct (m : M) (he : Entry m) : ∃ m', Halts cmpCode cmpCode.EXE_FOR_NEXT m m' ∧
    m'.ax = b2w (past (m.stkAt 0) (m.stkAt 1) (m.peek (m.stkAt 2) + m.stkAt 0)) ∧
    Stored m m' (updMem2 m.ram (m.stkAt 2) (m.peek (m.stkAt 2) + m.stkAt 0)) := by
  have e0 : m.stkAt 0 = word (m.sl m.y) (m.sh m.y) := stkAt0 he
  have e1 : m.stkAt 1 = word (m.sl (m.y + 1#8)) (m.sh (m.y + 1#8)) := stkAt_y he 1
  have e2 : m.stkAt 2 = word (m.sl (m.y + 2#8)) (m.sh (m.y + 2#8)) := stkAt_y he 2
  have hy : m.zp.sptr = m.y := he.symm
  have main : ∃ m1, Reach cmpCode cmpCode.EXE_FOR_NEXT m (if topBit (m.sh m.y) then cmpCode.EXE_GT else cmpCode.EXE_LT) m1 ∧
      m1.ax = m.peek (m.stkAt 2) + m.stkAt 0 ∧ m1.y = m.y + 1 ∧ m1.zp.sptr = m.y - 1 ∧
      m1.stk = m.stk ∧ m1.sl = m.sl ∧ m1.sh = m.sh ∧ m1.ram = updMem2 m.ram (m.stkAt 2) (m.peek (m.stkAt 2) + m.stkAt 0) ∧
      m1.zp.arr = m.zp.arr ∧ m1.zp.arrh = m.zp.arrh ∧ m1.zp.mins = m.zp.mins := by
    rw [M.peek, mkW_eq, e0, e2]
    generalize hA : word (m.sl (m.y + 2#8)) (m.sh (m.y + 2#8)) = A
    cases h : topBit (m.sh m.y)
    · refine ⟨?_, ⟨26, ?_⟩, ?_⟩
      rotate_left
      · rt_exec [cmpCode.EXE_FOR_NEXT.eq, cmpCode.for_1.eq, cmpCode.do_add.eq, h, idx0, idx1, hA, add_ne, hy]
        rfl
      · refine ⟨?_, rfl, rfl, rfl, rfl, rfl, ?_, rfl, rfl, rfl⟩
        · exact (add16 _ _ _ _).trans (BitVec.add_comm _ _)
        · exact (upd2_eq _ _ _ _ _ ((BitVec.add_comm _ _).trans (add16 _ _ _ _).symm)).symm
    · refine ⟨?_, ⟨25, ?_⟩, ?_⟩
      rotate_left
      · rt_exec [cmpCode.EXE_FOR_NEXT.eq, cmpCode.for_1.eq, cmpCode.do_add.eq, h, idx0, idx1, hA, add_ne, hy]
        rfl
      · refine ⟨?_, rfl, rfl, rfl, rfl, rfl, ?_, rfl, rfl, rfl⟩
        · exact (add16 _ _ _ _).trans (BitVec.add_comm _ _)
        · exact (upd2_eq _ _ _ _ _ ((BitVec.add_comm _ _).trans (add16 _ _ _ _).symm)).symm
  obtain ⟨m1, r, hax, hy1, hsp, s1, s2, s3, s4, s5, s6, s7⟩ := main
  have hsp' : m1.zp.sptr + 1 = m.zp.sptr := by rw [hsp, hy]; exact BitVec.sub_add_cancel _ _
  cases h : topBit (m.sh m.y)
  · rw [h] at r
    obtain ⟨m2, h2, hx, k⟩ := lt_gen m1
    refine ⟨m2, r.halts h2, ?_, ⟨k.stk.trans s1, k.sl.trans s2, k.sh.trans s3, k.ram.trans s4, k.sptr.trans hsp', k.arr.trans s5, k.arrh.trans s6, k.mins.trans s7⟩⟩
    rw [hx, hax, hy1, s2, s3, past, if_neg (by rw [e0, neg_word, h]; decide), e1]
    rfl
  · rw [h] at r
    obtain ⟨m2, h2, hx, k⟩ := gt_gen m1
    refine ⟨m2, r.halts h2, ?_, ⟨k.stk.trans s1, k.sl.trans s2, k.sh.trans s3, k.ram.trans s4, k.sptr.trans hsp', k.arr.trans s5, k.arrh.trans s6, k.mins.trans s7⟩⟩
    rw [hx, hax, hy1, s2, s3, past, if_pos (by rw [e0, neg_word, h]), e1]
    rfl

theorem upd_at {α : Type} [DecidableEq α] (f : α → B) (i : α) (v : B) : upd f i v i = v := by simp [upd]

theorem for_nop (l : B) : add8 255#8 l true = l := by
  have := l.isLt
  apply BitVec.eq_of_toNat_eq
  simp; omega
theorem for_nopC (l : B) : addC 255#8 l true = true := by simp [addC]
/-- `EXE_FOR`: the step is pushed and the variable compared with the limit. -/
theorem for_correct (m : M) (he : Entry m) : ∃ m', Halts cmpCode cmpCode.EXE_FOR m m' ∧
    m'.ax = b2w (past m.ax (m.stkAt 0) (m.peek (m.stkAt 1))) ∧
    Stored { m with sl := upd m.sl (m.zp.sptr - 1) m.a, sh := upd m.sh (m.zp.sptr - 1) m.x, zp := { m.zp with sptr := m.zp.sptr - 1 } } m' m.ram := by
  have e0 : m.stkAt 0 = word (m.sl m.y) (m.sh m.y) := stkAt0 he
  have e1 : m.stkAt 1 = word (m.sl (m.y + 1#8)) (m.sh (m.y + 1#8)) := stkAt_y he 1
  have hy : m.zp.sptr = m.y := he.symm
  have y1 : m.y - 1#8 + 2#8 = m.y + 1#8 := by bv_omega
  have y2 : m.y + 255#8 = m.y - 1#8 := by bv_omega
  have ne1 : m.y + 1#8 ≠ m.y - 1#8 := by bv_omega
  have ne0 : m.y ≠ m.y - 1#8 := by bv_omega
  have u1 : ∀ (f : B → B) v, upd f (m.y - 1#8) v (m.y + 1#8) = f (m.y + 1#8) := by intro f v; simp only [upd]; exact if_neg ne1
  have u0 : ∀ (f : B → B) v, upd f (m.y - 1#8) v m.y = f m.y := by intro f v; simp only [upd]; exact if_neg ne0
  have main : ∃ m1, Reach cmpCode cmpCode.EXE_FOR m (if topBit m.x then cmpCode.EXE_GT else cmpCode.EXE_LT) m1 ∧
      m1.ax = m.peek (m.stkAt 1) ∧ m1.y = m.y ∧ m1.zp.sptr = m.y - 1 - 1 ∧
      m1.stk = m.stk ∧ m1.sl = upd m.sl (m.y - 1) m.a ∧ m1.sh = upd m.sh (m.y - 1) m.x ∧ m1.ram = m.ram ∧
      m1.zp.arr = m.zp.arr ∧ m1.zp.arrh = m.zp.arrh ∧ m1.zp.mins = m.zp.mins := by
    rw [M.peek, mkW_eq, e1]
    generalize hA : word (m.sl (m.y + 1#8)) (m.sh (m.y + 1#8)) = A
    have ya : m.y - 1#8 + 1#8 = m.y := by bv_omega
    cases h : topBit m.x
    · refine ⟨?_, ⟨36, ?_⟩, ?_⟩
      rotate_left
      · rt_exec [cmpCode.EXE_FOR.eq, cmpCode.pushAX.eq, cmpCode.for_1.eq, cmpCode.do_add.eq, h, idx0, idx1, add_ne, hy, y1, y2, u1, upd_at, hA,
          for_nop, for_nopC, upd_same, ya]
        rfl
      · exact ⟨rfl, rfl, rfl, rfl, rfl, rfl, rfl, rfl, rfl, rfl⟩
    · refine ⟨?_, ⟨35, ?_⟩, ?_⟩
      rotate_left
      · rt_exec [cmpCode.EXE_FOR.eq, cmpCode.pushAX.eq, cmpCode.for_1.eq, cmpCode.do_add.eq, h, idx0, idx1, add_ne, hy, y1, y2, u1, upd_at, hA,
          for_nop, for_nopC, upd_same, ya]
        rfl
      · exact ⟨rfl, rfl, rfl, rfl, rfl, rfl, rfl, rfl, rfl, rfl⟩
  obtain ⟨m1, r, hax, hy1, hsp, s1, s2, s3, s4, s5, s6, s7⟩ := main
  have hsp' : m1.zp.sptr + 1 = m.zp.sptr - 1 := by rw [hsp, hy]; exact BitVec.sub_add_cancel _ _
  rw [← hy] at s2 s3
  cases h : topBit m.x
  · rw [h] at r
    obtain ⟨m2, h2, hx, k⟩ := lt_gen m1
    refine ⟨m2, r.halts h2, ?_, ⟨k.stk.trans s1, k.sl.trans s2, k.sh.trans s3, k.ram.trans s4, k.sptr.trans hsp', k.arr.trans s5, k.arrh.trans s6, k.mins.trans s7⟩⟩
    rw [hx, hax, hy1, s2, s3, past, if_neg (by rw [M.ax, neg_word, h]; decide), e0]
    simp only [hy]
    rw [show m.y - 1 = m.y - 1#8 from rfl, u0, u0]
  · rw [h] at r
    obtain ⟨m2, h2, hx, k⟩ := gt_gen m1
    refine ⟨m2, r.halts h2, ?_, ⟨k.stk.trans s1, k.sl.trans s2, k.sh.trans s3, k.ram.trans s4, k.sptr.trans hsp', k.arr.trans s5, k.arrh.trans s6, k.mins.trans s7⟩⟩
    rw [hx, hax, hy1, s2, s3, past, if_pos (by rw [M.ax, neg_word, h]), e0]
    simp only [hy]
    rw [show m.y - 1 = m.y - 1#8 from rfl, u0, u0]

/-- `EXE_FOR_EXIT` and `next_ins_incsp_2`, `for_exit.asm:37-44`. -/
def forExitCode : Code := asm!["EXE_FOR_EXIT", inc (zp .sptr), "next_ins_incsp_2", inc (zp .sptr), nextIncsp]

theorem for_exit_correct (m : M) (_ : Entry m) : ∃ m', Halts forExitCode forExitCode m m' ∧ m'.ax = m.ax ∧ Kept m m' (m.zp.sptr + 3) := by
  refine ⟨?_, ⟨10, ?_⟩, ?_⟩
  rotate_left
  · simp only [forExitCode]
    rt_exec
    rfl
  · refine ⟨rfl, rfl, rfl, rfl, rfl, ?_, rfl, rfl, rfl, rfl, rfl⟩
    show m.zp.sptr + 1#8 + 1#8 + 1#8 = _
    bv_omega

end FB.Rt
