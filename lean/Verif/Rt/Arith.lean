import Verif.Rt.Labels
/-!
# Addition, negation, sign, shifts, comparisons, bit operators

Transcription of the short arithmetic routines of `/repo/src/interp` and proof that they compute the operators of
the virtual machine (`Verif.VM`, `binop`, `unop`).
-/
namespace FB.Rt
open Ins Opd

/-- `neg_AX`, `negax.asm:35-46`. -/
def negax : Code :=
  asm!["neg_AX", clc, eor (imm 0xFF), adc (imm 1), pha, txa, eor (imm 0xFF), adc (imm 0), tax, pla, rts]

/-- `EXE_SUB`, `EXE_ADD`, `addsub.asm:35-47`. -/
def addsubCode : Code :=
  asm!["EXE_SUB", jsr "neg_AX",
   "EXE_ADD", clc, adc (stkL 0), pha, txa, adc (stkH 0), tax, pla, nextIncsp] ++ negax

/-- `EXE_ABS`, `EXE_NEG`, `absneg.asm:35-40`. -/
def absnegCode : Code :=
  asm!["EXE_ABS", cpx (imm 0), bpl "xit", "EXE_NEG", jsr "neg_AX", "xit", next] ++ negax

/-- `EXE_SGN`, `sgn.asm:34-46`. -/
def sgnCode : Code :=
  asm!["EXE_SGN", cpx (imm 0), bmi "neg", Ins.bne "pos", tax, beq "xit", "pos", lda (imm 1), ldx (imm 0), beq "xit",
   "neg", lda (imm 0xFF), tax, "xit", next]

/-- `EXE_USHL`, `ushl.asm:34-42`. -/
def ushlCode : Code := asm!["EXE_USHL", asl acc, tay, txa, rol acc, tax, tya, next]

/-- `EXE_SHL8`, `shl8.asm:34-38`. -/
def shl8Code : Code := asm!["EXE_SHL8", tax, lda (imm 0), next]

/-- `EXE_1`, `EXE_COMP_0`, `comp0.asm:56-68`. -/
def comp0Code : Code :=
  asm!["EXE_1", lda (imm 1), ldx (imm 0), next,
   "EXE_COMP_0", tay, Ins.bne "EXE_1", txa, Ins.bne "EXE_1", next]

/-- `EXE_L_NOT`, `lnot.asm:34-37`. -/
def lnotCode : Code := asm!["EXE_L_NOT", eor (imm 1), next]

/-- `EXE_L_AND`, `EXE_L_OR`: `land.asm:34-37`, `lor.asm:34-37`. -/
def landCode : Code := asm!["EXE_L_AND", Ins.and (stkL 0), nextIncsp]
def lorCode : Code := asm!["EXE_L_OR", ora (stkL 0), nextIncsp]

/-- `EXE_BIT_AND`, `bitand.asm:35-43`; `bitor.asm`, `bitexor.asm` are the same with the other instruction. -/
def bitCode (i : Opd → Ins) : Code := asm!["EXE_BIT", i (stkL 0), pha, txa, i (stkH 0), tax, pla, nextIncsp]

/-- All of `for.asm:36-157` (`EXE_FOR`, `EXE_FOR_NEXT`, `EXE_LT`, `EXE_GT`, `EXE_NEQ`, `EXE_EQ`) and the subroutine
`pushAX`, `interpreter.asm:212-218`.  The byte `$90` at `for.asm:44` makes the `CLC` that follows the operand of a `BCC` that
is not taken, as the carry is set; here it is a jump over the `CLC`. -/
def cmpCode : Code :=
  asm!["EXE_FOR", jsr "pushAX", dey, sec, bcs "for_1",
   "EXE_FOR_NEXT", clc,
   "for_1", lda (stkH 2), sta (zp .tmp3h), lda (stkL 2), sta (zp .tmp3),
   lda (stkL 0), ldx (stkH 0), php, ldy (imm 0), bcc "do_add", lda (imm 255), tax,
   "do_add", adc (indY .tmp3 .tmp3h), sta (indY .tmp3 .tmp3h), pha, iny, txa, adc (indY .tmp3 .tmp3h), sta (indY .tmp3 .tmp3h), tax, pla,
   ldy (zp .sptr), dec (zp .sptr), iny,
   plp, bmi "EXE_GT",
   "EXE_LT", clc, sbc (stkL 0), txa, sbc (stkH 0), bvc "LTGT_set01",
   "LTGT_set10", bmi "set1",
   "set0", lda (imm 0), tax, nextIncsp,
   "EXE_GT", cmp (stkL 0), txa, sbc (stkH 0), bvc "LTGT_set10",
   "LTGT_set01", bmi "set0",
   "set1", lda (imm 1), ldx (imm 0), nextIncsp,
   "EXE_NEQ", cmp (stkL 0), Ins.bne "set1", txa, eor (stkH 0), Ins.bne "set1", beq "set0",
   "EXE_EQ", cmp (stkL 0), Ins.bne "set0", txa, eor (stkH 0), Ins.bne "set0", beq "set1",
   "pushAX", sta (stkL 255), txa, sta (stkH 255), dec (zp .sptr), rts]

code_labels cmpCode

/-- The code of a routine. -/
def entry (P : Code) (l : String) : Code := (find l P).getD []

theorem xorFF (b : B) : (b ^^^ 255#8).toNat = 255 - b.toNat := by
  have : b ^^^ 255#8 = ~~~ b := by
    have : (255#8) = BitVec.allOnes 8 := rfl
    rw [this, BitVec.xor_allOnes]
  rw [this, BitVec.toNat_not]

theorem xorFF' (b : B) : b.toNat ^^^ 255 = 255 - b.toNat := by
  have := xorFF b; rwa [BitVec.toNat_xor] at this

theorem word_eq {l h : B} {w : W} (e : l.toNat + 256 * h.toNat = w.toNat) : word l h = w := by
  apply BitVec.eq_of_toNat_eq; rw [word_toNat, e]

/-- End of a routine, by execution. -/
macro "kept" : term => `(⟨rfl, rfl, rfl, rfl, rfl, rfl, rfl, rfl, rfl, rfl⟩)

theorem add_correct : Binary addsubCode (entry addsubCode "EXE_ADD") (· + ·) := by
  intro m he
  refine ⟨?_, ⟨20, ?_⟩, ?_, ?_⟩
  rotate_left
  · simp only [entry, addsubCode, negax]
    rt_exec
    rfl
  · rw [stkAt0 he]
    apply word_eq
    have := m.a.isLt; have := m.x.isLt; have := (m.sl m.y).isLt; have := (m.sh m.y).isLt
    simp [M.ax]
    omega
  · exact kept

theorem sub_correct : Binary addsubCode (entry addsubCode "EXE_SUB") (· - ·) := by
  intro m he
  refine ⟨?_, ⟨40, ?_⟩, ?_, ?_⟩
  rotate_left
  · simp only [entry, addsubCode, negax]
    rt_exec
    rfl
  · rw [stkAt0 he]
    apply word_eq
    have := m.a.isLt; have := m.x.isLt; have := (m.sl m.y).isLt; have := (m.sh m.y).isLt
    simp [M.ax, xorFF']
    omega
  · exact kept

theorem neg_correct : Unary absnegCode (entry absnegCode "EXE_NEG") (- ·) := by
  intro m he
  refine ⟨?_, ⟨40, ?_⟩, ?_, ?_⟩
  rotate_left
  · simp only [entry, absnegCode, negax]
    rt_exec
    rfl
  · apply word_eq
    have := m.a.isLt; have := m.x.isLt
    simp [M.ax, xorFF']
    omega
  · exact kept

theorem abs_correct : Unary absnegCode (entry absnegCode "EXE_ABS") (fun w => BitVec.ofInt 16 w.toInt.natAbs) := by
  intro m he
  have := m.a.isLt; have := m.x.isLt
  cases h : topBit m.x
  · refine ⟨?_, ⟨40, ?_⟩, ?_, ?_⟩
    rotate_left
    · simp only [entry, absnegCode, negax]
      rt_exec [h]
      rfl
    · apply word_eq
      simp [topBit] at h
      simp [M.ax, toInt16]
      omega
    · exact kept
  · refine ⟨?_, ⟨40, ?_⟩, ?_, ?_⟩
    rotate_left
    · simp only [entry, absnegCode, negax]
      rt_exec [h]
      rfl
    · apply word_eq
      simp [topBit] at h
      simp [M.ax, xorFF', toInt16]
      omega
    · exact kept

theorem ushl_correct : Unary ushlCode ushlCode (fun w => w + w) := by
  intro m he
  refine ⟨?_, ⟨40, ?_⟩, ?_, ?_⟩
  rotate_left
  · simp only [ushlCode]
    rt_exec
    rfl
  · apply word_eq
    have := m.a.isLt; have := m.x.isLt
    simp [M.ax]
    omega
  · exact kept

theorem shl8_correct : Unary shl8Code shl8Code (fun w => w <<< 8) := by
  intro m he
  refine ⟨?_, ⟨40, ?_⟩, ?_, ?_⟩
  rotate_left
  · simp only [shl8Code]
    rt_exec
    rfl
  · apply word_eq
    have := m.a.isLt; have := m.x.isLt
    simp [M.ax, Nat.shiftLeft_eq]
    omega
  · exact kept

theorem ax_zero (m : M) : m.ax = 0#16 ↔ m.a = 0#8 ∧ m.x = 0#8 := by
  have := m.a.isLt; have := m.x.isLt
  constructor
  · intro h
    have := congrArg BitVec.toNat h
    simp [M.ax] at this
    exact ⟨BitVec.eq_of_toNat_eq (by simp; omega), BitVec.eq_of_toNat_eq (by simp; omega)⟩
  · rintro ⟨h1, h2⟩; simp [M.ax, h1, h2, word]

theorem comp0_correct : Unary comp0Code (entry comp0Code "EXE_COMP_0") (fun w => b2w (decide (w ≠ 0))) := by
  intro m he
  by_cases h1 : m.a = 0#8
  · by_cases h2 : m.x = 0#8
    · refine ⟨?_, ⟨40, ?_⟩, ?_, ?_⟩
      rotate_left
      · simp only [entry, comp0Code]
        rt_exec [h1, h2]
        rfl
      · have : b2w (decide (m.ax ≠ 0)) = 0 := by simp [ax_zero, h1, h2, b2w]
        exact Eq.trans (by simp [M.ax, word]) this.symm
      · exact kept
    · refine ⟨?_, ⟨40, ?_⟩, ?_, ?_⟩
      rotate_left
      · simp only [entry, comp0Code]
        rt_exec [h1, h2]
        rfl
      · have : b2w (decide (m.ax ≠ 0)) = 1 := by simp [ax_zero, h1, h2, b2w]
        exact Eq.trans (by simp [M.ax, word]) this.symm
      · exact kept
  · refine ⟨?_, ⟨40, ?_⟩, ?_, ?_⟩
    rotate_left
    · simp only [entry, comp0Code]
      rt_exec [h1]
      rfl
    · have : b2w (decide (m.ax ≠ 0)) = 1 := by simp [ax_zero, h1, b2w]
      exact Eq.trans (by simp [M.ax, word]) this.symm
    · exact kept

/-- The sign of a number. -/
def sgnSpec (w : W) : W := if w.toInt < 0 then -1 else if w.toInt = 0 then 0 else 1

theorem sgn_correct : Unary sgnCode sgnCode sgnSpec := by
  intro m he
  have := m.a.isLt; have := m.x.isLt
  by_cases h2 : m.x = 0#8
  · by_cases h1 : m.a = 0#8
    · refine ⟨?_, ⟨40, ?_⟩, ?_, ?_⟩
      rotate_left
      · simp only [sgnCode]
        rt_exec [h2, h1]
        rfl
      · simp [M.ax, sgnSpec, h1, h2, word]
      · exact kept
    · have h1' : m.a.toNat ≠ 0 := fun h => h1 (BitVec.eq_of_toNat_eq h)
      refine ⟨?_, ⟨40, ?_⟩, ?_, ?_⟩
      rotate_left
      · simp only [sgnCode]
        rt_exec [h2, h1]
        rfl
      · have : sgnSpec m.ax = 1 := by
          rw [sgnSpec, toInt16, if_neg, if_neg] <;> simp [M.ax, h2] <;> omega
        exact Eq.trans (by simp [M.ax, word]) this.symm
      · exact kept
  · have h2' : m.x.toNat ≠ 0 := fun h => h2 (BitVec.eq_of_toNat_eq h)
    cases h : topBit m.x
    · refine ⟨?_, ⟨40, ?_⟩, ?_, ?_⟩
      rotate_left
      · simp only [sgnCode]
        rt_exec [h, h2]
        rfl
      · have : sgnSpec m.ax = 1 := by
          simp [topBit] at h
          rw [sgnSpec, toInt16, if_neg, if_neg] <;> simp [M.ax] <;> omega
        exact Eq.trans (by simp [M.ax, word]) this.symm
      · exact kept
    · refine ⟨?_, ⟨40, ?_⟩, ?_, ?_⟩
      rotate_left
      · simp only [sgnCode]
        rt_exec [h]
        rfl
      · have : sgnSpec m.ax = -1 := by
          simp [topBit] at h
          rw [sgnSpec, toInt16, if_pos]
          simp [M.ax]; omega
        exact Eq.trans (by simp [M.ax, word]) this.symm
      · exact kept

/-- The truth values. -/
def IsBool (w : W) : Prop := w = 0 ∨ w = 1

theorem isBool_iff (m : M) : IsBool m.ax ↔ m.x = 0#8 ∧ (m.a = 0#8 ∨ m.a = 1#8) := by
  have := m.a.isLt; have := m.x.isLt
  have e : ∀ n, n < 256 → (m.ax = BitVec.ofNat 16 n ↔ m.x = 0#8 ∧ m.a = BitVec.ofNat 8 n) := by
    intro n hn
    constructor
    · intro h
      have := congrArg BitVec.toNat h
      simp [M.ax] at this
      exact ⟨BitVec.eq_of_toNat_eq (by simp; omega), BitVec.eq_of_toNat_eq (by simp; omega)⟩
    · rintro ⟨h1, h2⟩
      exact word_eq (by rw [h1, h2]; simp; omega)
  have e0 := e 0 (by decide)
  have e1 := e 1 (by decide)
  simp only [IsBool]
  constructor
  · rintro (h | h)
    · exact ⟨(e0.1 h).1, .inl (e0.1 h).2⟩
    · exact ⟨(e1.1 h).1, .inr (e1.1 h).2⟩
  · rintro ⟨h1, h | h⟩
    · exact .inl (e0.2 ⟨h1, h⟩)
    · exact .inr (e1.2 ⟨h1, h⟩)

/-- `EXE_L_NOT` negates truth values. -/
theorem lnot_correct (m : M) (_ : Entry m) (hb : IsBool m.ax) :
    ∃ m', Halts lnotCode lnotCode m m' ∧ m'.ax = b2w (decide (m.ax = 0)) ∧ Kept m m' m.zp.sptr := by
  obtain ⟨hx, ha⟩ := (isBool_iff m).1 hb
  refine ⟨?_, ⟨40, ?_⟩, ?_, ?_⟩
  rotate_left
  · simp only [lnotCode]
    rt_exec
    rfl
  · rcases ha with ha | ha <;> simp [M.ax, word, ha, hx, b2w]
  · exact kept

/-- `EXE_L_AND`: on truth values, conjunction. -/
theorem land_correct (m : M) (he : Entry m) (hb : IsBool m.ax) (hs : IsBool (m.stkAt 0)) :
    ∃ m', Halts landCode landCode m m' ∧ m'.ax = b2w (decide (m.stkAt 0 ≠ 0 ∧ m.ax ≠ 0)) ∧ Kept m m' (m.zp.sptr + 1) := by
  obtain ⟨hx, ha⟩ := (isBool_iff m).1 hb
  rw [stkAt0 he] at hs ⊢
  obtain ⟨hx', ha'⟩ := (isBool_iff { m with a := m.sl m.y, x := m.sh m.y }).1 hs
  refine ⟨?_, ⟨40, ?_⟩, ?_, ?_⟩
  rotate_left
  · simp only [landCode]
    rt_exec
    rfl
  · simp at ha' hx'
    rcases ha with ha | ha <;> rcases ha' with ha' | ha' <;> simp [M.ax, word, ha, hx, ha', hx', b2w]
  · exact kept

/-- `EXE_L_OR`: on truth values, disjunction. -/
theorem lor_correct (m : M) (he : Entry m) (hb : IsBool m.ax) (hs : IsBool (m.stkAt 0)) :
    ∃ m', Halts lorCode lorCode m m' ∧ m'.ax = b2w (decide (m.stkAt 0 ≠ 0 ∨ m.ax ≠ 0)) ∧ Kept m m' (m.zp.sptr + 1) := by
  obtain ⟨hx, ha⟩ := (isBool_iff m).1 hb
  rw [stkAt0 he] at hs ⊢
  obtain ⟨hx', ha'⟩ := (isBool_iff { m with a := m.sl m.y, x := m.sh m.y }).1 hs
  refine ⟨?_, ⟨40, ?_⟩, ?_, ?_⟩
  rotate_left
  · simp only [lorCode]
    rt_exec
    rfl
  · simp at ha' hx'
    rcases ha with ha | ha <;> rcases ha' with ha' | ha' <;> simp [M.ax, word, ha, hx, ha', hx', b2w]
  · exact kept

theorem word_append (l h : B) : word l h = h ++ l := by
  apply BitVec.eq_of_toNat_eq
  rw [word_toNat, BitVec.toNat_append, ← Nat.shiftLeft_add_eq_or_of_lt l.isLt, Nat.shiftLeft_eq]
  omega

theorem bitand_correct : Binary (bitCode .and) (bitCode .and) (· &&& ·) := by
  intro m he
  refine ⟨?_, ⟨40, ?_⟩, ?_, ?_⟩
  rotate_left
  · simp only [bitCode]
    rt_exec
    rfl
  · rw [stkAt0 he]
    simp only [M.ax, word_append, ← BitVec.and_append, BitVec.and_comm]
  · exact kept

theorem bitor_correct : Binary (bitCode ora) (bitCode ora) (· ||| ·) := by
  intro m he
  refine ⟨?_, ⟨40, ?_⟩, ?_, ?_⟩
  rotate_left
  · simp only [bitCode]
    rt_exec
    rfl
  · rw [stkAt0 he]
    simp only [M.ax, word_append, ← BitVec.or_append, BitVec.or_comm]
  · exact kept

theorem bitexor_correct : Binary (bitCode eor) (bitCode eor) (· ^^^ ·) := by
  intro m he
  refine ⟨?_, ⟨40, ?_⟩, ?_, ?_⟩
  rotate_left
  · simp only [bitCode]
    rt_exec
    rfl
  · rw [stkAt0 he]
    simp only [M.ax, word_append, ← BitVec.xor_append, BitVec.xor_comm]
  · exact kept

/-- After a subtraction with borrow, `N` differs from `V` exactly when the signed difference is negative. -/
theorem sub_flags (ah bh : B) (c : Bool) :
    (topBit (add8 ah (~~~ bh) c) != addV ah (~~~ bh) c) = decide (ah.toInt - bh.toInt - 1 + c.toNat < 0) := by
  have h1 := ah.isLt; have h2 := bh.isLt
  have h3 : c.toNat ≤ 1 := by cases c <;> decide
  rw [Bool.eq_iff_iff]
  simp only [topBit, addV, add8_toNat, toInt8, BitVec.toNat_not, bne_iff_ne, ne_eq, decide_eq_decide, decide_eq_true_eq]
  split <;> split <;> split <;> omega

theorem toInt_word (l h : B) : (word l h).toInt = l.toNat + 256 * h.toInt := by
  have := l.isLt; have := h.isLt
  rw [toInt16, toInt8, word_toNat]
  split <;> split <;> omega

/-- The signed difference of two words, from the difference of the high bytes and the carry of the low bytes. -/
theorem sub_flags16 (a x l h : B) (c : Bool) :
    (topBit (add8 x (~~~ h) (addC a (~~~ l) c)) != addV x (~~~ h) (addC a (~~~ l) c)) =
      decide ((word a x).toInt - (word l h).toInt - 1 + c.toNat < 0) := by
  have h1 := a.isLt; have h2 := l.isLt
  have h3 : c.toNat ≤ 1 := by cases c <;> decide
  rw [sub_flags, toInt_word, toInt_word, addC_toNat, BitVec.toNat_not, decide_eq_decide]
  omega

theorem b2w_t {p : Prop} [Decidable p] (h : p) : word 1#8 0#8 = b2w (decide p) := by simp [word, b2w, h]
theorem b2w_f {p : Prop} [Decidable p] (h : ¬ p) : word 0#8 0#8 = b2w (decide p) := by simp [word, b2w, h]

theorem lt_gen (m : M) : ∃ m', Halts cmpCode cmpCode.EXE_LT m m' ∧
    m'.ax = (fun s a => b2w (decide (s.toInt < a.toInt))) (word (m.sl m.y) (m.sh m.y)) m.ax ∧ Kept m m' (m.zp.sptr + 1) := by
  have key := sub_flags16 m.a m.x (m.sl m.y) (m.sh m.y) false
  cases hv : addV m.x (~~~ (m.sh m.y)) (addC m.a (~~~ (m.sl m.y)) false) <;>
    cases hn : topBit (add8 m.x (~~~ (m.sh m.y)) (addC m.a (~~~ (m.sl m.y)) false)) <;>
    simp [hv, hn] at key <;>
    (refine ⟨?_, ⟨40, ?_⟩, ?_, ?_⟩
     rotate_left
     · rt_exec [cmpCode.EXE_LT.eq, cmpCode.LTGT_set10.eq, cmpCode.set0.eq, cmpCode.EXE_GT.eq, cmpCode.LTGT_set01.eq, cmpCode.set1.eq,
         cmpCode.EXE_NEQ.eq, cmpCode.EXE_EQ.eq, hv, hn]
       rfl
     · first | exact b2w_t (by rw [M.ax]; omega) | exact b2w_f (by rw [M.ax]; omega)
     · exact kept)

theorem cmp_carry (a l : B) : addC a (~~~ l) true = decide (l.toNat ≤ a.toNat) := by
  have h1 := a.isLt; have h2 := l.isLt
  simp [addC]
  omega

theorem gt_gen (m : M) : ∃ m', Halts cmpCode cmpCode.EXE_GT m m' ∧
    m'.ax = (fun s a => b2w (decide (a.toInt < s.toInt))) (word (m.sl m.y) (m.sh m.y)) m.ax ∧ Kept m m' (m.zp.sptr + 1) := by
  have key := sub_flags16 m.a m.x (m.sl m.y) (m.sh m.y) true
  cases hv : addV m.x (~~~ (m.sh m.y)) (addC m.a (~~~ (m.sl m.y)) true) <;>
    cases hn : topBit (add8 m.x (~~~ (m.sh m.y)) (addC m.a (~~~ (m.sl m.y)) true)) <;>
    simp [hv, hn] at key <;>
    (refine ⟨?_, ⟨40, ?_⟩, ?_, ?_⟩
     rotate_left
     · rt_exec [cmpCode.EXE_LT.eq, cmpCode.LTGT_set10.eq, cmpCode.set0.eq, cmpCode.EXE_GT.eq, cmpCode.LTGT_set01.eq, cmpCode.set1.eq,
         cmpCode.EXE_NEQ.eq, cmpCode.EXE_EQ.eq, hv, hn]
       rfl
     · first | exact b2w_t (by rw [M.ax]; omega) | exact b2w_f (by rw [M.ax]; omega)
     · exact kept)

theorem word_inj {a x l h : B} : word a x = word l h ↔ a = l ∧ x = h := by
  have := a.isLt; have := x.isLt; have := l.isLt; have := h.isLt
  constructor
  · intro e
    have e := congrArg BitVec.toNat e
    rw [word_toNat, word_toNat] at e
    exact ⟨BitVec.eq_of_toNat_eq (by omega), BitVec.eq_of_toNat_eq (by omega)⟩
  · rintro ⟨rfl, rfl⟩; rfl

theorem sub_zero_iff (a b : B) : (a - b = 0#8) ↔ a = b := by
  constructor
  · intro h; have := BitVec.sub_add_cancel a b; rw [h] at this; simpa using this.symm
  · rintro rfl; exact BitVec.sub_self a

theorem xor_zero_iff (a b : B) : (a ^^^ b = 0#8) ↔ a = b := BitVec.xor_eq_zero_iff

theorem eq_gen (m : M) : ∃ m', Halts cmpCode cmpCode.EXE_EQ m m' ∧
    m'.ax = (fun s a => b2w (decide (s = a))) (word (m.sl m.y) (m.sh m.y)) m.ax ∧ Kept m m' (m.zp.sptr + 1) := by
  by_cases h1 : m.a = m.sl m.y
  · by_cases h2 : m.x = m.sh m.y
    · refine ⟨?_, ⟨40, ?_⟩, ?_, ?_⟩
      rotate_left
      · rt_exec [cmpCode.EXE_LT.eq, cmpCode.LTGT_set10.eq, cmpCode.set0.eq, cmpCode.EXE_GT.eq, cmpCode.LTGT_set01.eq, cmpCode.set1.eq,
          cmpCode.EXE_NEQ.eq, cmpCode.EXE_EQ.eq, sub_zero_iff, xor_zero_iff, h1, h2]
        rfl
      · exact b2w_t (by rw [M.ax, word_inj]; exact ⟨h1.symm, h2.symm⟩)
      · exact kept
    · refine ⟨?_, ⟨40, ?_⟩, ?_, ?_⟩
      rotate_left
      · rt_exec [cmpCode.EXE_LT.eq, cmpCode.LTGT_set10.eq, cmpCode.set0.eq, cmpCode.EXE_GT.eq, cmpCode.LTGT_set01.eq, cmpCode.set1.eq,
          cmpCode.EXE_NEQ.eq, cmpCode.EXE_EQ.eq, sub_zero_iff, xor_zero_iff, h1, h2]
        rfl
      · exact b2w_f (by rw [M.ax, word_inj]; exact fun h => h2 h.2.symm)
      · exact kept
  · refine ⟨?_, ⟨40, ?_⟩, ?_, ?_⟩
    rotate_left
    · rt_exec [cmpCode.EXE_LT.eq, cmpCode.LTGT_set10.eq, cmpCode.set0.eq, cmpCode.EXE_GT.eq, cmpCode.LTGT_set01.eq, cmpCode.set1.eq,
        cmpCode.EXE_NEQ.eq, cmpCode.EXE_EQ.eq, sub_zero_iff, xor_zero_iff, h1]
      rfl
    · exact b2w_f (by rw [M.ax, word_inj]; exact fun h => h1 h.1.symm)
    · exact kept

theorem neq_gen (m : M) : ∃ m', Halts cmpCode cmpCode.EXE_NEQ m m' ∧
    m'.ax = (fun s a => b2w (decide (s ≠ a))) (word (m.sl m.y) (m.sh m.y)) m.ax ∧ Kept m m' (m.zp.sptr + 1) := by
  by_cases h1 : m.a = m.sl m.y
  · by_cases h2 : m.x = m.sh m.y
    · refine ⟨?_, ⟨40, ?_⟩, ?_, ?_⟩
      rotate_left
      · rt_exec [cmpCode.EXE_LT.eq, cmpCode.LTGT_set10.eq, cmpCode.set0.eq, cmpCode.EXE_GT.eq, cmpCode.LTGT_set01.eq, cmpCode.set1.eq,
          cmpCode.EXE_NEQ.eq, cmpCode.EXE_EQ.eq, sub_zero_iff, xor_zero_iff, h1, h2]
        rfl
      · exact b2w_f (by rw [M.ax, ne_eq, word_inj]; exact fun h => h ⟨h1.symm, h2.symm⟩)
      · exact kept
    · refine ⟨?_, ⟨40, ?_⟩, ?_, ?_⟩
      rotate_left
      · rt_exec [cmpCode.EXE_LT.eq, cmpCode.LTGT_set10.eq, cmpCode.set0.eq, cmpCode.EXE_GT.eq, cmpCode.LTGT_set01.eq, cmpCode.set1.eq,
          cmpCode.EXE_NEQ.eq, cmpCode.EXE_EQ.eq, sub_zero_iff, xor_zero_iff, h1, h2]
        rfl
      · exact b2w_t (by rw [M.ax, ne_eq, word_inj]; exact fun h => h2 h.2.symm)
      · exact kept
  · refine ⟨?_, ⟨40, ?_⟩, ?_, ?_⟩
    rotate_left
    · rt_exec [cmpCode.EXE_LT.eq, cmpCode.LTGT_set10.eq, cmpCode.set0.eq, cmpCode.EXE_GT.eq, cmpCode.LTGT_set01.eq, cmpCode.set1.eq,
        cmpCode.EXE_NEQ.eq, cmpCode.EXE_EQ.eq, sub_zero_iff, xor_zero_iff, h1]
      rfl
    · exact b2w_t (by rw [M.ax, ne_eq, word_inj]; exact fun h => h1 h.1.symm)
    · exact kept

theorem lt_correct : Binary cmpCode cmpCode.EXE_LT (fun s a => b2w (decide (s.toInt < a.toInt))) := by
  intro m he; rw [stkAt0 he]; exact lt_gen m
theorem gt_correct : Binary cmpCode cmpCode.EXE_GT (fun s a => b2w (decide (a.toInt < s.toInt))) := by
  intro m he; rw [stkAt0 he]; exact gt_gen m
theorem eq_correct : Binary cmpCode cmpCode.EXE_EQ (fun s a => b2w (decide (s = a))) := by
  intro m he; rw [stkAt0 he]; exact eq_gen m
theorem neq_correct : Binary cmpCode cmpCode.EXE_NEQ (fun s a => b2w (decide (s ≠ a))) := by
  intro m he; rw [stkAt0 he]; exact neq_gen m

end FB.Rt
