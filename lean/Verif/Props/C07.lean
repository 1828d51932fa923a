import Verif.Rt.Mul
import Verif.Rt.Div
import Verif.Rt.For
/-!
# C07–C10: integer arithmetic of the runtime

The routines are transcriptions of the assembly text (`Verif.Rt.*`); the results are stated with the integers.
`Binary P k f`: from every state in which the dispatcher enters the routine `k`, it ends, `AX` is `f` of the top of the
stack and `AX`, the top is popped, and memory, both stacks and the other cells that matter are unchanged.
`Unary` is the same for one operand.
-/
namespace FB
open FB.Rt

/-! ## C07 -/

/-- **C07.** `x * y` modulo 65536, as integers. -/
theorem C07_mul (m : M) (he : Entry m) : ∃ m', Halts mulCode mulCode m m' ∧
    m'.ax = BitVec.ofInt 16 ((m.stkAt 0).toInt * m.ax.toInt) ∧ Kept m m' (m.zp.sptr + 1) := by
  obtain ⟨m', h, e, k⟩ := mul_correct m he
  exact ⟨m', h, by rw [e, BitVec.ofInt_mul, BitVec.ofInt_toInt, BitVec.ofInt_toInt], k⟩

/-- The instruction of the virtual machine of `Verif.VM` is this routine. -/
theorem C07_vm : ∀ f, binop .MUL = some f → ∃ g, f = lift2 g ∧ Binary mulCode mulCode g := by
  intro f h; cases h; exact ⟨_, rfl, mul_correct⟩

/-! ## C08 -/

/-- **C08.** For every divisor other than 0 the quotient is the integer quotient truncated toward zero. -/
theorem C08_div (m : M) (he : Entry m) (h0 : m.ax ≠ 0) : ∃ m', Halts divCode divCode.EXE_DIV m m' ∧
    m'.ax = BitVec.ofInt 16 ((m.stkAt 0).toInt.tdiv m.ax.toInt) ∧ Kept m m' (m.zp.sptr + 1) := by
  obtain ⟨m', h, e, k⟩ := div_correct m he
  refine ⟨m', by simpa [entry] using h, ?_, k⟩
  rw [e, vmDiv, if_neg h0]

/-- The only quotient that does not fit in 16 bits is `-32768 / -1`, which gives `-32768`. -/
theorem C08_div_exact (x y : W) (h0 : y ≠ 0) (h : ¬ (x.toInt = -32768 ∧ y.toInt = -1)) :
    (vmDiv x y).toInt = x.toInt.tdiv y.toInt := by
  rw [vmDiv, if_neg h0]
  have hx := BitVec.toInt_lt (x := x); have hx' := BitVec.le_toInt (x := x)
  have hy0 : y.toInt ≠ 0 := by
    intro h; exact h0 (BitVec.toInt_inj.1 (by rw [h]; rfl))
  simp only [Nat.reduceSub, Int.reducePow] at hx hx'
  have hab : (x.toInt.tdiv y.toInt).natAbs = x.toInt.natAbs / y.toInt.natAbs := Int.natAbs_tdiv _ _
  have hle : x.toInt.natAbs / y.toInt.natAbs ≤ x.toInt.natAbs := Nat.div_le_self _ _
  have hy1 : 0 < y.toInt.natAbs := by omega
  have key : -32768 ≤ x.toInt.tdiv y.toInt ∧ x.toInt.tdiv y.toInt ≤ 32767 := by
    by_cases hx1 : x.toInt = -32768
    · by_cases hy2 : 2 ≤ y.toInt.natAbs
      · have : x.toInt.natAbs / y.toInt.natAbs ≤ x.toInt.natAbs / 2 := Nat.div_le_div_left hy2 (by decide)
        omega
      · have hy3 : y.toInt = 1 := by omega
        rw [hy3, Int.tdiv_one]; omega
    · omega
  rw [BitVec.toInt_ofInt, Int.bmod_def]
  split <;> omega

/-- **C08.** The remainder has the sign of the dividend. -/
theorem C08_mod (m : M) (he : Entry m) (h0 : m.ax ≠ 0) : ∃ m', Halts divCode divCode.EXE_MOD m m' ∧
    m'.ax.toInt = (m.stkAt 0).toInt.tmod m.ax.toInt ∧ Kept m m' (m.zp.sptr + 1) := by
  obtain ⟨m', h, e, k⟩ := mod_correct m he
  refine ⟨m', by simpa [entry] using h, ?_, k⟩
  rw [e, vmMod, if_neg h0]
  generalize m.stkAt 0 = x at *
  generalize m.ax = y at *
  have hx := BitVec.toInt_lt (x := x); have hx' := BitVec.le_toInt (x := x)
  simp only [Nat.reduceSub, Int.reducePow] at hx hx'
  have hab : (x.toInt.tmod y.toInt).natAbs = x.toInt.natAbs % y.toInt.natAbs := Int.natAbs_tmod _ _
  have hle : x.toInt.natAbs % y.toInt.natAbs ≤ x.toInt.natAbs := Nat.mod_le _ _
  have hnn : 0 ≤ x.toInt → 0 ≤ x.toInt.tmod y.toInt := fun h => Int.tmod_nonneg _ h
  have hnp : x.toInt ≤ 0 → x.toInt.tmod y.toInt ≤ 0 := fun h => by
    have := Int.tmod_nonneg (a := -x.toInt) y.toInt (by omega)
    rw [Int.neg_tmod] at this; omega
  rw [BitVec.toInt_ofInt, Int.bmod_def]
  split <;> omega

/-- **C08.** `x = y * (x / y) + x MOD y` for the results of the two routines, whatever the operands. -/
theorem C08_div_mod (m : M) (he : Entry m) (h0 : m.ax ≠ 0) : ∃ q r, Halts divCode divCode.EXE_DIV m q ∧ Halts divCode divCode.EXE_MOD m r ∧
    m.stkAt 0 = m.ax * q.ax + r.ax := by
  obtain ⟨q, hq, eq, _⟩ := C08_div m he h0
  obtain ⟨r, hr, er, _⟩ := mod_correct m he
  refine ⟨q, r, hq, by simpa [entry] using hr, ?_⟩
  rw [eq, er, vmMod, if_neg h0]
  have : m.ax = BitVec.ofInt 16 m.ax.toInt := (BitVec.ofInt_toInt).symm
  conv_rhs => rw [this]
  rw [BitVec.toInt_ofInt, BitVec.toInt_bmod_cancel, ← BitVec.ofInt_mul, ← BitVec.ofInt_add]
  conv_lhs => rw [← BitVec.ofInt_toInt (x := m.stkAt 0)]
  congr 1
  exact (Int.mul_tdiv_add_tmod _ _).symm

/-- **C08.** Division by zero gives -1, or 1 if the dividend is negative. -/
theorem C08_div_zero (m : M) (he : Entry m) (h0 : m.ax = 0) : ∃ m', Halts divCode divCode.EXE_DIV m m' ∧
    m'.ax = (if (m.stkAt 0).toInt < 0 then 1 else -1) ∧ Kept m m' (m.zp.sptr + 1) := by
  obtain ⟨m', h, e, k⟩ := div_correct m he
  refine ⟨m', by simpa [entry] using h, ?_, k⟩
  rw [e, vmDiv, if_pos h0]

/-- `MOD` by zero ends too: it gives the low byte of the absolute value, with the sign of the dividend. -/
theorem C08_mod_zero (m : M) (he : Entry m) (h0 : m.ax = 0) : ∃ m', Halts divCode divCode.EXE_MOD m m' ∧
    m'.ax.toInt = (m.stkAt 0).toInt.sign * ((m.stkAt 0).toInt.natAbs % 256 : Nat) ∧ Kept m m' (m.zp.sptr + 1) := by
  obtain ⟨m', h, e, k⟩ := mod_correct m he
  refine ⟨m', by simpa [entry] using h, ?_, k⟩
  rw [e, vmMod, if_pos h0]
  generalize (m.stkAt 0) = x at *
  have hs : x.toInt < 0 ∨ x.toInt = 0 ∨ 0 < x.toInt := by omega
  rcases hs with hs | hs | hs
  · rw [if_pos hs, Int.sign_eq_neg_one_of_neg hs, BitVec.toInt_ofInt, Int.bmod_def]; split <;> omega
  · simp [hs]
  · rw [if_neg (by omega), Int.sign_eq_one_of_pos hs, BitVec.toInt_ofInt, Int.bmod_def]; split <;> omega

theorem C08_vm : (∀ f, binop .DIV = some f → ∃ g, f = lift2 g ∧ Binary divCode (entry divCode "EXE_DIV") g) ∧
    (∀ f, binop .MOD = some f → ∃ g, f = lift2 g ∧ Binary divCode (entry divCode "EXE_MOD") g) :=
  ⟨fun f h => by cases h; exact ⟨_, rfl, div_correct⟩, fun f h => by cases h; exact ⟨_, rfl, mod_correct⟩⟩

/-! ## C09 -/

/-- **C09.** The comparisons give 1 or 0 by the order of the integers, for all operands. -/
theorem C09_comparisons (m : M) (he : Entry m) :
    (∃ m', Halts cmpCode cmpCode.EXE_LT m m' ∧ m'.ax = (if (m.stkAt 0).toInt < m.ax.toInt then 1 else 0) ∧ Kept m m' (m.zp.sptr + 1)) ∧
    (∃ m', Halts cmpCode cmpCode.EXE_GT m m' ∧ m'.ax = (if (m.stkAt 0).toInt > m.ax.toInt then 1 else 0) ∧ Kept m m' (m.zp.sptr + 1)) ∧
    (∃ m', Halts cmpCode cmpCode.EXE_EQ m m' ∧ m'.ax = (if (m.stkAt 0).toInt = m.ax.toInt then 1 else 0) ∧ Kept m m' (m.zp.sptr + 1)) ∧
    (∃ m', Halts cmpCode cmpCode.EXE_NEQ m m' ∧ m'.ax = (if (m.stkAt 0).toInt ≠ m.ax.toInt then 1 else 0) ∧ Kept m m' (m.zp.sptr + 1)) := by
  refine ⟨?_, ?_, ?_, ?_⟩
  · obtain ⟨m', h, e, k⟩ := lt_correct m he; exact ⟨m', h, by rw [e]; simp only [b2w, decide_eq_true_eq], k⟩
  · obtain ⟨m', h, e, k⟩ := gt_correct m he; exact ⟨m', h, by rw [e]; simp only [b2w, decide_eq_true_eq, gt_iff_lt], k⟩
  · obtain ⟨m', h, e, k⟩ := eq_correct m he; exact ⟨m', h, by rw [e]; simp only [b2w, decide_eq_true_eq, BitVec.toInt_inj], k⟩
  · obtain ⟨m', h, e, k⟩ := neq_correct m he; exact ⟨m', h, by rw [e]; simp only [b2w, decide_eq_true_eq, BitVec.toInt_inj, ne_eq], k⟩

/-- **C09.** `COMP_0` tells whether the accumulator is not zero; `L_NOT` negates truth values; `L_AND`, `L_OR` combine them. -/
theorem C09_logic (m : M) (he : Entry m) :
    (∃ m', Halts comp0Code (entry comp0Code "EXE_COMP_0") m m' ∧ m'.ax = (if m.ax.toInt ≠ 0 then 1 else 0) ∧ Kept m m' m.zp.sptr) ∧
    ((m.ax = 0 ∨ m.ax = 1) → ∃ m', Halts lnotCode lnotCode m m' ∧ m'.ax = (if m.ax = 0 then 1 else 0) ∧ Kept m m' m.zp.sptr) ∧
    ((m.ax = 0 ∨ m.ax = 1) → (m.stkAt 0 = 0 ∨ m.stkAt 0 = 1) → ∃ m', Halts landCode landCode m m' ∧
      m'.ax = (if m.stkAt 0 = 1 ∧ m.ax = 1 then 1 else 0) ∧ Kept m m' (m.zp.sptr + 1)) ∧
    ((m.ax = 0 ∨ m.ax = 1) → (m.stkAt 0 = 0 ∨ m.stkAt 0 = 1) → ∃ m', Halts lorCode lorCode m m' ∧
      m'.ax = (if m.stkAt 0 = 1 ∨ m.ax = 1 then 1 else 0) ∧ Kept m m' (m.zp.sptr + 1)) := by
  refine ⟨?_, ?_, ?_, ?_⟩
  · obtain ⟨m', h, e, k⟩ := comp0_correct m he
    have z : m.ax.toInt ≠ 0 ↔ m.ax ≠ 0 := by
      rw [not_iff_not, ← BitVec.toInt_zero (w := 16), BitVec.toInt_inj]; rfl
    exact ⟨m', h, by rw [e]; simp only [b2w, decide_eq_true_eq, z], k⟩
  · intro hb; obtain ⟨m', h, e, k⟩ := lnot_correct m he hb; exact ⟨m', h, by rw [e]; simp only [b2w, decide_eq_true_eq], k⟩
  · intro hb hs
    obtain ⟨m', h, e, k⟩ := land_correct m he hb hs
    refine ⟨m', h, ?_, k⟩
    rw [e]
    rcases hb with hb | hb <;> rcases hs with hs | hs <;> rw [hb, hs] <;> decide
  · intro hb hs
    obtain ⟨m', h, e, k⟩ := lor_correct m he hb hs
    refine ⟨m', h, ?_, k⟩
    rw [e]
    rcases hb with hb | hb <;> rcases hs with hs | hs <;> rw [hb, hs] <;> decide

theorem C09_vm :
    (∀ f, binop .LT = some f → ∃ g, f = lift2 g ∧ Binary cmpCode cmpCode.EXE_LT g) ∧
    (∀ f, binop .GT = some f → ∃ g, f = lift2 g ∧ Binary cmpCode cmpCode.EXE_GT g) ∧
    (∀ f, binop .EQ = some f → ∃ g, f = lift2 g ∧ Binary cmpCode cmpCode.EXE_EQ g) ∧
    (∀ f, binop .NEQ = some f → ∃ g, f = lift2 g ∧ Binary cmpCode cmpCode.EXE_NEQ g) ∧
    (∀ f, unop .COMP_0 = some f → Unary comp0Code (entry comp0Code "EXE_COMP_0") f) :=
  ⟨fun f h => by cases h; exact ⟨_, rfl, lt_correct⟩, fun f h => by cases h; exact ⟨_, rfl, gt_correct⟩,
   fun f h => by cases h; exact ⟨_, rfl, eq_correct⟩, fun f h => by cases h; exact ⟨_, rfl, neq_correct⟩,
   fun f h => by cases h; exact comp0_correct⟩

/-! ## C10 -/

/-- **C10.** Negation, absolute value, sign, doubling and multiplication by 256, as integers modulo 65536. -/
theorem C10_unary (m : M) (he : Entry m) :
    (∃ m', Halts absnegCode (entry absnegCode "EXE_NEG") m m' ∧ m'.ax = BitVec.ofInt 16 (- m.ax.toInt) ∧ Kept m m' m.zp.sptr) ∧
    (∃ m', Halts absnegCode (entry absnegCode "EXE_ABS") m m' ∧ m'.ax = BitVec.ofInt 16 |m.ax.toInt| ∧ Kept m m' m.zp.sptr) ∧
    (∃ m', Halts sgnCode sgnCode m m' ∧ m'.ax = BitVec.ofInt 16 m.ax.toInt.sign ∧ Kept m m' m.zp.sptr) ∧
    (∃ m', Halts ushlCode ushlCode m m' ∧ m'.ax = BitVec.ofInt 16 (2 * m.ax.toInt) ∧ Kept m m' m.zp.sptr) ∧
    (∃ m', Halts shl8Code shl8Code m m' ∧ m'.ax = BitVec.ofInt 16 (256 * m.ax.toInt) ∧ Kept m m' m.zp.sptr) := by
  refine ⟨?_, ?_, ?_, ?_, ?_⟩
  · obtain ⟨m', h, e, k⟩ := neg_correct m he
    exact ⟨m', h, by rw [e, BitVec.ofInt_neg, BitVec.ofInt_toInt], k⟩
  · obtain ⟨m', h, e, k⟩ := abs_correct m he
    refine ⟨m', h, ?_, k⟩
    rw [e, Int.abs_eq_natAbs]
  · obtain ⟨m', h, e, k⟩ := sgn_correct m he
    refine ⟨m', h, ?_, k⟩
    rw [e, sgnSpec]
    have hs : m.ax.toInt < 0 ∨ m.ax.toInt = 0 ∨ 0 < m.ax.toInt := by omega
    rcases hs with hs | hs | hs
    · rw [if_pos hs, Int.sign_eq_neg_one_of_neg hs]; rfl
    · rw [if_neg (by omega), if_pos hs, hs]; rfl
    · rw [if_neg (by omega), if_neg (by omega), Int.sign_eq_one_of_pos hs]; rfl
  · obtain ⟨m', h, e, k⟩ := ushl_correct m he
    exact ⟨m', h, by rw [e, Int.two_mul, BitVec.ofInt_add, BitVec.ofInt_toInt], k⟩
  · obtain ⟨m', h, e, k⟩ := shl8_correct m he
    refine ⟨m', h, ?_, k⟩
    rw [e, BitVec.ofInt_mul, BitVec.ofInt_toInt, BitVec.mul_comm]
    show m.ax <<< 8 = _
    rw [BitVec.shiftLeft_eq_mul_twoPow]
    rfl

/-- **C10.** `INC` and `DEC` add and subtract 1 from the word at the address in `AX`, low byte first, and change nothing
else in memory; for both ways in which the runtime can be assembled. -/
theorem C10_inc_dec (m : M) (he : Entry m) :
    (∃ m', Halts incCode incCode m m' ∧ Stored m m' (updMem2 m.ram m.ax (m.peek m.ax + 1))) ∧
    (∃ m', Halts decCode decCode m m' ∧ Stored m m' (updMem2 m.ram m.ax (m.peek m.ax - 1))) ∧
    (∃ m', Halts incCodeN incCodeN m m' ∧ Stored m m' (updMem2 m.ram m.ax (m.peek m.ax + 1))) ∧
    (∃ m', Halts decCodeN decCodeN m m' ∧ Stored m m' (updMem2 m.ram m.ax (m.peek m.ax - 1))) :=
  ⟨inc_correct m he, dec_correct m he, incN_correct m he, decN_correct m he⟩

/-- **C10.** Addition, subtraction and the bitwise operators. -/
theorem C10_binary : Binary addsubCode (entry addsubCode "EXE_ADD") (· + ·) ∧ Binary addsubCode (entry addsubCode "EXE_SUB") (· - ·) ∧
    Binary (bitCode .and) (bitCode .and) (· &&& ·) ∧ Binary (bitCode .ora) (bitCode .ora) (· ||| ·) ∧
    Binary (bitCode .eor) (bitCode .eor) (· ^^^ ·) :=
  ⟨add_correct, sub_correct, bitand_correct, bitor_correct, bitexor_correct⟩

theorem C10_vm :
    (∀ f, unop .NEG = some f → Unary absnegCode (entry absnegCode "EXE_NEG") f) ∧
    (∀ f, unop .USHL = some f → Unary ushlCode ushlCode f) ∧ (∀ f, unop .SHL8 = some f → Unary shl8Code shl8Code f) :=
  ⟨fun f h => by cases h; exact neg_correct, fun f h => by cases h; exact ushl_correct, fun f h => by cases h; exact shl8_correct⟩

/-! ### Cases -/

/-- A state with `-32768` on the stack and `-1` in the accumulator. -/
def exAr (s a : W) : M :=
  { a := lo a, x := hi a, y := 0x20, c := false, z := false, n := false, v := false, stk := [.byte 7]
    zp := { tmp1 := 1, tmp1h := 2, tmp2 := 3, tmp2h := 4, tmp3 := 5, tmp3h := 6, dsign := 0, sptr := 0x20, saddr := 0, saddrh := 0,
            msrc := 0, msrch := 0, mdst := 0, mdsth := 0, mins := 0x88, arr := 0, arrh := 0, op1 := 0, op2 := 0, op3 := 0, tmp4 := 0, ioerr := 0,
            inb := 0, inbh := 0, cix := 0 }
    sl := fun i => if i = 0x20 then lo s else 0
    sh := fun i => if i = 0x20 then hi s else 0
    ram := fun w => if w = 0x60FF then 0xFF else 0 }

example : ∃ m', Halts mulCode mulCode (exAr (-300) 500) m' ∧ m'.ax = -18928 := by
  obtain ⟨m', h, e, _⟩ := C07_mul (exAr (-300) 500) rfl; exact ⟨m', h, e⟩
example : ∃ m', Halts divCode divCode.EXE_DIV (exAr (-32768) 300) m' ∧ m'.ax = -109 := by
  obtain ⟨m', h, e, _⟩ := C08_div (exAr (-32768) 300) rfl (by decide); exact ⟨m', h, e⟩
example : ∃ m', Halts divCode divCode.EXE_MOD (exAr (-32768) 300) m' ∧ m'.ax.toInt = -68 := by
  obtain ⟨m', h, e, _⟩ := C08_mod (exAr (-32768) 300) rfl (by decide); exact ⟨m', h, e⟩
example : ∃ m', Halts divCode divCode.EXE_DIV (exAr (-7) 0) m' ∧ m'.ax = 1 := by
  obtain ⟨m', h, e, _⟩ := C08_div_zero (exAr (-7) 0) rfl rfl; exact ⟨m', h, e⟩
/-- A comparison in which the difference overflows. -/
example : ∃ m', Halts cmpCode cmpCode.EXE_LT (exAr (-32768) 32767) m' ∧ m'.ax = 1 := by
  obtain ⟨⟨m', h, e, _⟩, _⟩ := C09_comparisons (exAr (-32768) 32767) rfl; exact ⟨m', h, e⟩
example : ∃ m', Halts lorCode lorCode (exAr 1 0) m' ∧ m'.ax = 1 := by
  obtain ⟨_, _, _, h⟩ := C09_logic (exAr 1 0) rfl
  obtain ⟨m', h, e, _⟩ := h (.inl rfl) (.inr rfl)
  exact ⟨m', h, e⟩
example : ∃ m', Halts absnegCode (entry absnegCode "EXE_ABS") (exAr 0 (-32768)) m' ∧ m'.ax = -32768 := by
  obtain ⟨_, ⟨m', h, e, _⟩, _⟩ := C10_unary (exAr 0 (-32768)) rfl; exact ⟨m', h, e⟩
/-- The carry goes to the byte in the next page. -/
example : ∃ m', Halts incCode incCode (exAr 0 0x60FF) m' ∧ m'.ram 0x60FF = 0 ∧ m'.ram 0x6100 = 1 := by
  obtain ⟨⟨m', h, k⟩, _⟩ := C10_inc_dec (exAr 0 0x60FF) rfl
  exact ⟨m', h, by rw [k.ram]; decide, by rw [k.ram]; decide⟩

end FB
