import Verif.RulesC
/-!
# C01: constant folding computes what the runtime would compute

Specification: `opSpec`, ordinary integer arithmetic.  The theorems say that, when the main loop of the
optimizer is at `NUM x / PUSH / NUM y / op`, it replaces the four instructions by one `NUM z`, that the
machine running the four instructions leaves that same `z` in the accumulator (and nothing else
changes), and that `z` is the specified number reduced to 16 bits.  For all `x`, `y`, all code that
follows, all machine states.  `Fix.actual` is the optimizer as it is.
-/
namespace FB
open Peep

/-- The operators folded on two literals. -/
inductive BinFold | add | sub | mul | div | mod | and | or | exor
deriving DecidableEq
/-- The operators folded on one literal. -/
inductive UnFold | neg | ushl | shl8 | bool

/-- The bytecode of each operator, `/repo/src/syntax/basic.syn` (`+ - * / MOD & ! EXOR`). -/
def BinFold.tok : BinFold → Tok
  | .add => .ADD | .sub => .SUB | .mul => .MUL | .div => .DIV | .mod => .MOD
  | .and => .BIT_AND | .or => .BIT_OR | .exor => .BIT_EXOR

/-- Unary minus, address doubling, `* 256`, test for non-zero. -/
def UnFold.tok : UnFold → Tok
  | .neg => .NEG | .ushl => .USHL | .shl8 => .SHL8 | .bool => .COMP_0

/-- Specification: what each operator means on (signed) integers.  Division truncates; the manual
documents no value for a zero divisor, the runtime gives 1 or -1. -/
def BinFold.spec (x y : W) : BinFold → Int
  | .add => x.toInt + y.toInt
  | .sub => x.toInt - y.toInt
  | .mul => x.toInt * y.toInt
  | .div => if y.toInt = 0 then (if x.toInt < 0 then 1 else -1) else x.toInt.tdiv y.toInt
  | .mod => x.toInt.tmod y.toInt
  | .and => (x &&& y).toNat
  | .or => (x ||| y).toNat
  | .exor => (x ^^^ y).toNat

def UnFold.spec (x : W) : UnFold → Int
  | .neg => - x.toInt
  | .ushl => 2 * x.toInt
  | .shl8 => 256 * x.toInt
  | .bool => if x.toInt = 0 then 0 else 1

/-- Evaluate the main loop at a window. -/
macro "fold" : tactic =>
  `(tactic| (simp [mainBody, rColor, mtok, trackColor, mainRules, runRules, rNeg, rUshl, rShl8, rMul256, rMul4, rMul2,
     rMul1, rDiv1, rAdd0, rNum0AddVar, rSub0, rNeq0, rEq0, rCAdd, rCSub, rCMul, rCDiv, rCMod, rCAnd, rCOr, rCExor, rStore0, rGet, rGetKey, rNumPut,
     rBytePut, rNumPeek, rBytePeek, rPokeBN, rPokeBV, rPokeByteNum, rPokeByteVar, rPokeNN, rPokeNV, constOp, mword, rSubSub, rAddVar, rVarAddNum,
     rVarAddUshl, rArrIdx, rVarVar, rInc1, rInc2, rInc3, rInc4, rDec1, rDec2, rDec3, rDec4, rNotNot, rEqNot, rNeqNot, rBoolComp, rGtNot, rStrIdx,
     rLtNot, rNumComp, BinFold.tok, UnFold.tok]; rfl))

theorem fold_add (x y : W) (pc : Int) (rest : List Codew) (ch ub : Bool) : mainBody Fix.actual pc
      ⟨.tok .NUM :: .word x :: .tok .PUSH :: .tok .NUM :: .word y :: .tok BinFold.add.tok :: rest, ch, ub⟩
    = (pc, ⟨.tok .NUM :: .word (BitVec.ofInt 16 (x.toInt + y.toInt)) :: rest, true, ub⟩, 0) := by fold

theorem fold_sub (x y : W) (pc : Int) (rest : List Codew) (ch ub : Bool) : mainBody Fix.actual pc
      ⟨.tok .NUM :: .word x :: .tok .PUSH :: .tok .NUM :: .word y :: .tok BinFold.sub.tok :: rest, ch, ub⟩
    = (pc, ⟨.tok .NUM :: .word (BitVec.ofInt 16 (x.toInt - y.toInt)) :: rest, true, ub⟩, 0) := by fold

theorem fold_mul (x y : W) (pc : Int) (rest : List Codew) (ch ub : Bool) : mainBody Fix.actual pc
      ⟨.tok .NUM :: .word x :: .tok .PUSH :: .tok .NUM :: .word y :: .tok BinFold.mul.tok :: rest, ch, ub⟩
    = (pc, ⟨.tok .NUM :: .word (BitVec.ofInt 16 (x.toInt * y.toInt)) :: rest, true, ub⟩, 0) := by fold

theorem fold_div (x y : W) (pc : Int) (rest : List Codew) (ch ub : Bool) : mainBody Fix.actual pc
      ⟨.tok .NUM :: .word x :: .tok .PUSH :: .tok .NUM :: .word y :: .tok BinFold.div.tok :: rest, ch, ub⟩
    = (pc, ⟨.tok .NUM :: .word (BitVec.ofInt 16 (cDiv x.toInt y.toInt)) :: rest, true, ub⟩, 0) := by fold

theorem fold_mod (x y : W) (pc : Int) (rest : List Codew) (ch ub : Bool) : mainBody Fix.actual pc
      ⟨.tok .NUM :: .word x :: .tok .PUSH :: .tok .NUM :: .word y :: .tok BinFold.mod.tok :: rest, ch, ub⟩
    = (pc, ⟨.tok .NUM :: .word (BitVec.ofInt 16 (cMod Fix.actual x.toInt y.toInt)) :: rest, true, ub⟩, 0) := by fold

theorem fold_and (x y : W) (pc : Int) (rest : List Codew) (ch ub : Bool) : mainBody Fix.actual pc
      ⟨.tok .NUM :: .word x :: .tok .PUSH :: .tok .NUM :: .word y :: .tok BinFold.and.tok :: rest, ch, ub⟩
    = (pc, ⟨.tok .NUM :: .word (BitVec.ofInt 16 (bitInt (· &&& ·) x.toInt y.toInt)) :: rest, true, ub⟩, 0) := by fold

theorem fold_or (x y : W) (pc : Int) (rest : List Codew) (ch ub : Bool) : mainBody Fix.actual pc
      ⟨.tok .NUM :: .word x :: .tok .PUSH :: .tok .NUM :: .word y :: .tok BinFold.or.tok :: rest, ch, ub⟩
    = (pc, ⟨.tok .NUM :: .word (BitVec.ofInt 16 (bitInt (· ||| ·) x.toInt y.toInt)) :: rest, true, ub⟩, 0) := by fold

theorem fold_exor (x y : W) (pc : Int) (rest : List Codew) (ch ub : Bool) : mainBody Fix.actual pc
      ⟨.tok .NUM :: .word x :: .tok .PUSH :: .tok .NUM :: .word y :: .tok BinFold.exor.tok :: rest, ch, ub⟩
    = (pc, ⟨.tok .NUM :: .word (BitVec.ofInt 16 (bitInt (· ^^^ ·) x.toInt y.toInt)) :: rest, true, ub⟩, 0) := by fold

theorem run_bin (env : Env) (P : List Codew) (x y z : W) (t : Tok) (ht : takesOp t = false) (hc : isCtl t = false)
    (hn : ∀ s, t ≠ .other s)
    (rest : List Codew) (rs : List (List Codew)) (d : D)
    (hs : sem env t [] { d with stk := .num x :: d.stk, ax := some (.num y) } = some (d.setAx z)) :
    runN env P 4 ⟨.tok .NUM :: .word x :: .tok .PUSH :: .tok .NUM :: .word y :: .tok t :: rest, rs, d⟩
      = .run ⟨rest, rs, d.setAx z⟩ := by
  have ha : arity env t = 0 := by
    cases t <;> first | (exact absurd rfl (hn _)) | simp_all [arity, takesOp]
  have e1 : step env P ⟨.tok .NUM :: .word x :: .tok .PUSH :: .tok .NUM :: .word y :: .tok t :: rest, rs, d⟩ =
      .run ⟨.tok .PUSH :: .tok .NUM :: .word y :: .tok t :: rest, rs, d.setAx x⟩ := rfl
  have e2 : step env P ⟨.tok .PUSH :: .tok .NUM :: .word y :: .tok t :: rest, rs, d.setAx x⟩ =
      .run ⟨.tok .NUM :: .word y :: .tok t :: rest, rs, { d.killAx with stk := .num x :: d.stk }⟩ := rfl
  have e3 : step env P ⟨.tok .NUM :: .word y :: .tok t :: rest, rs, { d.killAx with stk := .num x :: d.stk }⟩ =
      .run ⟨.tok t :: rest, rs, { d with stk := .num x :: d.stk, ax := some (.num y) }⟩ := rfl
  have e4 : step env P ⟨.tok t :: rest, rs, { d with stk := .num x :: d.stk, ax := some (.num y) }⟩ =
      .run ⟨rest, rs, d.setAx z⟩ := by
    simp only [step, ha, splitOps, hc, hs]; rfl
  simp only [runN, e1, e2, e3, e4]

/-- **C01** (binary operators, all but `MOD 0`). -/
theorem C01_fold_binary_partial (op : BinFold) (x y : W) (hmod : op = .mod → y ≠ 0) :
    ∃ z : W, z = BitVec.ofInt 16 (op.spec x y) ∧
      (∀ (pc : Int) (rest : List Codew) (ch ub : Bool),
        mainBody Fix.actual pc
          ⟨.tok .NUM :: .word x :: .tok .PUSH :: .tok .NUM :: .word y :: .tok op.tok :: rest, ch, ub⟩
        = (pc, ⟨.tok .NUM :: .word z :: rest, true, ub⟩, 0)) ∧
      (∀ (env : Env) (P rest : List Codew) (rs : List (List Codew)) (d : D),
        runN env P 4
          ⟨.tok .NUM :: .word x :: .tok .PUSH :: .tok .NUM :: .word y :: .tok op.tok :: rest, rs, d⟩
        = .run ⟨rest, rs, d.setAx z⟩) := by
  refine ⟨_, rfl, ?_, ?_⟩
  · intro pc rest ch ub
    cases op
    case add => exact fold_add ..
    case sub => exact fold_sub ..
    case mul => exact fold_mul ..
    case div =>
      have : BinFold.div.spec x y = cDiv x.toInt y.toInt := by
        simp only [BinFold.spec, cDiv]; split <;> simp_all
      rw [this]; exact fold_div ..
    case mod =>
      have : BinFold.mod.spec x y = cMod Fix.actual x.toInt y.toInt := by
        have := hmod rfl
        simp only [BinFold.spec, cMod, ne_eq, toInt_eq_zero]; exact (if_pos this).symm
      rw [this]; exact fold_mod ..
    case and =>
      have : BitVec.ofInt 16 (BinFold.and.spec x y) = BitVec.ofInt 16 (bitInt (· &&& ·) x.toInt y.toInt) := by
        rw [bitInt_eq]; simp [BinFold.spec]
      rw [this]; exact fold_and ..
    case or =>
      have : BitVec.ofInt 16 (BinFold.or.spec x y) = BitVec.ofInt 16 (bitInt (· ||| ·) x.toInt y.toInt) := by
        rw [bitInt_eq]; simp [BinFold.spec]
      rw [this]; exact fold_or ..
    case exor =>
      have : BitVec.ofInt 16 (BinFold.exor.spec x y) = BitVec.ofInt 16 (bitInt (· ^^^ ·) x.toInt y.toInt) := by
        rw [bitInt_eq]; simp [BinFold.spec]
      rw [this]; exact fold_exor ..
  · intro env P rest rs d
    apply run_bin
    · cases op <;> rfl
    · cases op <;> rfl
    · cases op <;> simp [BinFold.tok]
    · cases op
      case mod =>
        have h0 := hmod rfl
        simp [BinFold.tok, sem, binop, valAdd, valSub, lift2, D.pop, Val.toW, D.setAx, D.setVal, BinFold.spec, vmMod]
        exact fun h => absurd h h0
      case div =>
        simp [BinFold.tok, sem, binop, valAdd, valSub, lift2, D.pop, Val.toW, D.setAx, D.setVal, BinFold.spec, vmDiv, toInt_eq_zero]
        split
        · split <;> rfl
        · rfl
      all_goals simp [BinFold.tok, sem, binop, valAdd, valSub, lift2, D.pop, Val.toW, D.setAx, D.setVal, BinFold.spec, ofInt_sub16, BitVec.ofInt_add, BitVec.ofInt_mul]

/-- 7 MOD -3 = 1, -32768 / -1 wraps to -32768: the hypothesis is met and results are the expected ones. -/
example : (BinFold.mod = .mod → (BitVec.ofInt 16 (-3) : W) ≠ 0) ∧
    BitVec.ofInt 16 (BinFold.mod.spec 7 (BitVec.ofInt 16 (-3))) = (1 : W) ∧
    BitVec.ofInt 16 (BinFold.div.spec 0x8000#16 0xFFFF#16) = (0x8000#16 : W) := by decide

/-- **C01** (unary operators). -/
theorem C01_fold_unary (op : UnFold) (x : W) :
    ∃ z : W, z = BitVec.ofInt 16 (op.spec x) ∧
      (∀ (pc : Int) (rest : List Codew) (ch ub : Bool),
        ∃ n, mainBody Fix.actual pc ⟨.tok .NUM :: .word x :: .tok op.tok :: rest, ch, ub⟩
        = (pc, ⟨.tok .NUM :: .word z :: rest, true, ub⟩, n)) ∧
      (∀ (env : Env) (P rest : List Codew) (rs : List (List Codew)) (d : D),
        runN env P 2 ⟨.tok .NUM :: .word x :: .tok op.tok :: rest, rs, d⟩
        = .run ⟨rest, rs, d.setAx z⟩) := by
  refine ⟨_, rfl, ?_, ?_⟩
  · intro pc rest ch ub
    cases op
    case bool =>
      refine ⟨1, ?_⟩
      have : UnFold.bool.spec x = if x.toInt ≠ 0 then 1 else 0 := by simp [UnFold.spec]
      rw [this]; fold
    all_goals exact ⟨0, by fold⟩
  · intro env P rest rs d
    cases op
    all_goals simp [runN, step, splitOps, arity, takesOp, isCtl, UnFold.tok, UnFold.spec, sem, binop, unop, D.axW, D.setAx, D.setVal, Val.toW, opWord, Codew.isData, Codew.isTok, Codew.isLabel, b2w, toInt_eq_zero]
    · rw [BitVec.ofInt_neg]; simp
    · exact (ofInt_two_mul x).symm
    · rw [shl8_eq, ofInt_256_mul]
    · split <;> simp_all

example : BitVec.ofInt 16 (UnFold.neg.spec 0x8000#16) = (0x8000#16 : W) ∧
    BitVec.ofInt 16 (UnFold.shl8.spec 0x1234#16) = (0x3400#16 : W) := by decide

/-- **C01, the exception, exactly**: for `x MOD 0` the folded literal is `x`, the runtime leaves the
low byte of `|x|` with the sign of `x`. -/
theorem C01_mod_zero_exact (x : W) :
    (∀ (pc : Int) (rest : List Codew) (ch ub : Bool),
        mainBody Fix.actual pc
          ⟨.tok .NUM :: .word x :: .tok .PUSH :: .tok .NUM :: .word 0 :: .tok .MOD :: rest, ch, ub⟩
        = (pc, ⟨.tok .NUM :: .word x :: rest, true, ub⟩, 0)) ∧
    (∀ (env : Env) (P rest : List Codew) (rs : List (List Codew)) (d : D),
        runN env P 4
          ⟨.tok .NUM :: .word x :: .tok .PUSH :: .tok .NUM :: .word 0 :: .tok .MOD :: rest, rs, d⟩
        = .run ⟨rest, rs, d.setAx (BitVec.ofInt 16 (x.toInt.sign * (x.toInt.natAbs % 256 : Nat)))⟩) := by
  constructor
  · intro pc rest ch ub
    have h : BitVec.ofInt 16 (cMod Fix.actual x.toInt (0 : W).toInt) = x := by
      simp [cMod, Fix.actual]
    have : mainBody Fix.actual pc
          ⟨.tok .NUM :: .word x :: .tok .PUSH :: .tok .NUM :: .word 0 :: .tok .MOD :: rest, ch, ub⟩
        = (pc, ⟨.tok .NUM :: .word (BitVec.ofInt 16 (cMod Fix.actual x.toInt (0 : W).toInt)) :: rest, true, ub⟩, 0) := fold_mod ..
    rw [this, h]
  · intro env P rest rs d
    apply run_bin _ _ _ _ _ _ rfl rfl (by simp)
    have hz : vmMod x 0 = BitVec.ofInt 16 (x.toInt.sign * (x.toInt.natAbs % 256 : Nat)) := by
      simp only [vmMod, if_true]
      split
      · rename_i h; rw [Int.sign_eq_neg_one_of_neg h]; simp
      · rename_i h
        by_cases h0 : x.toInt = 0
        · simp [h0]
        · rw [Int.sign_eq_one_of_pos (by omega)]; simp
    simp only [sem, binop, lift2, D.pop, Val.toW, D.setAx, D.setVal, Option.bind_some, Option.map_some, hz]

/-- **C01 is false of the code**: `1000 MOD 0` folds to 1000, the runtime computes 232. -/
theorem C01_fold_mod_zero_refuted :
    ¬ ∀ (x y : W), ∃ z : W,
      (∀ (pc : Int) (rest : List Codew) (ch ub : Bool),
        (mainBody Fix.actual pc
          ⟨.tok .NUM :: .word x :: .tok .PUSH :: .tok .NUM :: .word y :: .tok .MOD :: rest, ch, ub⟩).2.1.code
        = .tok .NUM :: .word z :: rest) ∧
      (∀ (env : Env) (P rest : List Codew) (rs : List (List Codew)) (d : D),
        runN env P 4
          ⟨.tok .NUM :: .word x :: .tok .PUSH :: .tok .NUM :: .word y :: .tok .MOD :: rest, rs, d⟩
        = .run ⟨rest, rs, d.setAx z⟩) := by
  intro h
  obtain ⟨z, h1, h2⟩ := h 1000 0
  have e1 := h1 0 [] false false
  rw [(C01_mod_zero_exact 1000).1] at e1
  have e2 := h2 ⟨0, fun _ => 0, fun _ => 0, fun _ => false, fun _ _ => 0, fun _ _ => 0, fun _ => 0, fun m _ _ _ => (m, 0), fun _ => 0, fun _ _ d => some d⟩
    [] [] [] ⟨none, none, [], fun _ => 0, 0, 0, []⟩
  rw [(C01_mod_zero_exact 1000).2] at e2
  simp only [List.cons.injEq, Codew.word.injEq, and_true, true_and] at e1
  subst e1
  simp only [Res.run.injEq, Cfg.mk.injEq, true_and, D.setAx, D.setVal, D.mk.injEq, Option.some.injEq, Val.num.injEq, and_true] at e2
  revert e2; decide

end FB
