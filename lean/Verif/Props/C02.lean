import Verif.RulesC
/-!
# C02: comparisons with a constant

`x <= k` is compiled to `… PUSH / NUM k / GT / L_NOT` and `x >= k` to `… PUSH / NUM k / LT / L_NOT`.
The theorems are about the rules `peephole.cc:1227-1247` and `1319-1339` for every `x` on the stack and
every `k`; the specification is the order of the integers.  `Fix.actual` is the code as it is.
-/
namespace FB
open Peep

/-- `x <= k`, without optimizer. -/
theorem run_le (env : Env) (P : List Codew) (k x : W) (rest : List Codew) (rs : List (List Codew)) (d : D)
    (stk : List Val) (hs : d.stk = .num x :: stk) :
    runN env P 3 ⟨.tok .NUM :: .word k :: .tok .GT :: .tok .L_NOT :: rest, rs, d⟩
      = .run ⟨rest, rs, { d.setAx (b2w (decide (x.toInt ≤ k.toInt))) with stk := stk }⟩ := by
  rcases d with ⟨ax, saddr, st, mem, color, iochn, out⟩
  subst hs
  simp [runN, step, arity, takesOp, isCtl, splitOps, sem, opWord, Codew.isData, Codew.isTok, Codew.isLabel, binop, D.pop,
    D.setAx, D.setVal, lift2, Val.toW, D.axBool]
  simp only [valBool_b2w]
  by_cases h : x.toInt ≤ k.toInt
  · simp [h, Int.not_lt.mpr h]
  · simp [h, Int.not_le.mp h]

/-- `x >= k`, without optimizer. -/
theorem run_ge (env : Env) (P : List Codew) (k x : W) (rest : List Codew) (rs : List (List Codew)) (d : D)
    (stk : List Val) (hs : d.stk = .num x :: stk) :
    runN env P 3 ⟨.tok .NUM :: .word k :: .tok .LT :: .tok .L_NOT :: rest, rs, d⟩
      = .run ⟨rest, rs, { d.setAx (b2w (decide (k.toInt ≤ x.toInt))) with stk := stk }⟩ := by
  rcases d with ⟨ax, saddr, st, mem, color, iochn, out⟩
  subst hs
  simp [runN, step, arity, takesOp, isCtl, splitOps, sem, opWord, Codew.isData, Codew.isTok, Codew.isLabel, binop, D.pop,
    D.setAx, D.setVal, lift2, Val.toW, D.axBool]
  simp only [valBool_b2w]
  by_cases h : k.toInt ≤ x.toInt
  · simp [h, Int.not_lt.mpr h]
  · simp [h, Int.not_le.mp h]

theorem run_lt1 (env : Env) (P : List Codew) (k x : W) (rest : List Codew) (rs : List (List Codew)) (d : D)
    (stk : List Val) (hs : d.stk = .num x :: stk) :
    runN env P 2 ⟨.tok .NUM :: .word k :: .tok .LT :: rest, rs, d⟩
      = .run ⟨rest, rs, { d.setAx (b2w (decide (x.toInt < k.toInt))) with stk := stk }⟩ := by
  rcases d with ⟨ax, saddr, st, mem, color, iochn, out⟩
  subst hs
  simp [runN, step, arity, takesOp, isCtl, splitOps, sem, opWord, Codew.isData, Codew.isTok, Codew.isLabel, binop, D.pop,
    D.setAx, D.setVal, lift2, Val.toW]

theorem run_gt1 (env : Env) (P : List Codew) (k x : W) (rest : List Codew) (rs : List (List Codew)) (d : D)
    (stk : List Val) (hs : d.stk = .num x :: stk) :
    runN env P 2 ⟨.tok .NUM :: .word k :: .tok .GT :: rest, rs, d⟩
      = .run ⟨rest, rs, { d.setAx (b2w (decide (k.toInt < x.toInt))) with stk := stk }⟩ := by
  rcases d with ⟨ax, saddr, st, mem, color, iochn, out⟩
  subst hs
  simp [runN, step, arity, takesOp, isCtl, splitOps, sem, opWord, Codew.isData, Codew.isTok, Codew.isLabel, binop, D.pop,
    D.setAx, D.setVal, lift2, Val.toW]

theorem run_true (env : Env) (P : List Codew) (x : W) (rest : List Codew) (rs : List (List Codew)) (d : D)
    (stk : List Val) (hs : d.stk = .num x :: stk) :
    runN env P 3 ⟨.tok .NUM :: .word 1 :: .tok .BIT_OR :: .tok .COMP_0 :: rest, rs, d⟩
      = .run ⟨rest, rs, { d.setAx 1 with stk := stk }⟩ := by
  rcases d with ⟨ax, saddr, st, mem, color, iochn, out⟩
  subst hs
  simp [runN, step, arity, takesOp, isCtl, splitOps, sem, opWord, Codew.isData, Codew.isTok, Codew.isLabel, binop, D.pop,
    D.setAx, D.setVal, lift2, Val.toW, unop, D.axW, b2w, or_one_ne x]

/-- The code `new ++ rest`, run from a state with `x` on the stack, pops it and leaves the truth value
`b` (1 or 0) in the accumulator after executing `new`. -/
def Decides (new rest : List Codew) (x : W) (b : Bool) : Prop :=
  ∀ (env : Env) (P : List Codew) (rs : List (List Codew)) (d : D) (stk : List Val), d.stk = .num x :: stk →
    ∃ n, runN env P n ⟨new ++ rest, rs, d⟩
      = .run ⟨rest, rs, { d.setAx (if b then 1 else 0) with stk := stk }⟩

/-- **C02 for `<=`**: before and after the rule the code decides `x <= k`.  Not proved, because false, for
`k = 32767` and `k = 32637` (see the refutations). -/
theorem C02_le_constant_partial (k : W) (h1 : k.toInt ≠ 32767) (h2 : k.toInt ≠ 32637) (rest : List Codew) (ch ub : Bool) :
    (rGtNot Fix.actual).guard (.tok .NUM :: .word k :: .tok .GT :: .tok .L_NOT :: rest) = true ∧
    ∃ new, (rGtNot Fix.actual).edit ⟨.tok .NUM :: .word k :: .tok .GT :: .tok .L_NOT :: rest, ch, ub⟩ = ⟨new ++ rest, true, ub⟩ ∧
      ∀ x : W, Decides [.tok .NUM, .word k, .tok .GT, .tok .L_NOT] rest x (decide (x.toInt ≤ k.toInt)) ∧
        Decides new rest x (decide (x.toInt ≤ k.toInt)) := by
  refine ⟨by simp [rGtNot, mtok, mword], [.tok .NUM, .word (BitVec.ofInt 16 (k.toInt + 1)), .tok .LT], ?_, ?_⟩
  · have : ¬ (Ed.val ⟨.tok .NUM :: .word k :: .tok .GT :: .tok .L_NOT :: rest, ch, ub⟩ 1 = Fix.actual.gtMax) := h2
    simp only [rGtNot, if_neg this]; rfl
  · intro x
    refine ⟨fun env P rs d stk hs => ⟨3, run_le env P k x rest rs d stk hs⟩, fun env P rs d stk hs => ⟨2, ?_⟩⟩
    have := run_lt1 env P (BitVec.ofInt 16 (k.toInt + 1)) x rest rs d stk hs
    rw [List.cons_append, List.cons_append, List.cons_append, List.nil_append, this]
    have hb : decide (x.toInt < (BitVec.ofInt 16 (k.toInt + 1)).toInt) = decide (x.toInt ≤ k.toInt) := by
      have := k.toInt_lt (w := 16); have := k.le_toInt (w := 16)
      rw [BitVec.toInt_ofInt_eq_self (by omega) (by omega) (by omega)]
      simp [Int.lt_add_one_iff]
    rw [hb]; rfl

/-- **C02 for `>=`**: before and after the rule the code decides `x >= k`, for every `k`. -/
theorem C02_ge_constant (k : W) (rest : List Codew) (ch ub : Bool) :
    rLtNot.guard (.tok .NUM :: .word k :: .tok .LT :: .tok .L_NOT :: rest) = true ∧
    ∃ new, rLtNot.edit ⟨.tok .NUM :: .word k :: .tok .LT :: .tok .L_NOT :: rest, ch, ub⟩ = ⟨new ++ rest, true, ub⟩ ∧
      ∀ x : W, Decides [.tok .NUM, .word k, .tok .LT, .tok .L_NOT] rest x (decide (k.toInt ≤ x.toInt)) ∧
        Decides new rest x (decide (k.toInt ≤ x.toInt)) := by
  refine ⟨by simp [rLtNot, mtok, mword], ?_⟩
  by_cases h : k.toInt = -32768
  · refine ⟨[.tok .NUM, .word 1, .tok .BIT_OR, .tok .COMP_0], ?_, ?_⟩
    · have : (Ed.val ⟨.tok .NUM :: .word k :: .tok .LT :: .tok .L_NOT :: rest, ch, ub⟩ 1 = -32768) := h
      simp only [rLtNot, if_pos this]; rfl
    · intro x
      refine ⟨fun env P rs d stk hs => ⟨3, run_ge env P k x rest rs d stk hs⟩, fun env P rs d stk hs => ⟨3, ?_⟩⟩
      have hx := x.le_toInt (w := 16)
      have : k.toInt ≤ x.toInt := by omega
      simp only [this, decide_true, if_true]
      exact run_true env P x rest rs d stk hs
  · refine ⟨[.tok .NUM, .word (BitVec.ofInt 16 (k.toInt - 1)), .tok .GT], ?_, ?_⟩
    · have : ¬ (Ed.val ⟨.tok .NUM :: .word k :: .tok .LT :: .tok .L_NOT :: rest, ch, ub⟩ 1 = -32768) := h
      simp only [rLtNot, if_neg this]; rfl
    · intro x
      refine ⟨fun env P rs d stk hs => ⟨3, run_ge env P k x rest rs d stk hs⟩, fun env P rs d stk hs => ⟨2, ?_⟩⟩
      have := run_gt1 env P (BitVec.ofInt 16 (k.toInt - 1)) x rest rs d stk hs
      rw [List.cons_append, List.cons_append, List.cons_append, List.nil_append, this]
      have hb : decide ((BitVec.ofInt 16 (k.toInt - 1)).toInt < x.toInt) = decide (k.toInt ≤ x.toInt) := by
        have := k.toInt_lt (w := 16); have := k.le_toInt (w := 16)
        rw [BitVec.toInt_ofInt_eq_self (by omega) (by omega) (by omega)]
        congr 1; simp only [eq_iff_iff]; omega
      rw [hb]; rfl

/-- **C02 with the constant corrected** (`32767` for `32637` in `peephole.cc:1230`): every `k`. -/
theorem C02_le_constant_fixed (k : W) (rest : List Codew) (ch ub : Bool) :
    ∃ new, (rGtNot Fix.fixed).edit ⟨.tok .NUM :: .word k :: .tok .GT :: .tok .L_NOT :: rest, ch, ub⟩ = ⟨new ++ rest, true, ub⟩ ∧
      ∀ x : W, Decides new rest x (decide (x.toInt ≤ k.toInt)) := by
  by_cases h : k.toInt = 32767
  · refine ⟨[.tok .NUM, .word 1, .tok .BIT_OR, .tok .COMP_0], ?_, ?_⟩
    · have : (Ed.val ⟨.tok .NUM :: .word k :: .tok .GT :: .tok .L_NOT :: rest, ch, ub⟩ 1 = Fix.fixed.gtMax) := h
      simp only [rGtNot, if_pos this]; rfl
    · intro x env P rs d stk hs
      have hx := x.toInt_lt (w := 16)
      have : x.toInt ≤ k.toInt := by omega
      simp only [this, decide_true, if_true]
      exact ⟨3, run_true env P x rest rs d stk hs⟩
  · refine ⟨[.tok .NUM, .word (BitVec.ofInt 16 (k.toInt + 1)), .tok .LT], ?_, ?_⟩
    · have : ¬ (Ed.val ⟨.tok .NUM :: .word k :: .tok .GT :: .tok .L_NOT :: rest, ch, ub⟩ 1 = Fix.fixed.gtMax) := h
      simp only [rGtNot, if_neg this]; rfl
    · intro x env P rs d stk hs
      refine ⟨2, ?_⟩
      have := run_lt1 env P (BitVec.ofInt 16 (k.toInt + 1)) x rest rs d stk hs
      rw [List.cons_append, List.cons_append, List.cons_append, List.nil_append, this]
      have hb : decide (x.toInt < (BitVec.ofInt 16 (k.toInt + 1)).toInt) = decide (x.toInt ≤ k.toInt) := by
        have := k.toInt_lt (w := 16); have := k.le_toInt (w := 16)
        rw [BitVec.toInt_ofInt_eq_self (by omega) (by omega) (by omega)]
        simp [Int.lt_add_one_iff]
      rw [hb]; rfl

/-- A state that meets the hypothesis of `Decides`: 7 on the stack; and the two sides differ for 3 and 9. -/
example : ((⟨none, none, [.num 7], fun _ => 0, 0, 0, []⟩ : D).stk = .num 7 :: []) ∧
    decide ((7 : W).toInt ≤ (9 : W).toInt) = true ∧ decide ((7 : W).toInt ≤ (3 : W).toInt) = false ∧
    (9 : W).toInt ≠ 32767 ∧ (9 : W).toInt ≠ 32637 := by decide

/-- **Bug**: `x <= 32767`, which is always true, is replaced by code that yields 0 for every `x`. -/
theorem C02_le_32767_refuted (rest : List Codew) (ch ub : Bool) :
    ∃ new, (rGtNot Fix.actual).edit ⟨.tok .NUM :: .word 32767 :: .tok .GT :: .tok .L_NOT :: rest, ch, ub⟩ = ⟨new ++ rest, true, ub⟩ ∧
      ∀ x : W, x.toInt ≤ (32767 : W).toInt ∧ Decides new rest x false := by
  refine ⟨[.tok .NUM, .word 0x8000#16, .tok .LT], ?_, ?_⟩
  · have : ¬ (Ed.val ⟨.tok .NUM :: .word 32767 :: .tok .GT :: .tok .L_NOT :: rest, ch, ub⟩ 1 = Fix.actual.gtMax) := by
      show ¬ ((32767 : W).toInt = 32637); decide
    simp only [rGtNot, if_neg this]; rfl
  · intro x
    have h0 : (32767 : W).toInt = 32767 := by decide
    have hx := x.toInt_lt (w := 16)
    refine ⟨by omega, fun env P rs d stk hs => ⟨2, ?_⟩⟩
    have := run_lt1 env P 0x8000#16 x rest rs d stk hs
    rw [List.cons_append, List.cons_append, List.cons_append, List.nil_append, this]
    have h1 : (0x8000#16 : W).toInt = -32768 := by decide
    have h2 := x.le_toInt (w := 16)
    have : ¬ (x.toInt < (0x8000#16 : W).toInt) := by omega
    simp only [this, decide_false]; rfl

/-- **Bug**: `x <= 32637` is replaced by code that yields 1 for every `x`, for instance 32700. -/
theorem C02_le_32637_refuted (rest : List Codew) (ch ub : Bool) :
    ∃ new, (rGtNot Fix.actual).edit ⟨.tok .NUM :: .word 32637 :: .tok .GT :: .tok .L_NOT :: rest, ch, ub⟩ = ⟨new ++ rest, true, ub⟩ ∧
      (∀ x : W, Decides new rest x true) ∧ ¬ ((32700 : W).toInt ≤ (32637 : W).toInt) := by
  refine ⟨[.tok .NUM, .word 1, .tok .BIT_OR, .tok .COMP_0], ?_, ?_, by decide⟩
  · have : (Ed.val ⟨.tok .NUM :: .word 32637 :: .tok .GT :: .tok .L_NOT :: rest, ch, ub⟩ 1 = Fix.actual.gtMax) := by
      show ((32637 : W).toInt = 32637); decide
    simp only [rGtNot, if_pos this]; rfl
  · exact fun x env P rs d stk hs => ⟨3, run_true env P x rest rs d stk hs⟩

end FB
