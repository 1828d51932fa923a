import Verif.Props.C03
/-!
# C06: merging constant PRINT items keeps the printed text

`print_color` is the colour that the optimizer believes to be set (negative: not known).  The theorems say
that, when that belief is right, the code left by the main loop (`peephole.cc:1498-1530`) and by `print_chars`
(`296-325`) leads to exactly the same machine state, hence to the same bytes on the same channel, as the code
before.  The belief is not always right: `C06_*_refuted`.
-/
namespace FB
open Peep

/-- `c1` and `c2` do the same from state `d`: after some steps of each, the machine is in the same place in the
same state. -/
def SameFrom (env : Env) (P : List Codew) (rets : List (List Codew)) (d : D) (c1 c2 : List Codew) : Prop :=
  ∃ n m k, runN env P n ⟨c1, rets, d⟩ = .run k ∧ runN env P m ⟨c2, rets, d⟩ = .run k

theorem SameFrom.refl (env : Env) (P : List Codew) (rets : List (List Codew)) (d : D) (c : List Codew) :
    SameFrom env P rets d c c := ⟨0, 0, _, rfl, rfl⟩

/-- What printing one constant string does. -/
def printed (d : D) (s : List B) : D := (d.put (s.map (· ^^^ d.color))).killAx

theorem run_print (env : Env) (P : List Codew) (rets : List (List Codew)) (d : D) (s : List B) (rest : List Codew) (n : Nat) :
    runN env P (n + 2) ⟨.tok .CSTRING :: .str s :: .tok .PRINT_STR :: rest, rets, d⟩ = runN env P n ⟨rest, rets, printed d s⟩ := by
  simp [runN, step, arity, takesOp, isCtl, splitOps, sem, Codew.isData, Codew.isTok, Codew.isLabel, D.setVal, strBytes, printed, D.put, D.killAx]

theorem run_bytePut (env : Env) (P : List Codew) (rets : List (List Codew)) (d : D) (b : B) (rest : List Codew) (n : Nat) :
    runN env P (n + 1) ⟨.tok .BYTE_PUT :: .byte b :: rest, rets, d⟩ = runN env P n ⟨rest, rets, (d.put [b]).killAx⟩ := by
  simp [runN, step, arity, takesOp, isCtl, splitOps, sem, Codew.isData, Codew.isTok, Codew.isLabel, opByte]

theorem run_numPut (env : Env) (P : List Codew) (rets : List (List Codew)) (d : D) (w : W) (rest : List Codew) (n : Nat) :
    runN env P (n + 2) ⟨.tok .NUM :: .word w :: .tok .PUT :: rest, rets, d⟩ = runN env P n ⟨rest, rets, (d.put [lo w]).killAx⟩ := by
  simp [runN, step, arity, takesOp, isCtl, splitOps, sem, Codew.isData, Codew.isTok, Codew.isLabel, opWord, D.setAx, D.setVal, D.axW, Val.toW, D.put, D.killAx]

theorem printed_append (d : D) (s t : List B) : printed (printed d s) t = printed d (s ++ t) := by
  simp [printed, D.put, D.killAx]

theorem printed_put (d : D) (s : List B) (b : B) : ((printed d s).put [b]).killAx = printed d (s ++ [b ^^^ d.color]) := by
  simp [printed, D.put, D.killAx, BitVec.xor_assoc]

/-- One rule at a constant print. -/
theorem joinPut_step (env : Env) (P : List Codew) (rets : List (List Codew)) (d : D) (pc : Int) (hc : pc ≥ 0 → d.color = BitVec.ofInt 8 pc)
    (s : List B) (rest : List Codew) (ch ub : Bool)
    (hg : (rJoinPut pc).guard (.tok .CSTRING :: .str s :: .tok .PRINT_STR :: rest) = true) :
    ∃ s' rest' ch' n, (rJoinPut pc).edit ⟨.tok .CSTRING :: .str s :: .tok .PRINT_STR :: rest, ch, ub⟩ =
        ⟨.tok .CSTRING :: .str s' :: .tok .PRINT_STR :: rest', ch', ub⟩ ∧
      runN env P n ⟨rest, rets, printed d s⟩ = .run ⟨rest', rets, printed d s'⟩ ∧ rest' <:+ rest := by
  simp only [rJoinPut] at hg ⊢
  uncons rest, a3, hg
  uncons rest, a4, hg
  uncons rest, a5, hg
  guards hg
  obtain ⟨⟨⟨⟨hl, rfl⟩, w, rfl⟩, rfl⟩, hp⟩ := hg
  refine ⟨s ++ [xorColor w.toInt pc], rest, true, 2, ?_, ?_, ⟨[_, _, _], rfl⟩⟩
  · simp [Ed.setString, str]; edits
  · rw [run_numPut, printed_put]
    have hx : xorColor w.toInt pc = lo w ^^^ d.color := by
      rw [hc (by simpa using hp)]; simp [xorColor, lo_eq]
    rw [hx]; rfl

theorem joinBytePut_step (env : Env) (P : List Codew) (rets : List (List Codew)) (d : D) (pc : Int) (hc : pc ≥ 0 → d.color = BitVec.ofInt 8 pc)
    (s : List B) (rest : List Codew) (ch ub : Bool) (hw : wf (.tok .CSTRING :: .str s :: .tok .PRINT_STR :: rest) = true)
    (hg : (rJoinBytePut pc).guard (.tok .CSTRING :: .str s :: .tok .PRINT_STR :: rest) = true) :
    ∃ s' rest' ch' n, (rJoinBytePut pc).edit ⟨.tok .CSTRING :: .str s :: .tok .PRINT_STR :: rest, ch, ub⟩ =
        ⟨.tok .CSTRING :: .str s' :: .tok .PRINT_STR :: rest', ch', ub⟩ ∧
      runN env P n ⟨rest, rets, printed d s⟩ = .run ⟨rest', rets, printed d s'⟩ ∧ rest' <:+ rest := by
  simp only [rJoinBytePut] at hg ⊢
  uncons rest, a3, hg
  rcases rest with _ | ⟨a4, rest⟩
  · simp [mbyte_iff, mword_iff] at hg
  guards hg
  obtain ⟨⟨⟨hl, rfl⟩, hb⟩, hp⟩ := hg
  obtain ⟨o, ho, hk⟩ := opAt hw 3 rfl rfl
  simp only [List.getElem?_cons_succ, List.getElem?_cons_zero, Option.some.injEq] at ho
  subst ho
  obtain ⟨b, rfl⟩ : ∃ b, a4 = .byte b := by rcases hb with ⟨b, rfl⟩ | ⟨b, rfl⟩ <;> simp_all [opOK]
  refine ⟨s ++ [xorColor b.toNat pc], rest, true, 1, ?_, ?_, ⟨[_, _], rfl⟩⟩
  · simp [Ed.setString, str]; edits
  · rw [run_bytePut, printed_put]
    have hx : xorColor b.toNat pc = b ^^^ d.color := by
      rw [hc (by simpa using hp)]; simp [xorColor]
    rw [hx]; rfl

theorem joinStr_step (env : Env) (P : List Codew) (rets : List (List Codew)) (d : D)
    (s : List B) (rest : List Codew) (ch ub : Bool)
    (hg : rJoinStr.guard (.tok .CSTRING :: .str s :: .tok .PRINT_STR :: rest) = true) :
    ∃ s' rest' ch' n, rJoinStr.edit ⟨.tok .CSTRING :: .str s :: .tok .PRINT_STR :: rest, ch, ub⟩ =
        ⟨.tok .CSTRING :: .str s' :: .tok .PRINT_STR :: rest', ch', ub⟩ ∧
      runN env P n ⟨rest, rets, printed d s⟩ = .run ⟨rest', rets, printed d s'⟩ ∧ rest' <:+ rest := by
  simp only [rJoinStr] at hg ⊢
  uncons rest, a3, hg
  uncons rest, a4, hg
  uncons rest, a5, hg
  guards hg
  obtain ⟨⟨⟨_, rfl⟩, rfl⟩, hl⟩ := hg
  obtain ⟨s2, rfl⟩ : ∃ s, a4 = .str s := by cases a4 <;> simp [mstring] at hl <;> try omega
                                            exact ⟨_, rfl⟩
  refine ⟨s ++ s2, rest, true, 2, ?_, ?_, ⟨[_, _, _], rfl⟩⟩
  · simp [Ed.setString, str]; edits
  · rw [run_print, printed_append]; rfl

/-- The rules before the print rules do nothing at a constant print. -/
theorem mainBody_print (fx : Fix) (pc : Int) (s : List B) (rest : List Codew) (ch ub : Bool) :
    mainBody fx pc ⟨.tok .CSTRING :: .str s :: .tok .PRINT_STR :: rest, ch, ub⟩ =
      let r := runRules [rJoinPut pc, rJoinBytePut pc, rJoinStr] ⟨.tok .CSTRING :: .str s :: .tok .PRINT_STR :: rest, ch, ub⟩
      (pc, r.1, r.2) := by
  simp [mainBody, rColor, mtok, trackColor, mainRules, runRules, rNeg, rUshl, rShl8, rMul256, rMul4, rMul2,
     rMul1, rDiv1, rAdd0, rNum0AddVar, rSub0, rNeq0, rEq0, rCAdd, rCSub, rCMul, rCDiv, rCMod, rCAnd, rCOr, rCExor, rStore0, rGet, rGetKey, rNumPut,
     rBytePut, rNumPeek, rBytePeek, rPokeBN, rPokeBV, rPokeByteNum, rPokeByteVar, rPokeNN, rPokeNV, constOp, rSubSub, rAddVar, rVarAddNum,
     rVarAddUshl, rArrIdx, rVarVar, rInc1, rInc2, rInc3, rInc4, rDec1, rDec2, rDec3, rDec4, rNotNot, rEqNot, rNeqNot, rBoolComp, rGtNot, rStrIdx,
     rLtNot, rNumComp, rNumCnjump, rNumCjump, rCallRet, rNotCjump, rNotCnjump, rCjumpJump, rCjumpRet, rCnjumpJump, rCnjumpRet, rNotCret,
     rNotCnret, rJumpNext, rDeadJump, rDeadRet, rChrPrint]

/-- A rule that falls through, at a constant print. -/
theorem fall_step {env : Env} {P : List Codew} {rets : List (List Codew)} {d : D} {r : Rule} {s : List B} {rest : List Codew} {ch ub : Bool}
    (ha : r.after = .fall) (rs : List Rule)
    (h : r.guard (.tok .CSTRING :: .str s :: .tok .PRINT_STR :: rest) = true →
      ∃ s' rest' ch' n, r.edit ⟨.tok .CSTRING :: .str s :: .tok .PRINT_STR :: rest, ch, ub⟩ =
        ⟨.tok .CSTRING :: .str s' :: .tok .PRINT_STR :: rest', ch', ub⟩ ∧
      runN env P n ⟨rest, rets, printed d s⟩ = .run ⟨rest', rets, printed d s'⟩ ∧ rest' <:+ rest) :
    ∃ s' rest' ch' n, runRules (r :: rs) ⟨.tok .CSTRING :: .str s :: .tok .PRINT_STR :: rest, ch, ub⟩ =
        runRules rs ⟨.tok .CSTRING :: .str s' :: .tok .PRINT_STR :: rest', ch', ub⟩ ∧
      runN env P n ⟨rest, rets, printed d s⟩ = .run ⟨rest', rets, printed d s'⟩ ∧ rest' <:+ rest := by
  by_cases hg : r.guard (.tok .CSTRING :: .str s :: .tok .PRINT_STR :: rest) = true
  · obtain ⟨s', rest', ch', n, h1, h2, h3⟩ := h hg
    exact ⟨s', rest', ch', n, by simp [runRules, hg, ha, h1], h2, h3⟩
  · exact ⟨s, rest, ch, 0, by simp [runRules, hg], rfl, List.suffix_refl _⟩

theorem wf_print {s : List B} {rest : List Codew} : wf (.tok .CSTRING :: .str s :: .tok .PRINT_STR :: rest) = wf rest := by
  simp [wf, headOK, opOK, takesOp]

theorem wf_suffix {c c' : List Codew} (h : c' <:+ c) (hw : wf c = true) : wf c' = true := by
  obtain ⟨x, rfl⟩ := h; exact wf_drop hw

/-- **C06 for the main loop**: at a constant PRINT followed by anything, in any machine state in which the
colour is the one that the optimizer believes (if it believes any), the code after the main loop has visited this
place prints the same and continues the same as the code before. -/
theorem C06_join_print_partial (fx : Fix) (pc : Int) (s : List B) (rest : List Codew) (ch ub : Bool) (hw : wf rest = true)
    (env : Env) (P : List Codew) (rets : List (List Codew)) (d : D) (hc : pc ≥ 0 → d.color = BitVec.ofInt 8 pc) :
    SameFrom env P rets d (.tok .CSTRING :: .str s :: .tok .PRINT_STR :: rest)
      (mainBody fx pc ⟨.tok .CSTRING :: .str s :: .tok .PRINT_STR :: rest, ch, ub⟩).2.1.code := by
  rw [mainBody_print]
  obtain ⟨s1, r1, ch1, n1, e1, x1, w1⟩ := fall_step (r := rJoinPut pc) rfl [rJoinBytePut pc, rJoinStr]
    (joinPut_step env P rets d pc hc s rest ch ub)
  have hw1 := wf_suffix w1 hw
  obtain ⟨s2, r2, ch2, n2, e2, x2, w2⟩ := fall_step (r := rJoinBytePut pc) rfl [rJoinStr]
    (joinBytePut_step env P rets d pc hc s1 r1 ch1 ub (wf_print.trans hw1))
  obtain ⟨s3, r3, ch3, n3, e3, x3, w3⟩ := fall_step (r := rJoinStr) rfl []
    (joinStr_step env P rets d s2 r2 ch2 ub)
  simp only [e1, e2, e3]
  refine ⟨n1 + n2 + n3 + 2, 2, ⟨r3, rets, printed d s3⟩, ?_, ?_⟩
  · rw [run_print, runN_add_run (by rw [runN_add_run x1]; exact x2), x3]
  · show runN env P (0 + 2) ⟨.tok .CSTRING :: .str s3 :: .tok .PRINT_STR :: r3, rets, d⟩ = _
    rw [run_print]; rfl

/-- The rules do join: `PRINT COLOR(128) "AB"; : PUT 3 : PRINT COLOR(128) "C";` inside one statement. -/
example : (mainBody Fix.actual 128 ⟨[.tok .CSTRING, .str [65, 66], .tok .PRINT_STR, .tok .NUM, .word 3, .tok .PUT, .tok .CSTRING, .str [67], .tok .PRINT_STR, .tok .END], false, false⟩).2.1.code
    = [.tok .CSTRING, .str [65, 66, 131, 67], .tok .PRINT_STR, .tok .END] := by decide +kernel

/-- **C06 for `print_chars`**: expanding a short constant PRINT into single characters. -/
theorem C06_print_chars_partial (pc : Int) (s : List B) (rest : List Codew) (ch ub : Bool)
    (env : Env) (P : List Codew) (rets : List (List Codew)) (d : D) (hc : pc ≥ 0 → d.color = BitVec.ofInt 8 pc) (hax : d.ax = none) :
    SameFrom env P rets d (.tok .CSTRING :: .str s :: .tok .PRINT_STR :: rest)
      (printCharsBody pc ⟨.tok .CSTRING :: .str s :: .tok .PRINT_STR :: rest, ch, ub⟩).2.1.code := by
  have ht : trackColor pc (.tok .CSTRING :: .str s :: .tok .PRINT_STR :: rest) = pc := by simp [trackColor, mtok]
  unfold printCharsBody
  simp only [ht]
  split
  · rename_i h
    simp only [Bool.and_eq_true, decide_eq_true_eq] at h
    have hp : pc ≥ 0 := h.1.1.1
    have hl : s.length < 3 := by
      have := h.1.2
      simp [mstring] at this
      omega
    have hc := hc hp
    match s, hl with
    | [], _ =>
      refine ⟨2, 0, ⟨rest, rets, d⟩, ?_, ?_⟩
      · rw [run_print]
        rcases d with ⟨ax, saddr, stk, mem, color, iochn, out⟩
        simp at hax; subst hax
        simp [printed, D.put, D.killAx, runN]
      · simp [str, insChars, Ed.del, runN]
    | [a], _ =>
      refine ⟨2, 1, ⟨rest, rets, printed d [a]⟩, ?_, ?_⟩
      · rw [run_print]; rfl
      · have : (insChars pc (str 1 (.tok .CSTRING :: .str [a] :: .tok .PRINT_STR :: rest)) 0
            ((((⟨.tok .CSTRING :: .str [a] :: .tok .PRINT_STR :: rest, ch, ub⟩ : Ed).del 2).del 1).del 0)).code
            = .tok .BYTE_PUT :: .byte (a ^^^ BitVec.ofInt 8 pc) :: rest := rfl
        rw [this, run_bytePut, ← hc]; simp [runN, printed]
    | [a, b], _ =>
      refine ⟨2, 2, ⟨rest, rets, printed d [a, b]⟩, ?_, ?_⟩
      · rw [run_print]; rfl
      · have : (insChars pc (str 1 (.tok .CSTRING :: .str [a, b] :: .tok .PRINT_STR :: rest)) 0
            ((((⟨.tok .CSTRING :: .str [a, b] :: .tok .PRINT_STR :: rest, ch, ub⟩ : Ed).del 2).del 1).del 0)).code
            = .tok .BYTE_PUT :: .byte (a ^^^ BitVec.ofInt 8 pc) :: .tok .BYTE_PUT :: .byte (b ^^^ BitVec.ofInt 8 pc) :: rest := rfl
        rw [this, run_bytePut, run_bytePut, ← hc]; simp [runN, printed, D.put, D.killAx]
  · exact SameFrom.refl ..

example : (printCharsBody 128 ⟨[.tok .CSTRING, .str [65, 66], .tok .PRINT_STR, .tok .END], false, false⟩).2.1.code
    = [.tok .BYTE_PUT, .byte 193, .tok .BYTE_PUT, .byte 194, .tok .END] := by decide +kernel

/-! ## The belief about the colour can be wrong -/

/-- `TOK_BYTE_POKE PRINT_COLOR` -/
def setColor : List Codew := [.tok .BYTE_POKE, .byteStr "PRINT_COLOR"]

/-- `PRINT COLOR(128) CHR$(A);` -/
def colorChr : List Codew := [.tok .BYTE, .byte 128] ++ setColor ++
  [.tok .VAR_LOAD, .varn 0 "A", .tok .CHR, .tok .PRINT_STR, .tok .ZERO] ++ setColor ++ [.tok .END]

/-- `PRINT COLOR(128) ""; COLOR(1) "A";` -/
def colorEmpty : List Codew := [.tok .BYTE, .byte 128] ++ setColor ++ [.tok .CSTRING, .str [], .tok .PRINT_STR] ++
  [.tok .BYTE, .byte 1] ++ setColor ++ [.tok .CSTRING, .str [65], .tok .PRINT_STR, .tok .ZERO] ++ setColor ++ [.tok .ZERO] ++ setColor ++ [.tok .END]

/-- `IF 1 THEN PRINT COLOR(128) "A"; : PRINT "ABC";` (after the test is folded away the colour set is never seen). -/
def colorIf : List Codew := [.tok .ONE, .tok .CJUMP, .wordStr "lbl1"] ++ [.tok .BYTE, .byte 128] ++ setColor ++
  [.tok .CSTRING, .str [65], .tok .PRINT_STR, .tok .ZERO] ++ setColor ++ [.label "lbl1", .tok .CSTRING, .str [65, 66, 67], .tok .PRINT_STR, .tok .END]

/-- `PRINT COLOR(A) "A"; COLOR(-1) "A";` -/
def colorMinus1 : List Codew := [.tok .VAR_LOAD, .varn 0 "A"] ++ setColor ++ [.tok .CSTRING, .str [65], .tok .PRINT_STR] ++
  [.tok .NUM, .word (-1)] ++ setColor ++ [.tok .CSTRING, .str [65], .tok .PRINT_STR, .tok .ZERO] ++ setColor ++ [.tok .ZERO] ++ setColor ++ [.tok .END]

/-- A program whose printed bytes the optimizer changes: what it prints before and after. -/
def Garbles (P : List Codew) (before after : List B) : Prop :=
  Wf P ∧ before ≠ after ∧ ∃ Q, optimize Fix.fixed 8 P = some Q ∧ optimize Fix.actual 8 P = some Q ∧
    (∃ n d, runN env0 P n (initCfg P fun _ => 0) = .done d ∧ d.out = before.map (.put 0)) ∧
    (∃ n d, runN env0 Q n (initCfg Q fun _ => 0) = .done d ∧ d.out = after.map (.put 0))

/-- Decides `Garbles` by evaluation. -/
def garblesB (P : List Codew) (before after : List B) : Bool :=
  match optimizeF Fix.fixed 60 8 P, optimizeF Fix.actual 60 8 P with
  | some e, some e' => decide (e.code = e'.code) && decide (before ≠ after) && decide (Wf P) &&
      (runN env0 P 30 (initCfg P fun _ => 0)).isDone &&
      decide ((runN env0 P 30 (initCfg P fun _ => 0)).out? = some (before.map (.put 0))) &&
      (runN env0 e.code 30 (initCfg e.code fun _ => 0)).isDone &&
      decide ((runN env0 e.code 30 (initCfg e.code fun _ => 0)).out? = some (after.map (.put 0)))
  | _, _ => false

theorem garbles {P : List Codew} {before after : List B} (h : garblesB P before after = true) : Garbles P before after := by
  unfold garblesB at h
  split at h
  · rename_i e e' h1 h2
    simp only [Bool.and_eq_true, decide_eq_true_eq] at h
    obtain ⟨⟨⟨⟨⟨⟨hc, hne⟩, hw⟩, h3⟩, h3'⟩, h4⟩, h4'⟩ := h
    refine ⟨hw, hne, e.code, by simp [optimize, optimizeF_sound h1], by simp [optimize, optimizeF_sound h2, hc], ?_, ?_⟩
    · obtain ⟨d, hd⟩ := Res.isDone_iff h3
      rw [hd] at h3'
      exact ⟨30, d, hd, Option.some.inj h3'⟩
    · obtain ⟨d, hd⟩ := Res.isDone_iff h4
      rw [hd] at h4'
      exact ⟨30, d, hd, Option.some.inj h4'⟩
  · simp at h

/-- **C06 is false of the code**: four programs (the first is the plainest: `PRINT COLOR(128) CHR$(A)` prints
without colour). -/
theorem C06_color_refuted :
    Garbles colorChr [128] [0] ∧ Garbles colorEmpty [64] [193] ∧ Garbles colorIf [193, 65, 66, 67] [193, 193, 194, 195] ∧
    Garbles colorMinus1 [65, 190] [65, 65] := by
  exact ⟨garbles (by decide +kernel), garbles (by decide +kernel), garbles (by decide +kernel), garbles (by decide +kernel)⟩

end FB
