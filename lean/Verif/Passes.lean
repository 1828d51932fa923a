import Verif.RulesA
import Verif.RulesB
import Verif.RulesC
import Verif.RulesD
/-!
# Soundness of the loops of the optimizer

`loop_sound`: a loop whose body only replaces code at the current position by equivalent code
preserves behaviour, makes no invalid access and ends.  Then the simple passes and the main loop.
-/
namespace FB
open Peep

theorem Wf.suffix {x c : List Codew} (h : Wf (x ++ c)) : Wf c := by
  refine ⟨wf_drop h.ops, ?_, fun hm => h.noEmpty ?_, fun hm => h.noRet ?_⟩
  · have := h.nodup; rw [labels_append] at this; exact (List.nodup_append.1 this).2.1
  · rw [labels_append]; simp [hm]
  · rw [labels_append]; simp [hm]

theorem Good.suffix {x c : List Codew} (h : Good (x ++ c)) : Good c :=
  ⟨h.toWf.suffix, fun hm => h.nocol (by simp [hm])⟩

theorem weight1_pos (a : Codew) : 0 < weight1 a := by
  unfold weight1; split <;> omega

theorem weight_cons (a : Codew) (c : List Codew) : weight (a :: c) = weight1 a + weight c := by simp [weight]

/-- The body of a loop, on code that satisfies `G` and when its state satisfies `I`, stays within the
code, makes progress, and relates old and new code by `R`. -/
def BodyX {σ : Type} (G : List Codew → Prop) (R : List Codew → List Codew → Prop) (I : σ → Prop)
    (body : σ → Ed → σ × Ed × Nat) : Prop :=
  ∀ s c ch ub, I s → G c → c ≠ [] →
    I (body s ⟨c, ch, ub⟩).1 ∧ (body s ⟨c, ch, ub⟩).2.1.ub = ub ∧ R c (body s ⟨c, ch, ub⟩).2.1.code ∧
      weight ((body s ⟨c, ch, ub⟩).2.1.code.drop (body s ⟨c, ch, ub⟩).2.2) < weight c

/-- The body of a loop is sound for programs without `PRINT COLOR`. -/
abbrev BodyOK {σ : Type} (I : σ → Prop) (body : σ → Ed → σ × Ed × Nat) : Prop := BodyX Good RuleOK I body
/-- The body of a loop keeps all programs well formed. -/
abbrev BodyWf {σ : Type} (I : σ → Prop) (body : σ → Ed → σ × Ed × Nat) : Prop := BodyX Wf RuleWf I body
/-- Both. -/
abbrev BodyAll {σ : Type} (I : σ → Prop) (body : σ → Ed → σ × Ed × Nat) : Prop := BodyX Wf RuleOK I body

theorem BodyX.ok {σ : Type} {I : σ → Prop} {body : σ → Ed → σ × Ed × Nat} (h : BodyAll I body) : BodyOK I body :=
  fun s c ch ub hi hg hc => h s c ch ub hi hg.toWf hc

theorem BodyX.toWf {σ : Type} {I : σ → Prop} {body : σ → Ed → σ × Ed × Nat} (h : BodyAll I body) : BodyWf I body :=
  fun s c ch ub hi hg hc => let x := h s c ch ub hi hg hc; ⟨x.1, x.2.1, x.2.2.1.wf, x.2.2.2⟩

theorem loop_wf {σ : Type} {I : σ → Prop} {body : σ → Ed → σ × Ed × Nat} (hb : BodyWf I body) :
    ∀ (s : σ) (acc : List Codew) (e : Ed), I s → Wf (acc ++ e.code) →
      Wf (loop body s acc e).code ∧ (loop body s acc e).ub = e.ub ∧ RefOK (acc ++ e.code) (loop body s acc e).code := by
  intro s acc e
  induction s, acc, e using loop.induct (body := body) with
  | case1 s acc e h =>
    intro hi hg
    unfold loop
    simp only [h, List.append_nil, ↓reduceIte] at hg ⊢
    exact ⟨hg, trivial, RefOK.refl _⟩
  | case2 s acc e h r hr ih =>
    intro hi hg
    rcases e with ⟨c, ch, ub⟩
    have hb1 := hb s c ch ub hi hg.suffix h
    obtain ⟨h1, h2, h3, h4⟩ := hb1
    rw [loop]
    simp only [h, if_false, h4, dif_pos]
    have h5 := h3 acc hg
    have h6 : acc ++ (r.2.1.code.take r.2.2) ++ r.2.1.code.drop r.2.2 = acc ++ r.2.1.code := by simp
    have ih := ih h1 (by simp only [h6]; exact h5.1)
    simp only [h6] at ih
    exact ⟨ih.1, ih.2.1.trans h2, (h5.2.append acc).trans ih.2.2⟩
  | case3 s acc e h r hr =>
    intro hi hg
    rcases e with ⟨c, ch, ub⟩
    exact absurd (hb s c ch ub hi hg.suffix h).2.2.2 hr

theorem loop_sound {σ : Type} {I : σ → Prop} {body : σ → Ed → σ × Ed × Nat} (hb : BodyOK I body) :
    ∀ (s : σ) (acc : List Codew) (e : Ed), I s → Good (acc ++ e.code) →
      Refines (acc ++ e.code) (loop body s acc e).code ∧ Good (loop body s acc e).code ∧ (loop body s acc e).ub = e.ub ∧
        RefOK (acc ++ e.code) (loop body s acc e).code := by
  intro s acc e
  induction s, acc, e using loop.induct (body := body) with
  | case1 s acc e h =>
    intro hi hg
    unfold loop
    simp only [h, List.append_nil, ↓reduceIte] at hg ⊢
    exact ⟨Refines.refl _, hg, trivial, RefOK.refl _⟩
  | case2 s acc e h r hr ih =>
    intro hi hg
    rcases e with ⟨c, ch, ub⟩
    have hb1 := hb s c ch ub hi hg.suffix h
    obtain ⟨h1, h2, h3, h4⟩ := hb1
    rw [loop]
    simp only [h, if_false, h4, dif_pos]
    have h5 := h3.all acc hg
    have h6 : acc ++ (r.2.1.code.take r.2.2) ++ r.2.1.code.drop r.2.2 = acc ++ r.2.1.code := by simp
    have ih := ih h1 (by simp only [h6]; exact h5.2.1)
    simp only [h6] at ih
    exact ⟨h5.1.trans ih.1, ih.2.1, ih.2.2.1.trans h2, (h5.2.2.append acc).trans ih.2.2.2⟩
  | case3 s acc e h r hr =>
    intro hi hg
    rcases e with ⟨c, ch, ub⟩
    exact absurd (hb s c ch ub hi hg.suffix h).2.2.2 hr

/-! ## The main loop -/

theorem runRules_sound : ∀ (rs : List Rule), (∀ r ∈ rs, RS r) → ∀ c ch ub, Good c → 
    (runRules rs ⟨c, ch, ub⟩).1.ub = ub ∧ RuleOK c (runRules rs ⟨c, ch, ub⟩).1.code ∧
      (weight (runRules rs ⟨c, ch, ub⟩).1.code + (1 - (runRules rs ⟨c, ch, ub⟩).2) ≤ weight c ∧ (runRules rs ⟨c, ch, ub⟩).2 ≤ 1) := by
  intro rs
  induction rs with
  | nil => intro _ c ch ub _; exact ⟨rfl, RuleOK.refl _, Nat.le_refl _, Nat.le_refl _⟩
  | cons r rs ih =>
    intro hrs c ch ub hg
    have ih := ih fun r hr => hrs r (List.mem_cons_of_mem _ hr)
    unfold runRules
    by_cases hgd : r.guard c = true
    · obtain ⟨c', ch', he, hok, hw⟩ := hrs r (List.mem_cons_self ..) c ch ub hgd hg.ops
      simp only [hgd, if_true, he]
      rcases hr : r.after with _ | _ | _ <;> simp only [hr] at hw
      · exact ⟨rfl, hok, by simpa using hw, by simp⟩
      · exact ⟨rfl, hok, by simpa using hw, by simp⟩
      · have hg' : Good c' := (hok.all [] hg).2.1
        obtain ⟨h1, h2, h3⟩ := ih c' ch' ub hg'
        exact ⟨h1, hok.trans h2, Nat.le_trans h3.1 (by simpa using hw), h3.2⟩
    · simp only [hgd]
      exact ih c ch ub hg

theorem mainRules_sound : ∀ r ∈ mainRules Fix.fixed 0, RS r := by
  simp only [mainRules, List.forall_mem_cons]
  refine ⟨rNeg_sound, rUshl_sound, rShl8_sound, rMul256_sound, rMul4_sound, rMul2_sound, rMul1_sound, rDiv1_sound,
    rAdd0_sound, rNum0AddVar_sound, rSub0_sound, rNeq0_sound, rEq0_sound, rCAdd_sound, rCSub_sound, rStore0_sound,
    rGet_sound, rGetKey_sound, rNumPut_sound, rBytePut_sound, rNumPeek_sound, rBytePeek_sound, rPokeBN_sound,
    rPokeBV_sound, rPokeByteNum_sound, rPokeByteVar_sound, rPokeNN_sound, rPokeNV_sound, rCMul_sound, rCDiv_sound,
    rCMod_sound, rCAnd_sound, rCOr_sound, rCExor_sound, rSubSub_sound, rAddVar_sound, rVarAddNum_sound,
    rVarAddUshl_sound, rArrIdx_sound, rVarVar_sound, rInc1_sound, rInc2_sound, rInc3_sound, rInc4_sound, rDec1_sound,
    rDec2_sound, rDec3_sound, rDec4_sound, rNotNot_sound, rEqNot_sound, rNeqNot_sound, rBoolComp_sound, rGtNot_sound,
    rStrIdx_sound, rLtNot_sound, rNumComp_sound, rNumCnjump_sound, rNumCjump_sound, rCallRet_sound, rNotCjump_sound,
    rNotCnjump_sound, rCjumpJump_sound, rCjumpRet_sound, rCnjumpJump_sound, rCnjumpRet_sound, rNotCret_sound,
    rNotCnret_sound, rJumpNext_sound, rDeadJump_sound, rDeadRet_sound, rChrPrint_sound, rJoinPut_sound,
    rJoinBytePut_sound, rJoinStr_sound, ?_⟩
  intro r hr
  cases hr

theorem mcbyte_nocol {c : List Codew} (h : Good c) (n : Nat) : mcbyte n "PRINT_COLOR" c = false := by
  rw [Bool.eq_false_iff]
  intro hm
  rw [mcbyte_iff] at hm
  exact h.nocol (List.mem_of_getElem? hm)

theorem trackColor_nocol {c : List Codew} (h : Good c) (pc : Int) : trackColor pc c = pc := by
  simp [trackColor, mcbyte_nocol h]

theorem mainBody_ok : BodyOK (· = 0) (mainBody Fix.fixed) := by
  intro s c ch ub hs hg hne
  subst hs
  have h := runRules_sound _ mainRules_sound c ch ub hg
  simp only [mainBody, rColor, mcbyte_nocol hg, Bool.and_false, Bool.false_and, Bool.false_eq_true, if_false, trackColor_nocol hg]
  refine ⟨trivial, h.1, h.2.1, ?_⟩
  obtain ⟨h1, h2⟩ := h.2.2
  generalize hn : (runRules (mainRules Fix.fixed 0) ⟨c, ch, ub⟩).2 = n at *
  generalize hc : (runRules (mainRules Fix.fixed 0) ⟨c, ch, ub⟩).1.code = c' at *
  match n, h2 with
  | 0, _ => simp only [List.drop_zero] at h1 ⊢; omega
  | 1, _ =>
    rcases c' with _ | ⟨a, c'⟩
    · rcases c with _ | ⟨b, c⟩
      · exact absurd rfl hne
      · have := weight1_pos b
        simp [weight_cons, weight]; omega
    · simp only [List.drop_succ_cons, List.drop_zero] at h1 ⊢
      have := weight1_pos a
      rw [weight_cons] at h1; omega

/-! ## Simple passes -/

/-- A body that replaced a window of instructions. -/
theorem mkBody {c c' : List Codew} {n : Nat} {ub ub' : Bool} (I J : List Instr) (post : List Codew) (hub : ub' = ub)
    (he : c' = asm J ++ post) (hc : c = asm I ++ post)
    (hI : I ≠ []) (hi : I.all iwf = true) (hj : J.all iwf = true)
    (hw : weight ((asm J ++ post).drop n) < weight (asm I ++ post))
    (hcol : Codew.byteStr "PRINT_COLOR" ∉ asm I → Codew.byteStr "PRINT_COLOR" ∉ asm J)
    (hl : Codew.byteStr "PRINT_COLOR" ∉ asm I → LocalOK I J)
    (hwd : ∀ l, Codew.wordStr l ∈ asm J → Codew.wordStr l ∈ asm I := by simp [asm, asmI]) :
    ub' = ub ∧ RuleOK c c' ∧ weight (c'.drop n) < weight c := by
  subst he hc
  exact ⟨hub, lineOK I J hI hi hj hcol hl hwd, hw⟩

theorem body_skip {c : List Codew} {ub : Bool} (h : c ≠ []) : ub = ub ∧ RuleOK c c ∧ weight (c.drop 1) < weight c := by
  refine ⟨rfl, RuleOK.refl _, ?_⟩
  rcases c with _ | ⟨a, c⟩
  · exact absurd rfl h
  · have := weight1_pos a
    simp [weight_cons, this]

theorem expandNumbers_all : BodyAll (fun _ => True) expandNumbersBody := by
  intro s c ch ub _ hg hne
  have hw := hg.ops
  refine ⟨trivial, ?_⟩
  unfold expandNumbersBody
  simp only
  split
  · rename_i h
    uncons c, a0, h
    uncons c, a1, h
    guards h
    obtain ⟨rfl, b, rfl⟩ := h
    refine mkBody [(.BYTE, [.byte b])] [(.NUM, [.word (BitVec.ofInt 16 b.toNat)])] c rfl rfl rfl (by simp) rfl rfl ?_ ?_ ?_
    · simp [asm, asmI, weight_cons, weight1]; omega
    · simp [asm, asmI]
    · intro _
      have : BitVec.ofInt 16 (b.toNat : Int) = b.setWidth 16 := by
        apply BitVec.eq_of_toNat_eq; simp [BitVec.toNat_ofInt]
      loc h <;> (subst h; simp [this, LessDef.refl])
  split
  · rename_i h
    uncons c, a0, h
    guards h
    obtain rfl := h
    refine mkBody [(.ONE, [])] [(.NUM, [.word 1])] c (by simp [Ed.insW, Ed.ins, Ed.setTok, Ed.set]) (by simp [Ed.insW, Ed.ins, Ed.setTok, Ed.set, asm, asmI]) rfl (by simp) rfl rfl ?_ ?_ ?_
    · simp [asm, asmI, weight_cons]; exact weight1_pos _
    · simp [asm, asmI]
    · intro _
      loc h <;> (subst h; simp [LessDef.refl])
  split
  · rename_i h
    uncons c, a0, h
    guards h
    obtain rfl := h
    refine mkBody [(.ZERO, [])] [(.NUM, [.word 0])] c (by simp [Ed.insW, Ed.ins, Ed.setTok, Ed.set]) (by simp [Ed.insW, Ed.ins, Ed.setTok, Ed.set, asm, asmI]) rfl (by simp) rfl rfl ?_ ?_ ?_
    · simp [asm, asmI, weight_cons]; exact weight1_pos _
    · simp [asm, asmI]
    · intro _
      loc h <;> (subst h; simp [LessDef.refl])
  · exact body_skip hne

theorem shortenNumbers_all : BodyAll (fun _ => True) shortenNumbersBody := by
  intro s c ch ub _ hg hne
  have hw := hg.ops
  refine ⟨trivial, ?_⟩
  unfold shortenNumbersBody
  simp only
  split
  · rename_i h
    uncons c, a0, h
    uncons c, a1, h
    guards h
    obtain ⟨⟨rfl, w, rfl⟩, h⟩ := h
    obtain rfl := toInt_eq h
    refine mkBody [(.NUM, [.word 0])] [(.ZERO, [])] c rfl rfl rfl (by simp) rfl rfl ?_ ?_ ?_
    · simp [asm, asmI, weight_cons, weight1]; omega
    · simp [asm, asmI]
    · intro _
      loc h <;> (subst h; simp [LessDef.refl])
  split
  · rename_i h
    uncons c, a0, h
    uncons c, a1, h
    guards h
    obtain ⟨⟨rfl, w, rfl⟩, h⟩ := h
    obtain rfl := toInt_eq h
    refine mkBody [(.NUM, [.word 1])] [(.ONE, [])] c rfl rfl rfl (by simp) rfl rfl ?_ ?_ ?_
    · simp [asm, asmI, weight_cons, weight1]; omega
    · simp [asm, asmI]
    · intro _
      loc h <;> (subst h; simp [LessDef.refl])
  split
  · rename_i h
    uncons c, a0, h
    uncons c, a1, h
    guards h
    obtain ⟨⟨rfl, w, rfl⟩, h⟩ := h
    obtain rfl := toInt_eq h
    refine mkBody [(.NUM, [.word (-1)])] [(.ONE, []), (.NEG, [])] c rfl rfl rfl (by simp) rfl rfl ?_ ?_ ?_
    · simp [asm, asmI, weight_cons, weight1]
    · simp [asm, asmI]
    · intro _
      loc h <;> (subst h; simp [LessDef.refl])
  split
  · rename_i h
    uncons c, a0, h
    uncons c, a1, h
    guards h
    obtain ⟨⟨⟨rfl, w, rfl⟩, h1⟩, h2⟩ := h
    refine mkBody [(.NUM, [.word w])] [(.BYTE, [.byte (BitVec.ofInt 8 w.toInt)])] c rfl rfl rfl (by simp) rfl rfl ?_ ?_ ?_
    · simp [asm, asmI, weight_cons, weight1]
    · simp [asm, asmI]
    · intro _
      replace h1 : 0 ≤ w.toInt := of_decide_eq_true h1
      replace h2 : w.toInt < 256 := of_decide_eq_true h2
      loc h <;> (subst h; simp only [byte_of_small h1 h2]; exact LessDef.refl _)
  · exact body_skip hne

/-- Operand of a token at the current position. -/
theorem op_here {t : Tok} {c : List Codew} (ht : takesOp t = true) (h : wf (.tok t :: c) = true) :
    ∃ o c', c = o :: c' ∧ opOK t o = true := by
  simp only [wf, headOK, ht, Bool.not_true, Bool.false_or, Bool.and_eq_true] at h
  rcases c with _ | ⟨o, c⟩
  · simp at h
  · exact ⟨o, c, rfl, h.1⟩

theorem expandPush_all : BodyAll (fun _ => True) expandPushBody := by
  intro s c ch ub _ hg hne
  have hw := hg.ops
  refine ⟨trivial, ?_⟩
  unfold expandPushBody
  simp only
  split
  · rename_i h
    uncons c, a0, h
    guards h
    obtain rfl := h
    obtain ⟨o, c, rfl, ho⟩ := op_here rfl hw
    refine mkBody [(.PUSH_BYTE, [o])] [(.PUSH, []), (.BYTE, [o])] c rfl rfl rfl (by simp) ?_ ?_ ?_ ?_ ?_
    · simp [iwf, ho, takesOp, isCtl]
    · cases o <;> simp_all [iwf, opOK, takesOp, isCtl]
    · simp [asm, asmI, weight_cons, weight1]
    · simp [asm, asmI]
    · intro _
      loc h <;> first | done | (subst h; simp [LessDef.refl]; done) | (cases o <;> simp_all [opOK, opByte, LessDef.refl] <;> subst h <;> simp [LessDef.refl])
  split
  · rename_i h
    uncons c, a0, h
    guards h
    obtain rfl := h
    obtain ⟨o, c, rfl, ho⟩ := op_here rfl hw
    refine mkBody [(.PUSH_NUM, [o])] [(.PUSH, []), (.NUM, [o])] c rfl rfl rfl (by simp) ?_ ?_ ?_ ?_ ?_
    · simp [iwf, ho, takesOp, isCtl]
    · cases o <;> simp_all [iwf, opOK, takesOp, isCtl]
    · simp [asm, asmI, weight_cons, weight1]
    · simp [asm, asmI]
    · intro _
      loc h <;> first | done | (subst h; simp [LessDef.refl]; done) | (cases o <;> simp_all [opOK, opWord, LessDef.refl] <;> subst h <;> simp [LessDef.refl])
  split
  · rename_i h
    uncons c, a0, h
    guards h
    obtain rfl := h
    refine mkBody [(.PUSH_0, [])] [(.PUSH, []), (.ZERO, [])] c rfl rfl rfl (by simp) rfl rfl ?_ ?_ ?_
    · simp [asm, asmI, weight_cons, weight1]
    · simp [asm, asmI]
    · intro _
      loc h <;> first | done | (subst h; simp [LessDef.refl])
  split
  · rename_i h
    uncons c, a0, h
    guards h
    obtain rfl := h
    refine mkBody [(.PUSH_1, [])] [(.PUSH, []), (.ONE, [])] c rfl rfl rfl (by simp) rfl rfl ?_ ?_ ?_
    · simp [asm, asmI, weight_cons, weight1]
    · simp [asm, asmI]
    · intro _
      loc h <;> first | done | (subst h; simp [LessDef.refl])
  split
  · rename_i h
    uncons c, a0, h
    guards h
    obtain rfl := h
    obtain ⟨o, c, rfl, ho⟩ := op_here rfl hw
    obtain ⟨n, nm, rfl⟩ := opOK_var ho (by simp)
    refine mkBody [(.PUSH_VAR_LOAD, [.varn n nm])] [(.PUSH, []), (.VAR_LOAD, [.varn n nm])] c rfl rfl rfl (by simp) rfl rfl ?_ ?_ ?_
    · simp [asm, asmI, weight_cons, weight1]
    · simp [asm, asmI]
    · intro _
      locv h n <;> first | done | (subst h; simp [LessDef.refl])
  split
  · rename_i h
    uncons c, a0, h
    guards h
    obtain rfl := h
    obtain ⟨o, c, rfl, ho⟩ := op_here rfl hw
    obtain ⟨n, nm, rfl⟩ := opOK_var ho (by simp)
    refine mkBody [(.VAR_SADDR, [.varn n nm])] [(.VAR_ADDR, [.varn n nm]), (.SADDR, [])] c rfl rfl rfl (by simp) rfl rfl ?_ ?_ ?_
    · simp [asm, asmI, weight_cons, weight1]
    · simp [asm, asmI]
    · intro _
      locv h n <;> first | done | (subst h; simp [LessDef.refl])
  · exact body_skip hne

theorem foldSaddr_all : BodyAll (fun _ => True) foldSaddrBody := by
  intro s c ch ub _ hg hne
  have hw := hg.ops
  refine ⟨trivial, ?_⟩
  unfold foldSaddrBody
  simp only
  split
  · rename_i h
    uncons c, a0, h
    uncons c, a1, h
    uncons c, a2, h
    guards h
    obtain ⟨rfl, rfl⟩ := h
    obtain ⟨o, c', hc, ho⟩ := op_here rfl hw
    obtain ⟨n, nm, rfl⟩ := opOK_var ho (by simp)
    obtain ⟨rfl, rfl⟩ := List.cons.inj hc
    refine mkBody [(.VAR_ADDR, [.varn n nm]), (.SADDR, [])] [(.VAR_SADDR, [.varn n nm])] c rfl rfl rfl (by simp) rfl rfl ?_ ?_ ?_
    · simp [asm, asmI, weight_cons, weight1]; omega
    · simp [asm, asmI]
    · intro _
      locv h n <;> first | done | (subst h; simp [LessDef.refl])
  · exact body_skip hne

theorem mtok_data {o : Codew} {c : List Codew} {t : Tok} (h : o.isData = true) (x : Codew) : mtok 1 t (x :: o :: c) = false := by
  cases o <;> simp_all [mtok, Codew.isData, Codew.isTok]

theorem foldPush_all : BodyAll (fun _ => True) foldPushBody := by
  intro s c ch ub _ hg hne
  have hw := hg.ops
  refine ⟨trivial, ?_⟩
  unfold foldPushBody
  simp only
  split
  · rename_i h
    uncons c, a0, h
    guards h
    obtain rfl := h
    by_cases h1 : mtok 1 .BYTE (.tok .PUSH :: c) = true
    · uncons c, a1, h1
      simp only [h1, if_true]
      guards h1
      obtain rfl := h1
      obtain ⟨o, c, rfl, ho⟩ := op_here rfl (wf_tail hw)
      have hn : mtok 1 .VAR_LOAD (Codew.tok .PUSH_BYTE :: o :: c) = false := mtok_data (opOK_data ho) _
      have he : (((⟨.tok .PUSH :: .tok .BYTE :: o :: c, ch, ub⟩ : Ed).setTok 1 .PUSH_BYTE).del 0) = ⟨.tok .PUSH_BYTE :: o :: c, true, ub⟩ := rfl
      simp only [he, hn, Bool.false_eq_true, if_false]
      refine (mkBody (ub := ub) (ub' := ub) [(.PUSH, []), (.BYTE, [o])] [(.PUSH_BYTE, [o])] c rfl rfl rfl (by simp) ?_ ?_ ?_ ?_ ?_).imp_left fun _ => trivial
      · simp [iwf, ho, takesOp, isCtl]
      · cases o <;> simp_all [iwf, opOK, takesOp, isCtl]
      · have := weight1_pos (.tok .PUSH)
        have := weight1_pos (.tok .BYTE)
        have := weight1_pos (.tok .NUM)
        simp only [asm, asmI, List.flatMap_cons, List.flatMap_nil, List.nil_append, List.cons_append, weight_cons, List.drop_succ_cons, List.drop_zero]; omega
      · simp [asm, asmI]
      · intro _
        loc h <;> first | done | (subst h; simp [LessDef.refl]; done) | (cases o <;> simp_all [opOK, opByte, LessDef.refl] <;> subst h <;> simp [LessDef.refl])
    simp only [h1, Bool.false_eq_true, if_false]
    by_cases h2 : mtok 1 .NUM (.tok .PUSH :: c) = true
    · uncons c, a1, h2
      simp only [h2, if_true]
      guards h2
      obtain rfl := h2
      obtain ⟨o, c, rfl, ho⟩ := op_here rfl (wf_tail hw)
      have hn : mtok 1 .VAR_LOAD (Codew.tok .PUSH_NUM :: o :: c) = false := mtok_data (opOK_data ho) _
      have he : (((⟨.tok .PUSH :: .tok .NUM :: o :: c, ch, ub⟩ : Ed).setTok 1 .PUSH_NUM).del 0) = ⟨.tok .PUSH_NUM :: o :: c, true, ub⟩ := rfl
      simp only [he, hn, Bool.false_eq_true, if_false]
      refine (mkBody (ub := ub) (ub' := ub) [(.PUSH, []), (.NUM, [o])] [(.PUSH_NUM, [o])] c rfl rfl rfl (by simp) ?_ ?_ ?_ ?_ ?_).imp_left fun _ => trivial
      · simp [iwf, ho, takesOp, isCtl]
      · cases o <;> simp_all [iwf, opOK, takesOp, isCtl]
      · have := weight1_pos (.tok .PUSH)
        have := weight1_pos (.tok .BYTE)
        have := weight1_pos (.tok .NUM)
        simp only [asm, asmI, List.flatMap_cons, List.flatMap_nil, List.nil_append, List.cons_append, weight_cons, List.drop_succ_cons, List.drop_zero]; omega
      · simp [asm, asmI]
      · intro _
        loc h <;> first | done | (subst h; simp [LessDef.refl]; done) | (cases o <;> simp_all [opOK, opWord, LessDef.refl] <;> subst h <;> simp [LessDef.refl])
    simp only [h2, Bool.false_eq_true, if_false]
    have num : ∀ (t t' : Tok) (w : W), (t = .ONE ∧ t' = .PUSH_1 ∧ w = 1) ∨ (t = .ZERO ∧ t' = .PUSH_0 ∧ w = 0) → ∀ c : List Codew,
        wf (.tok .PUSH :: .tok t :: c) = true → 
        ∀ e : Ed, e = (if mtok 1 .VAR_LOAD ((⟨.tok .PUSH :: .tok t :: c, ch, ub⟩ : Ed).setTok 1 t' |>.del 0).code then 
            ((⟨.tok .PUSH :: .tok t :: c, ch, ub⟩ : Ed).setTok 1 t' |>.del 0).setTok 1 .PUSH_VAR_LOAD |>.del 0 else
            (⟨.tok .PUSH :: .tok t :: c, ch, ub⟩ : Ed).setTok 1 t' |>.del 0) →
        e.ub = ub ∧ RuleOK (.tok .PUSH :: .tok t :: c) e.code ∧ weight (e.code.drop 1) < weight (.tok .PUSH :: .tok t :: c) := by
      intro t t' w ht c hw e he
      have he1 : ((⟨.tok .PUSH :: .tok t :: c, ch, ub⟩ : Ed).setTok 1 t' |>.del 0) = ⟨.tok t' :: c, true, ub⟩ := rfl
      rw [he1] at he
      by_cases hv : mtok 1 .VAR_LOAD (Codew.tok t' :: c) = true
      · uncons c, a1, hv
        simp only [hv, if_true] at he
        guards hv
        obtain rfl := hv
        obtain ⟨o, c, rfl, ho⟩ := op_here (t := .VAR_LOAD) rfl (wf_tail (wf_tail hw))
        obtain ⟨n, nm, rfl⟩ := opOK_var ho (by simp)
        subst he
        refine mkBody [(.PUSH, []), (t, []), (.VAR_LOAD, [.varn n nm])] [(.PUSH_VAR_LOAD, [.varn n nm])] c rfl rfl rfl (by simp) ?_ rfl ?_ ?_ ?_
        · rcases ht with ⟨rfl, _⟩ | ⟨rfl, _⟩ <;> rfl
        · simp [asm, asmI, weight_cons, weight1]; omega
        · simp [asm, asmI]
        · intro _
          rcases ht with ⟨rfl, _⟩ | ⟨rfl, _⟩ <;> (locv h n <;> first | done | (subst h; simp [LessDef.refl]))
      · simp only [hv, Bool.false_eq_true, if_false] at he
        subst he
        refine mkBody [(.PUSH, []), (t, [])] [(t', [])] c rfl rfl rfl (by simp) ?_ ?_ ?_ ?_ ?_
        · rcases ht with ⟨rfl, rfl, _⟩ | ⟨rfl, rfl, _⟩ <;> rfl
        · rcases ht with ⟨rfl, rfl, _⟩ | ⟨rfl, rfl, _⟩ <;> rfl
        · have := weight1_pos (.tok t)
          simp [asm, asmI, weight_cons, weight1]; omega
        · simp [asm, asmI]
        · intro _
          rcases ht with ⟨rfl, rfl, _⟩ | ⟨rfl, rfl, _⟩ <;> (loc h <;> first | done | (subst h; simp [LessDef.refl]))
    by_cases h3 : mtok 1 .ONE (.tok .PUSH :: c) = true
    · uncons c, a1, h3
      simp only [h3, if_true]
      guards h3
      obtain rfl := h3
      exact num .ONE .PUSH_1 1 (by simp) c hw _ rfl
    simp only [h3, Bool.false_eq_true, if_false]
    by_cases h4 : mtok 1 .ZERO (.tok .PUSH :: c) = true
    · uncons c, a1, h4
      simp only [h4, if_true]
      guards h4
      obtain rfl := h4
      exact num .ZERO .PUSH_0 0 (by simp) c hw _ rfl
    simp only [h4, Bool.false_eq_true, if_false]
    by_cases h5 : mtok 1 .VAR_LOAD (.tok .PUSH :: c) = true
    · uncons c, a1, h5
      simp only [h5, if_true]
      guards h5
      obtain rfl := h5
      obtain ⟨o, c, rfl, ho⟩ := op_here (t := .VAR_LOAD) rfl (wf_tail hw)
      obtain ⟨n, nm, rfl⟩ := opOK_var ho (by simp)
      refine mkBody [(.PUSH, []), (.VAR_LOAD, [.varn n nm])] [(.PUSH_VAR_LOAD, [.varn n nm])] c rfl rfl rfl (by simp) rfl rfl ?_ ?_ ?_
      · simp [asm, asmI, weight_cons, weight1]; omega
      · simp [asm, asmI]
      · intro _
        locv h n <;> first | done | (subst h; simp [LessDef.refl])
    simp only [h5, Bool.false_eq_true, if_false]
    exact (body_skip (ub := ub) hne).imp_left fun _ => trivial
  · exact body_skip hne

theorem printChars_ok : BodyOK (· = 0) printCharsBody := by
  intro s c ch ub hs hg hne
  subst hs
  have hw := hg.ops
  unfold printCharsBody
  simp only [trackColor_nocol hg]
  split
  · rename_i h
    refine ⟨rfl, ?_⟩
    uncons c, a0, h
    uncons c, a1, h
    uncons c, a2, h
    guards h
    obtain ⟨⟨⟨_, rfl⟩, hs⟩, rfl⟩ := h
    have hs : mstring 1 (.tok .CSTRING :: a1 :: .tok .PRINT_STR :: c) < 3 := by simpa using hs
    rw [mstring_lt (by omega)] at hs
    obtain ⟨s, hs, hl⟩ := hs
    obtain rfl : a1 = .str s := by simpa using hs
    match s, hl with
    | [], _ =>
      refine mkBody [(.CSTRING, [.str []]), (.PRINT_STR, [])] [] c rfl rfl rfl (by simp) rfl rfl ?_ ?_ ?_
      · simp only [asm, asmI, List.flatMap_cons, List.flatMap_nil, List.nil_append, List.append_nil, List.cons_append, weight_cons, weight1]
        have : weight (c.drop 1) ≤ weight c := by rcases c with _ | ⟨a, c⟩ <;> simp [weight_cons]
        omega
      · simp [asm, asmI]
      · intro _ env he d d' hcol h
        rcases d with ⟨ax, saddr, stk, mem, color, iochn, out⟩
        simp [execI, sem, opWord, D.setAx, D.axW, Val.toW, D.setVal, strBytes, D.put, D.killAx] at h hcol ⊢
        subst h hcol
        exact ⟨.inl rfl, .inr rfl, rfl, rfl, rfl, rfl, rfl⟩
    | [a], _ =>
      refine mkBody [(.CSTRING, [.str [a]]), (.PRINT_STR, [])] [(.BYTE_PUT, [.byte a])] c rfl ?_ rfl (by simp) rfl rfl ?_ ?_ ?_
      · simp [str, insChars, Ed.insTok, Ed.ins, Ed.del, asm, asmI]
      · simp [asm, asmI, weight_cons, weight1]; omega
      · simp [asm, asmI]
      · intro _ env he d d' hcol h
        rcases d with ⟨ax, saddr, stk, mem, color, iochn, out⟩
        simp [execI, sem, opWord, opByte, D.setAx, D.axW, Val.toW, D.setVal, strBytes, D.put, D.killAx] at h hcol ⊢
        subst h hcol
        simp [LessDef.refl]
    | [a, b], _ =>
      refine mkBody [(.CSTRING, [.str [a, b]]), (.PRINT_STR, [])] [(.BYTE_PUT, [.byte a]), (.BYTE_PUT, [.byte b])] c rfl ?_ rfl (by simp) rfl rfl ?_ ?_ ?_
      · simp [str, insChars, Ed.insTok, Ed.ins, Ed.del, asm, asmI]
      · simp [asm, asmI, weight_cons, weight1]
      · simp [asm, asmI]
      · intro _ env he d d' hcol h
        rcases d with ⟨ax, saddr, stk, mem, color, iochn, out⟩
        simp [execI, sem, opWord, opByte, D.setAx, D.axW, Val.toW, D.setVal, strBytes, D.put, D.killAx] at h hcol ⊢
        subst h hcol
        simp [LessDef.refl]
  · exact ⟨rfl, body_skip hne⟩

end FB
