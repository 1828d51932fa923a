import Verif.Global
/-!
The optimizer as it is (any `Fix`, programs with `PRINT COLOR` too): no access out of range, every loop
advances, programs stay well formed and jumps keep their targets.
-/
namespace FB
open Peep

/-- A rule keeps programs well formed. -/
def RSwf (r : Rule) : Prop := ∀ c ch ub, r.guard c = true → wf c = true →
  ∃ c' ch', r.edit ⟨c, ch, ub⟩ = ⟨c', ch', ub⟩ ∧ RuleWf c c' ∧
    (weight c' + (if r.after = .again then 1 else 0) ≤ weight c)

theorem RS.wf {r : Rule} (h : RS r) : RSwf r := fun c ch ub h1 h2 =>
  let ⟨c', ch', a, b, d⟩ := h c ch ub h1 h2
  ⟨c', ch', a, b.wf, d⟩

theorem lineWf {post : List Codew} (I J : List Instr) (hI : I ≠ []) (hi : I.all iwf = true) (hj : J.all iwf = true)
    (hwd : ∀ l, Codew.wordStr l ∈ asm J → Codew.wordStr l ∈ asm I) : RuleWf (asm I ++ post) (asm J ++ post) := by
  obtain ⟨i0, I0, rfl⟩ : ∃ i I', I = i :: I' := by cases I <;> simp_all
  exact fun pre hg => ⟨hg.window ⟨i0.1, i0.2 ++ asm I0, by simp [asm, asmI]⟩ (NoLabel_asm (all_ok hi)) (NoLabel_asm (all_ok hj))
      (fun h => wf_append (wf_asm hj) (wf_drop h)), RefOK.window (NoLabel_asm (all_ok hi)) (NoLabel_asm (all_ok hj)) hwd⟩

theorem mkRSwf {e : Ed} {c : List Codew} {ub : Bool} {k : Nat} (I J : List Instr) (post : List Codew)
    (he : e = ⟨asm J ++ post, true, ub⟩) (hc : c = asm I ++ post)
    (hI : I ≠ []) (hi : I.all iwf = true) (hj : J.all iwf = true)
    (hw : Nat.ble (((asm J).map weight1).sum + k) (((asm I).map weight1).sum) = true)
    (hwd : ∀ l, Codew.wordStr l ∈ asm J → Codew.wordStr l ∈ asm I := by simp [asm, asmI]) :
    ∃ c' ch', e = ⟨c', ch', ub⟩ ∧ RuleWf c c' ∧ (weight c' + k ≤ weight c) := by
  subst he hc
  refine ⟨_, _, rfl, lineWf I J hI hi hj hwd, ?_⟩
  have := Nat.le_of_ble_eq_true hw
  simp only [weight, List.map_append, List.sum_append]
  omega

theorem rColor_wf (pc : Int) : RSwf (rColor pc) := by
  intro c ch ub hg hw
  simp only [rColor] at hg ⊢
  uncons c, a0, hg
  uncons c, a1, hg
  uncons c, a2, hg
  uncons c, a3, hg
  guards hg
  obtain ⟨⟨⟨⟨rfl, w, rfl⟩, rfl⟩, rfl⟩, _⟩ := hg
  exact mkRSwf [(.NUM, [.word w]), (.BYTE_POKE, [.byteStr "PRINT_COLOR"])] [] c (by edits) rfl (by simp) rfl rfl rfl

theorem rCMod_wf (fx : Fix) : RSwf (rCMod fx) := by
  intro c ch ub hg hw
  simp only [rCMod] at hg ⊢
  uncons c, a0, hg
  uncons c, a1, hg
  uncons c, a2, hg
  uncons c, a3, hg
  uncons c, a4, hg
  uncons c, a5, hg
  guards hg
  obtain ⟨⟨⟨⟨⟨rfl, w, rfl⟩, rfl⟩, rfl⟩, w', rfl⟩, rfl⟩ := hg
  exact mkRSwf [(.NUM, [.word w]), (.PUSH, []), (.NUM, [.word w']), (.MOD, [])]
    [(.NUM, [.word (BitVec.ofInt 16 (cMod fx w.toInt w'.toInt))])] c rfl rfl (by simp) rfl rfl rfl

theorem rGtNot_wf (fx : Fix) : RSwf (rGtNot fx) := by
  intro c ch ub hg hw
  simp only [rGtNot] at hg ⊢
  uncons c, a0, hg
  uncons c, a1, hg
  uncons c, a2, hg
  uncons c, a3, hg
  guards hg
  obtain ⟨⟨⟨rfl, w, rfl⟩, rfl⟩, rfl⟩ := hg
  by_cases hm : w.toInt = fx.gtMax
  · refine mkRSwf [(.NUM, [.word w]), (.GT, []), (.L_NOT, [])]
      [(.NUM, [.word (BitVec.ofInt 16 1)]), (.BIT_OR, []), (.COMP_0, [])] c ?_ rfl (by simp) rfl rfl rfl
    simp [Ed.val, val, hm, alwaysTrue]; edits
  · refine mkRSwf [(.NUM, [.word w]), (.GT, []), (.L_NOT, [])]
      [(.NUM, [.word (BitVec.ofInt 16 (w.toInt + 1))]), (.LT, [])] c ?_ rfl (by simp) rfl rfl rfl
    simp [Ed.val, val, hm]; edits

theorem rJoinPut_wf (pc : Int) : RSwf (rJoinPut pc) := by
  intro c ch ub hg hw
  simp only [rJoinPut] at hg ⊢
  uncons c, a0, hg
  uncons c, a1, hg
  uncons c, a2, hg
  uncons c, a3, hg
  uncons c, a4, hg
  uncons c, a5, hg
  guards hg
  obtain ⟨⟨⟨⟨⟨⟨rfl, hl⟩, rfl⟩, rfl⟩, w, rfl⟩, rfl⟩, _⟩ := hg
  obtain ⟨s1, rfl⟩ : ∃ s, a1 = .str s := by cases a1 <;> simp [mstring] at hl <;> try omega
                                            exact ⟨_, rfl⟩
  exact mkRSwf [(.CSTRING, [.str s1]), (.PRINT_STR, []), (.NUM, [.word w]), (.PUT, [])] [(.CSTRING, [.str (s1 ++ [xorColor w.toInt pc])]), (.PRINT_STR, [])] c
    (by simp [Ed.setString, str]; edits) rfl (by simp) rfl rfl rfl

theorem rJoinBytePut_wf (pc : Int) : RSwf (rJoinBytePut pc) := by
  intro c ch ub hg hw
  simp only [rJoinBytePut] at hg ⊢
  uncons c, a0, hg
  uncons c, a1, hg
  uncons c, a2, hg
  uncons c, a3, hg
  rcases c with _ | ⟨a4, c⟩
  · simp [mbyte_iff, mword_iff] at hg
  guards hg
  obtain ⟨⟨⟨⟨⟨rfl, hl⟩, rfl⟩, rfl⟩, hb⟩, _⟩ := hg
  obtain ⟨s1, rfl⟩ : ∃ s, a1 = .str s := by cases a1 <;> simp [mstring] at hl <;> try omega
                                            exact ⟨_, rfl⟩
  obtain ⟨o, ho, hk⟩ := opAt hw 3 rfl rfl
  simp only [List.getElem?_cons_succ, List.getElem?_cons_zero, Option.some.injEq] at ho
  subst ho
  obtain ⟨b, rfl⟩ : ∃ b, a4 = .byte b := by rcases hb with ⟨b, rfl⟩ | ⟨b, rfl⟩ <;> simp_all [opOK]
  exact mkRSwf [(.CSTRING, [.str s1]), (.PRINT_STR, []), (.BYTE_PUT, [.byte b])] [(.CSTRING, [.str (s1 ++ [xorColor b.toNat pc])]), (.PRINT_STR, [])] c
    (by simp [Ed.setString, str]; edits) rfl (by simp) rfl rfl rfl

theorem mainRules_wf (fx : Fix) (pc : Int) : ∀ r ∈ mainRules fx pc, RSwf r := by
  simp only [mainRules, List.forall_mem_cons]
  refine ⟨rNeg_sound.wf, rUshl_sound.wf, rShl8_sound.wf, rMul256_sound.wf, rMul4_sound.wf, rMul2_sound.wf, rMul1_sound.wf, rDiv1_sound.wf,
    rAdd0_sound.wf, rNum0AddVar_sound.wf, rSub0_sound.wf, rNeq0_sound.wf, rEq0_sound.wf, rCAdd_sound.wf, rCSub_sound.wf, rStore0_sound.wf,
    rGet_sound.wf, rGetKey_sound.wf, rNumPut_sound.wf, rBytePut_sound.wf, rNumPeek_sound.wf, rBytePeek_sound.wf, rPokeBN_sound.wf,
    rPokeBV_sound.wf, rPokeByteNum_sound.wf, rPokeByteVar_sound.wf, rPokeNN_sound.wf, rPokeNV_sound.wf, rCMul_sound.wf, rCDiv_sound.wf,
    rCMod_wf fx, rCAnd_sound.wf, rCOr_sound.wf, rCExor_sound.wf, rSubSub_sound.wf, rAddVar_sound.wf, rVarAddNum_sound.wf,
    rVarAddUshl_sound.wf, rArrIdx_sound.wf, rVarVar_sound.wf, rInc1_sound.wf, rInc2_sound.wf, rInc3_sound.wf, rInc4_sound.wf, rDec1_sound.wf,
    rDec2_sound.wf, rDec3_sound.wf, rDec4_sound.wf, rNotNot_sound.wf, rEqNot_sound.wf, rNeqNot_sound.wf, rBoolComp_sound.wf, rGtNot_wf fx,
    rStrIdx_sound.wf, rLtNot_sound.wf, rNumComp_sound.wf, rNumCnjump_sound.wf, rNumCjump_sound.wf, rCallRet_sound.wf, rNotCjump_sound.wf,
    rNotCnjump_sound.wf, rCjumpJump_sound.wf, rCjumpRet_sound.wf, rCnjumpJump_sound.wf, rCnjumpRet_sound.wf, rNotCret_sound.wf,
    rNotCnret_sound.wf, rJumpNext_sound.wf, rDeadJump_sound.wf, rDeadRet_sound.wf, rChrPrint_sound.wf, rJoinPut_wf pc,
    rJoinBytePut_wf pc, rJoinStr_sound.wf, ?_⟩
  intro r hr
  cases hr

theorem runRules_wf : ∀ (rs : List Rule), (∀ r ∈ rs, RSwf r) → ∀ c ch ub, Wf c →
    (runRules rs ⟨c, ch, ub⟩).1.ub = ub ∧ RuleWf c (runRules rs ⟨c, ch, ub⟩).1.code ∧
      (weight (runRules rs ⟨c, ch, ub⟩).1.code + (1 - (runRules rs ⟨c, ch, ub⟩).2) ≤ weight c ∧ (runRules rs ⟨c, ch, ub⟩).2 ≤ 1) := by
  intro rs
  induction rs with
  | nil => intro _ c ch ub _; exact ⟨rfl, RuleWf.refl _, Nat.le_refl _, Nat.le_refl _⟩
  | cons r rs ih =>
    intro hrs c ch ub hg
    have ih := ih fun r hr => hrs r (List.mem_cons_of_mem _ hr)
    unfold runRules
    by_cases hgd : r.guard c = true
    · obtain ⟨c', ch', he, hok, hw⟩ := hrs r (List.mem_cons_self ..) c ch ub hgd hg.ops
      simp only [hgd, if_true, he]
      rcases hr : r.after with _ | _ | _ <;> simp only [hr] at hw
      · exact ⟨rfl, hok, by simpa using hw, by simp⟩
      · exact ⟨rfl, hok, by simpa using hw, by simp⟩
      · have hg' : Wf c' := (hok [] hg).1
        obtain ⟨h1, h2, h3⟩ := ih c' ch' ub hg'
        exact ⟨h1, hok.trans h2, Nat.le_trans h3.1 (by simpa using hw), h3.2⟩
    · simp only [hgd]
      exact ih c ch ub hg

theorem mainBody_wf (fx : Fix) : BodyWf (fun _ => True) (mainBody fx) := by
  intro s c ch ub _ hg hne
  refine ⟨trivial, ?_⟩
  unfold mainBody
  split
  · rename_i hr
    obtain ⟨c', ch', he, hok, hw⟩ := rColor_wf s c ch ub hr hg.ops
    simp only [he]
    refine ⟨trivial, hok, ?_⟩
    have hw : weight c' + 1 ≤ weight c := hw
    simp only [List.drop_zero]; omega
  · have h := runRules_wf _ (mainRules_wf fx (trackColor s c)) c ch ub hg
    simp only
    refine ⟨h.1, h.2.1, ?_⟩
    obtain ⟨h1, h2⟩ := h.2.2
    generalize hn : (runRules (mainRules fx (trackColor s c)) ⟨c, ch, ub⟩).2 = n at *
    generalize hc : (runRules (mainRules fx (trackColor s c)) ⟨c, ch, ub⟩).1.code = c' at *
    match n, h2 with
    | 0, _ => simp only [List.drop_zero] at h1 ⊢; omega
    | 1, _ =>
      rcases c' with _ | ⟨a, c'⟩
      · rcases c with _ | ⟨b, c⟩
        · exact absurd rfl hne
        · have := weight1_pos b
          simp [weight_cons, weight]; omega
      · simp only [List.drop_succ_cons, List.drop_zero] at h1 ⊢
        have := weight1_pos a
        rw [weight_cons] at h1; omega

theorem printChars_wf : BodyWf (fun _ => True) printCharsBody := by
  intro s c ch ub _ hg hne
  refine ⟨trivial, ?_⟩
  unfold printCharsBody
  simp only
  split
  · rename_i h
    generalize trackColor s c = pc at h ⊢
    uncons c, a0, h
    uncons c, a1, h
    uncons c, a2, h
    guards h
    obtain ⟨⟨⟨_, rfl⟩, hs⟩, rfl⟩ := h
    have hs : mstring 1 (.tok .CSTRING :: a1 :: .tok .PRINT_STR :: c) < 3 := by simpa using hs
    rw [mstring_lt (by omega)] at hs
    obtain ⟨s, hs, hl⟩ := hs
    obtain rfl : a1 = .str s := by simpa using hs
    match s, hl with
    | [], _ =>
      refine ⟨rfl, lineWf [(.CSTRING, [.str []]), (.PRINT_STR, [])] [] (post := c) (by simp) rfl rfl (by simp [asm, asmI]), ?_⟩
      change weight (c.drop 1) < weight (.tok .CSTRING :: .str [] :: .tok .PRINT_STR :: c)
      simp only [weight_cons, weight1]
      have : weight (c.drop 1) ≤ weight c := by rcases c with _ | ⟨a, c⟩ <;> simp [weight_cons]
      omega
    | [a], _ =>
      refine ⟨by simp [str, insChars, Ed.insTok, Ed.ins, Ed.del], ?_, ?_⟩
      · have := lineWf [(.CSTRING, [.str [a]]), (.PRINT_STR, [])] [(.BYTE_PUT, [.byte (a ^^^ BitVec.ofInt 8 pc)])] (post := c) (by simp) rfl rfl (by simp [asm, asmI])
        simpa [str, insChars, Ed.insTok, Ed.ins, Ed.del, asm, asmI] using this
      · simp [str, insChars, Ed.insTok, Ed.ins, Ed.del, weight_cons, weight1]; omega
    | [a, b], _ =>
      refine ⟨by simp [str, insChars, Ed.insTok, Ed.ins, Ed.del], ?_, ?_⟩
      · have := lineWf [(.CSTRING, [.str [a, b]]), (.PRINT_STR, [])] [(.BYTE_PUT, [.byte (a ^^^ BitVec.ofInt 8 pc)]), (.BYTE_PUT, [.byte (b ^^^ BitVec.ofInt 8 pc)])] (post := c) (by simp) rfl rfl (by simp [asm, asmI])
        simpa [str, insChars, Ed.insTok, Ed.ins, Ed.del, asm, asmI] using this
      · simp [str, insChars, Ed.insTok, Ed.ins, Ed.del, weight_cons, weight1]
  · refine ⟨rfl, RuleWf.refl _, ?_⟩
    rcases c with _ | ⟨a, c⟩
    · exact absurd rfl hne
    · have := weight1_pos a
      simp [weight_cons, this]

/-! ## Passes -/

/-- A pass keeps programs well formed, with their jumps, and makes no invalid access. -/
def PassWf (f : Ed → Ed) : Prop := ∀ e, Wf e.code → Wf (f e).code ∧ (f e).ub = e.ub ∧ Refs e.code (f e).code

theorem PassWf.comp {f g : Ed → Ed} (hf : PassWf f) (hg : PassWf g) : PassWf (fun e => g (f e)) := fun e he =>
  let x := hf e he
  let y := hg (f e) x.1
  ⟨y.1, y.2.1.trans x.2.1, x.2.2.trans y.2.2⟩

theorem loop_pass {σ : Type} {I : σ → Prop} {body : σ → Ed → σ × Ed × Nat} (hb : BodyWf I body) {s : σ} (hs : I s) :
    PassWf (loop body s []) := fun e he => by
  have := loop_wf hb s [] e hs (by simpa using he)
  simp only [List.nil_append] at this
  exact ⟨this.1, this.2.1, this.2.2.refs⟩

theorem removeUnusedLabels_wf : PassWf removeUnusedLabels := by
  rintro ⟨c, ch, ub⟩ hg
  obtain ⟨ch', h⟩ := removeLoop (usedLabels c) c [] ch ub
  simp only [removeUnusedLabels, h]
  exact ⟨hg.remove _, trivial, remove_refs c⟩

theorem replaceLabelTargets_wf : PassWf replaceLabelTargets := by
  rintro ⟨c, ch, ub⟩ hg
  obtain ⟨ch', h⟩ := replaceLoop (targets c) _ c (Nat.le_refl _) [] ch ub
  simp only [replaceLabelTargets, h]
  exact ⟨hg.thread _, trivial, thread_refs c⟩

theorem traceIochn_wf : PassWf traceIochn := by
  rintro ⟨c, ch, ub⟩ hg
  obtain ⟨ch', h⟩ := traceLoop _ c (Nat.le_refl _) 0 [] ch ub
  simp only [traceIochn, h]
  exact ⟨hg.trace _, trivial, RefOK.refs ⟨labels_trace _ _, fun l => mem_trace _ _ _⟩⟩

theorem round_wf (fx : Fix) : PassWf (round fx) := by
  have h := ((removeUnusedLabels_wf.comp replaceLabelTargets_wf).comp traceIochn_wf).comp (loop_pass (mainBody_wf fx) (s := 0) trivial)
  intro e he
  exact h { e with changed := false } he

theorem prepare_wf : PassWf prepare :=
  (loop_pass expandPush_all.toWf (s := ()) trivial).comp (loop_pass expandNumbers_all.toWf (s := ()) trivial)

theorem finish_wf : PassWf finish :=
  (((loop_pass printChars_wf (s := 0) trivial).comp (loop_pass shortenNumbers_all.toWf (s := ()) trivial)).comp
    (loop_pass foldPush_all.toWf (s := ()) trivial)).comp (loop_pass foldSaddr_all.toWf (s := ()) trivial)

theorem rounds_wf (fx : Fix) : ∀ fuel e e', rounds fx fuel e = some e' → Wf e.code →
    Wf e'.code ∧ e'.ub = e.ub ∧ Refs e.code e'.code := by
  intro fuel
  induction fuel with
  | zero => intro e e' h; simp [rounds] at h
  | succ n ih =>
    intro e e' h hg
    have h1 := round_wf fx e hg
    simp only [rounds] at h
    split at h
    · have h2 := ih _ _ h h1.1
      exact ⟨h2.1, h2.2.1.trans h1.2.1, h1.2.2.trans h2.2.2⟩
    · obtain rfl := Option.some.inj h
      exact h1

/-- The optimizer as it is keeps programs well formed, with their jumps, and makes no invalid access. -/
theorem optimizeEd_wf (fx : Fix) {fuel : Nat} {P : List Codew} {e : Ed} (h : optimizeEd fx fuel P = some e) (hg : Wf P) :
    Wf e.code ∧ e.ub = false ∧ Refs P e.code := by
  simp only [optimizeEd, Option.map_eq_some_iff] at h
  obtain ⟨e1, h1, rfl⟩ := h
  have a := prepare_wf ⟨P, false, false⟩ hg
  have b := rounds_wf fx _ _ _ h1 a.1
  have c := finish_wf e1 b.1
  exact ⟨c.1, (c.2.1.trans b.2.1).trans a.2.1, (a.2.2.trans b.2.2).trans c.2.2⟩

end FB
