import Verif.RulesB
namespace FB
open Peep

theorem bool_b2w (a b : Bool) (h : b2w a = b2w b) : a = b := by revert h; cases a <;> cases b <;> decide

theorem valSub_valSub (s a b : Val) (x y : W) (h1 : valSub s (.num x) = some a) (h2 : valSub a (.num y) = some b) :
    ∃ t, valAdd (.num x) (.num y) = some t ∧ valSub s t = some b := by
  cases s <;> simp [valSub] at h1 <;> subst h1 <;> simp [valSub] at h2 <;> subst h2 <;>
    refine ⟨_, rfl, ?_⟩ <;> simp [valSub, BitVec.sub_sub]

macro "step1 " h:ident : tactic =>
  `(tactic| simp [execI, sem, opWord, opByte, opVar, binop, unop, valAdd, valSub, lift2, D.setVal, D.setAx, D.axW, Val.toW, D.push, D.pop, D.axBool, D.kill, D.killAx, D.var] at $h:ident ⊢)

theorem rSubSub_sound : RS rSubSub := by
  intro c ch ub hg hw
  simp only [rSubSub] at hg ⊢
  uncons c, a0, hg
  uncons c, a1, hg
  rcases c with _ | ⟨a2, c⟩
  · simp [mtok_iff] at hg
  rcases c with _ | ⟨a3, c⟩
  · simp [mtok_iff] at hg
  rcases c with _ | ⟨a4, c⟩
  · simp [mtok_iff] at hg
  rcases c with _ | ⟨a5, c⟩
  · simp [mtok_iff] at hg
  rcases c with _ | ⟨a6, c⟩
  · simp [mtok_iff] at hg
  rcases c with _ | ⟨a7, c⟩
  · simp [mtok_iff] at hg
  guards hg
  obtain ⟨⟨⟨⟨⟨rfl, h1⟩, rfl⟩, rfl⟩, h5⟩, rfl⟩ := hg
  have o1 : ∃ t, (t = .VAR_LOAD ∨ t = .NUM) ∧ a1 = .tok t := by rcases h1 with h | h <;> exact ⟨_, by simp, h⟩
  have o5 : ∃ t, (t = .VAR_LOAD ∨ t = .NUM) ∧ a5 = .tok t := by rcases h5 with h | h <;> exact ⟨_, by simp, h⟩
  clear h1 h5
  obtain ⟨t1, ht1, rfl⟩ := o1
  obtain ⟨t5, ht5, rfl⟩ := o5
  obtain ⟨o, ho, hk1⟩ := opAt hw 1 rfl (by rcases ht1 with rfl | rfl <;> rfl)
  obtain ⟨o', ho', hk5⟩ := opAt hw 5 rfl (by rcases ht5 with rfl | rfl <;> rfl)
  simp only [List.getElem?_cons_succ, List.getElem?_cons_zero, Option.some.injEq] at ho ho'
  subst ho ho'
  have key : ∀ t o env, (t = .VAR_LOAD ∨ t = .NUM) → (∃ f : (W → B) → W, ∀ d, sem env t [o] d = some (d.setAx (f d.mem))) ∨
      ∀ d, sem env t [o] d = none := by
    rintro t o env (rfl | rfl)
    · cases hv : opVar o with
      | none => right; intro d; simp [sem, hv]
      | some n => left; exact ⟨fun m => mkW (m (env.varAddr n)) (m (env.varAddr n + 1)), fun d => by simp [sem, hv, D.var]⟩
    · cases hv : opWord env o with
      | none => right; intro d; simp [sem, hv]
      | some n => left; exact ⟨fun m => n, fun d => by simp [sem, hv]⟩
  refine mkRS [(.PUSH, []), (t1, [a2]), (.SUB, []), (.PUSH, []), (t5, [a6]), (.SUB, [])]
    [(.PUSH, []), (t1, [a2]), (.PUSH, []), (t5, [a6]), (.ADD, []), (.SUB, [])] c (by edits) rfl (by simp) ?_ ?_ ?_ ?_ ?_
  · rcases ht1 with rfl | rfl <;> rcases ht5 with rfl | rfl <;> simp [iwf, takesOp, isCtl, hk1, hk5]
  · rcases ht1 with rfl | rfl <;> rcases ht5 with rfl | rfl <;> simp [iwf, takesOp, isCtl, hk1, hk5]
  · rcases ht1 with rfl | rfl <;> rcases ht5 with rfl | rfl <;> simp [asm, asmI, weight1] <;> omega
  · simp [asm, asmI]
  · intro _ env he d d' hcol h
    have p1 : ∀ d, sem env .PUSH [] d = d.push.map D.killAx := fun _ => rfl
    have p2 : ∀ d, sem env .SUB [] d = d.pop.bind fun p => p.2.ax.bind fun a => (valSub p.1 a).map p.2.setVal := fun _ => rfl
    have p3 : ∀ d, sem env .ADD [] d = d.pop.bind fun p => p.2.ax.bind fun a => (valAdd p.1 a).map p.2.setVal := fun _ => rfl
    rcases key t1 a2 env ht1 with ⟨f, hf⟩ | hf
    · rcases key t5 a6 env ht5 with ⟨g, hg⟩ | hg
      · rcases d with ⟨_ | ⟨v⟩ | ⟨s0, o0⟩, saddr, stk, mem, color, iochn, out⟩ <;>
          simp [execI, hf, hg, p1, p2, p3, D.push, D.killAx, D.setAx, D.setVal, binop, D.pop, valSub, valAdd] at h ⊢ <;>
          subst h <;> simp [BitVec.sub_sub, LessDef.refl]
      · exfalso
        rcases d with ⟨_ | ⟨v⟩ | ⟨s0, o0⟩, saddr, stk, mem, color, iochn, out⟩ <;>
          simp [execI, hf, hg, p1, p2, p3, D.push, D.killAx, D.setAx, D.setVal, binop, D.pop, valSub] at h
    · exfalso
      rcases d with ⟨_ | ⟨v⟩ | ⟨s0, o0⟩, saddr, stk, mem, color, iochn, out⟩ <;> simp [execI, hf, p1, D.push, D.killAx] at h

theorem cMod_eq (w w' : W) : BitVec.ofInt 16 (cMod Fix.fixed w.toInt w'.toInt) = vmMod w w' := by
  unfold cMod vmMod Fix.fixed
  by_cases h : w' = 0#16
  · subst h
    by_cases h0 : w.toInt < 0 <;> simp [h0]
  · have : w'.toInt ≠ 0 := fun hh => h (toInt_eq_zero.1 hh)
    simp [h, this]

theorem rCMod_sound : RS (rCMod Fix.fixed) := by
  intro c ch ub hg hw
  simp only [rCMod] at hg ⊢
  uncons c, a0, hg
  uncons c, a1, hg
  uncons c, a2, hg
  uncons c, a3, hg
  uncons c, a4, hg
  uncons c, a5, hg
  guards hg
  obtain ⟨⟨⟨⟨⟨rfl, w, rfl⟩, rfl⟩, rfl⟩, w', rfl⟩, rfl⟩ := hg
  refine mkRS [(.NUM, [.word w]), (.PUSH, []), (.NUM, [.word w']), (.MOD, [])]
    [(.NUM, [.word (BitVec.ofInt 16 (cMod Fix.fixed w.toInt w'.toInt))])] c rfl rfl (by simp) rfl rfl rfl ?_ ?_
  · simp [asm, asmI]
  · intro _
    loc h <;> (subst h; simp [cMod_eq, LessDef.refl])

theorem rNotNot_sound : RS rNotNot := by
  intro c ch ub hg hw
  simp only [rNotNot] at hg ⊢
  uncons c, a0, hg
  uncons c, a1, hg
  guards hg
  obtain ⟨rfl, rfl⟩ := hg
  refine mkRS [(.L_NOT, []), (.L_NOT, [])] [(.COMP_0, [])] c rfl rfl (by simp) rfl rfl rfl ?_ ?_
  · simp [asm, asmI]
  · intro _ env he d d' hcol h
    rcases d with ⟨_ | ⟨v⟩ | ⟨s0, o0⟩, saddr, stk, mem, color, iochn, out⟩
    · simp [execI, sem, D.axBool] at h
    · simp [execI, sem, D.axBool, D.setAx, D.setVal, valBool, D.axW, Val.toW, unop, binop] at h ⊢
      by_cases h0 : v = 0#16
      · subst h0
        simp [b2w, show valBool (.num 1#16) = some true from rfl] at h
        subst h; simp [b2w, LessDef.refl]
      · by_cases h1 : v = 1#16
        · subst h1
          simp [b2w, show valBool (.num 0#16) = some false from rfl] at h
          subst h; simp [b2w, LessDef.refl]
        · simp [h0, h1] at h
    · simp [execI, sem, D.axBool, valBool] at h

theorem rEqNot_sound : RS rEqNot := by
  intro c ch ub hg hw
  simp only [rEqNot] at hg ⊢
  uncons c, a0, hg
  uncons c, a1, hg
  guards hg
  obtain ⟨rfl, rfl⟩ := hg
  refine mkRS [(.EQ, []), (.L_NOT, [])] [(.NEQ, [])] c rfl rfl (by simp) rfl rfl rfl ?_ ?_
  · simp [asm, asmI]
  · intro _ env he d d' hcol h
    rcases d with ⟨_ | ⟨v⟩ | ⟨s0, o0⟩, saddr, _ | ⟨⟨s⟩ | ⟨s1, o1⟩, stk⟩, mem, color, iochn, out⟩ <;>
      simp [execI, sem, D.axBool, D.setAx, D.setVal, Val.toW, binop, D.pop, lift2, valBool_b2w] at h ⊢
    subst h; simp [LessDef.refl]

theorem rNeqNot_sound : RS rNeqNot := by
  intro c ch ub hg hw
  simp only [rNeqNot] at hg ⊢
  uncons c, a0, hg
  uncons c, a1, hg
  guards hg
  obtain ⟨rfl, rfl⟩ := hg
  refine mkRS [(.NEQ, []), (.L_NOT, [])] [(.EQ, [])] c rfl rfl (by simp) rfl rfl rfl ?_ ?_
  · simp [asm, asmI]
  · intro _ env he d d' hcol h
    rcases d with ⟨_ | ⟨v⟩ | ⟨s0, o0⟩, saddr, _ | ⟨⟨s⟩ | ⟨s1, o1⟩, stk⟩, mem, color, iochn, out⟩ <;>
      simp [execI, sem, D.axBool, D.setAx, D.setVal, Val.toW, binop, D.pop, lift2, valBool_b2w] at h ⊢
    subst h; simp [LessDef.refl]

theorem b2w_ne_zero (b : Bool) : decide (b2w b ≠ 0#16) = b := by cases b <;> rfl
theorem b2w_eq_zero (b : Bool) : decide (b2w b = 0#16) = !b := by cases b <;> rfl

/-- The result of a comparison or logical operator is a truth value. -/
theorem sem_bool {env : Env} {t : Tok} {d d' : D}
    (ht : t = .NEQ ∨ t = .L_AND ∨ t = .L_OR ∨ t = .L_NOT ∨ t = .COMP_0 ∨ t = .EQ ∨ t = .LT ∨ t = .GT)
    (h : sem env t [] d = some d') : ∃ b, d'.ax = some (.num (b2w b)) := by
  rcases d with ⟨_ | ⟨v⟩ | ⟨s0, o0⟩, saddr, _ | ⟨⟨s⟩ | ⟨s1, o1⟩, stk⟩, mem, color, iochn, out⟩ <;>
  rcases ht with rfl | rfl | rfl | rfl | rfl | rfl | rfl | rfl <;>
  simp [sem, binop, unop, D.pop, D.setAx, D.setVal, D.axBool, D.axW, lift2, Val.toW, valBool] at h <;>
  first
  | (subst h; exact ⟨_, rfl⟩)
  | (obtain ⟨_, rfl⟩ | ⟨_, rfl⟩ := h <;> exact ⟨_, rfl⟩)
  | (obtain ⟨_, _, rfl⟩ := h; exact ⟨_, rfl⟩)
  | (obtain ⟨_, _, _, _, rfl⟩ := h; exact ⟨_, rfl⟩)
  | grind

theorem rBoolComp_sound : RS rBoolComp := by
  intro c ch ub hg hw
  simp only [rBoolComp] at hg ⊢
  uncons c, a0, hg
  uncons c, a1, hg
  guards hg
  obtain ⟨ht0, rfl⟩ := hg
  have ht : ∃ t, (t = .NEQ ∨ t = .L_AND ∨ t = .L_OR ∨ t = .L_NOT ∨ t = .COMP_0 ∨ t = .EQ ∨ t = .LT ∨ t = .GT) ∧ a0 = .tok t := by
    rcases ht0 with ((((((h | h) | h) | h) | h) | h) | h) | h <;> exact ⟨_, by simp, h⟩
  clear ht0
  obtain ⟨t, ht, rfl⟩ := ht
  refine mkRS [(t, []), (.COMP_0, [])] [(t, [])] c rfl rfl (by simp) ?_ ?_ ?_ ?_ ?_
  · rcases ht with rfl | rfl | rfl | rfl | rfl | rfl | rfl | rfl <;> rfl
  · rcases ht with rfl | rfl | rfl | rfl | rfl | rfl | rfl | rfl <;> rfl
  · rcases ht with rfl | rfl | rfl | rfl | rfl | rfl | rfl | rfl <;> rfl
  · simp [asm, asmI]
  · intro _ env he d d' hcol h
    simp only [execI] at h ⊢
    cases hs : sem env t [] d with
    | none => simp [hs] at h
    | some d1 =>
      obtain ⟨b, hb⟩ := sem_bool ht hs
      refine ⟨d1, by simp, ?_⟩
      simp [hs] at h
      simp [sem, binop, unop, D.axW, hb, Val.toW, b2w_eq_zero, D.setAx, D.setVal] at h
      subst h
      exact ⟨.inr hb.symm, .inr rfl, rfl, rfl, rfl, rfl, rfl⟩

theorem lt_succ {s w : W} (hw : w.toInt ≠ 32767) :
    (s.toInt < (BitVec.ofInt 16 (w.toInt + 1)).toInt) ↔ s.toInt ≤ w.toInt := by
  have h1 := BitVec.toInt_lt (x := w); have h2 := BitVec.le_toInt w
  rw [BitVec.toInt_ofInt, Int.bmod_eq_of_le (by simp at *; omega) (by simp at *; omega)]; omega

theorem gt_pred {s w : W} (hw : w.toInt ≠ -32768) :
    ((BitVec.ofInt 16 (w.toInt - 1)).toInt < s.toInt) ↔ w.toInt ≤ s.toInt := by
  have h1 := BitVec.toInt_lt (x := w); have h2 := BitVec.le_toInt w
  rw [BitVec.toInt_ofInt, Int.bmod_eq_of_le (by simp at *; omega) (by simp at *; omega)]; omega

theorem or_one_ne (s : W) : s ||| 1#16 ≠ 0#16 := by
  intro h
  have := congrArg (BitVec.getLsbD · 0) h
  simp at this

theorem or_one_ne' (s : W) : (s ||| 1#16 = 0#16) ↔ False := ⟨or_one_ne s, False.elim⟩

theorem rGtNot_sound : RS (rGtNot Fix.fixed) := by
  intro c ch ub hg hw
  simp only [rGtNot] at hg ⊢
  uncons c, a0, hg
  uncons c, a1, hg
  uncons c, a2, hg
  uncons c, a3, hg
  guards hg
  obtain ⟨⟨⟨rfl, w, rfl⟩, rfl⟩, rfl⟩ := hg
  by_cases hm : w.toInt = 32767
  · refine mkRS [(.NUM, [.word w]), (.GT, []), (.L_NOT, [])]
      [(.NUM, [.word (BitVec.ofInt 16 1)]), (.BIT_OR, []), (.COMP_0, [])] c ?_ rfl (by simp) rfl rfl rfl ?_ ?_
    · simp [Ed.val, val, hm, Fix.fixed, alwaysTrue]; edits
    · simp [asm, asmI]
    · intro _ env he d d' hcol h
      rcases d with ⟨ax, saddr, _ | ⟨⟨s⟩ | ⟨s1, o1⟩, stk⟩, mem, color, iochn, out⟩ <;>
        simp [execI, sem, opWord, D.axBool, D.setAx, D.setVal, D.axW, Val.toW, binop, unop, D.pop, lift2, valBool_b2w, or_one_ne'] at h ⊢
      subst h
      have := BitVec.toInt_lt (x := s)
      simp at this
      simp [hm, show ¬ (32767 < s.toInt) by omega, LessDef.refl]
  · refine mkRS [(.NUM, [.word w]), (.GT, []), (.L_NOT, [])]
      [(.NUM, [.word (BitVec.ofInt 16 (w.toInt + 1))]), (.LT, [])] c ?_ rfl (by simp) rfl rfl rfl ?_ ?_
    · simp [Ed.val, val, hm, Fix.fixed]; edits
    · simp [asm, asmI]
    · intro _ env he d d' hcol h
      rcases d with ⟨ax, saddr, _ | ⟨⟨s⟩ | ⟨s1, o1⟩, stk⟩, mem, color, iochn, out⟩ <;>
        simp [-BitVec.toInt_ofInt, execI, sem, opWord, D.axBool, D.setAx, D.setVal, D.axW, Val.toW, binop, unop, D.pop, lift2, valBool_b2w] at h ⊢
      subst h
      have := lt_succ (s := s) hm
      by_cases hx : w.toInt < s.toInt
      · rw [show decide (s.toInt < (BitVec.ofInt 16 (w.toInt + 1)).toInt) = false by rw [decide_eq_false_iff_not, this]; omega]
        simp [hx, LessDef.refl]
      · rw [show decide (s.toInt < (BitVec.ofInt 16 (w.toInt + 1)).toInt) = true by rw [decide_eq_true_eq, this]; omega]
        simp [hx, LessDef.refl]

theorem rLtNot_sound : RS rLtNot := by
  intro c ch ub hg hw
  simp only [rLtNot] at hg ⊢
  uncons c, a0, hg
  uncons c, a1, hg
  uncons c, a2, hg
  uncons c, a3, hg
  guards hg
  obtain ⟨⟨⟨rfl, w, rfl⟩, rfl⟩, rfl⟩ := hg
  by_cases hm : w.toInt = -32768
  · refine mkRS [(.NUM, [.word w]), (.LT, []), (.L_NOT, [])]
      [(.NUM, [.word (BitVec.ofInt 16 1)]), (.BIT_OR, []), (.COMP_0, [])] c ?_ rfl (by simp) rfl rfl rfl ?_ ?_
    · simp [Ed.val, val, hm, alwaysTrue]; edits
    · simp [asm, asmI]
    · intro _ env he d d' hcol h
      rcases d with ⟨ax, saddr, _ | ⟨⟨s⟩ | ⟨s1, o1⟩, stk⟩, mem, color, iochn, out⟩ <;>
        simp [execI, sem, opWord, D.axBool, D.setAx, D.setVal, D.axW, Val.toW, binop, unop, D.pop, lift2, valBool_b2w, or_one_ne'] at h ⊢
      subst h
      have := BitVec.le_toInt s
      simp at this
      simp [hm, show ¬ (s.toInt < -32768) by omega, LessDef.refl]
  · refine mkRS [(.NUM, [.word w]), (.LT, []), (.L_NOT, [])]
      [(.NUM, [.word (BitVec.ofInt 16 (w.toInt - 1))]), (.GT, [])] c ?_ rfl (by simp) rfl rfl rfl ?_ ?_
    · simp [Ed.val, val, hm]; edits
    · simp [asm, asmI]
    · intro _ env he d d' hcol h
      rcases d with ⟨ax, saddr, _ | ⟨⟨s⟩ | ⟨s1, o1⟩, stk⟩, mem, color, iochn, out⟩ <;>
        simp [-BitVec.toInt_ofInt, execI, sem, opWord, D.axBool, D.setAx, D.setVal, D.axW, Val.toW, binop, unop, D.pop, lift2, valBool_b2w] at h ⊢
      subst h
      have := gt_pred (s := s) hm
      by_cases hx : s.toInt < w.toInt
      · rw [show decide ((BitVec.ofInt 16 (w.toInt - 1)).toInt < s.toInt) = false by rw [decide_eq_false_iff_not, this]; omega]
        simp [hx, LessDef.refl]
      · rw [show decide ((BitVec.ofInt 16 (w.toInt - 1)).toInt < s.toInt) = true by rw [decide_eq_true_eq, this]; omega]
        simp [hx, LessDef.refl]

theorem rStrIdx_sound : RS rStrIdx := by
  intro c ch ub hg hw
  simp only [rStrIdx] at hg ⊢
  uncons c, a0, hg
  uncons c, a1, hg
  uncons c, a2, hg
  guards hg
  obtain ⟨⟨⟨rfl, w, rfl⟩, rfl⟩, hv⟩ := hg
  replace hv : 255 < w.toInt := by first | exact hv | exact of_decide_eq_true hv
  refine mkRS [(.NUM, [.word w]), (.STR_IDX, [])] [(.NUM, [.word (BitVec.ofInt 16 255)]), (.STR_IDX, [])] c
    (by edits) rfl (by simp) rfl rfl rfl ?_ ?_
  · simp [asm, asmI]
  · intro _ env he d d' hcol h
    have e1 : clampCount w = 255 := by simp [clampCount, hv]; omega
    have e2 : clampCount (BitVec.ofInt 16 255) = 255 := by decide
    rcases d with ⟨ax, saddr, _ | ⟨⟨p⟩ | ⟨s1, o1⟩, _ | ⟨q, stk⟩⟩, mem, color, iochn, out⟩ <;>
      simp only [execI, sem, opWord, D.setAx, D.setVal, D.axW, Val.toW, D.pop, Option.map_some, Option.bind_some, Option.bind_none, Option.map_none] at h ⊢ <;> (try cases h)
    rw [e1, e2]
    exact ⟨_, rfl, LessDef.refl _⟩

theorem rNumComp_sound : RS rNumComp := by
  intro c ch ub hg hw
  simp only [rNumComp] at hg ⊢
  uncons c, a0, hg
  uncons c, a1, hg
  uncons c, a2, hg
  guards hg
  obtain ⟨⟨rfl, w, rfl⟩, rfl⟩ := hg
  refine mkRS [(.NUM, [.word w]), (.COMP_0, [])] [(.NUM, [.word (BitVec.ofInt 16 (if w.toInt ≠ 0 then 1 else 0))])] c
    (by edits) rfl (by simp) rfl rfl rfl ?_ ?_
  · simp [asm, asmI]
  · intro _
    loc h <;> subst h <;> by_cases h0 : w = 0#16 <;> simp [toInt_eq_zero, h0, b2w, LessDef.refl]

theorem rChrPrint_sound : RS rChrPrint := by
  intro c ch ub hg hw
  simp only [rChrPrint] at hg ⊢
  uncons c, a0, hg
  uncons c, a1, hg
  guards hg
  obtain ⟨rfl, rfl⟩ := hg
  refine mkRS [(.CHR, []), (.PRINT_STR, [])] [(.PUT, [])] c rfl rfl (by simp) rfl rfl rfl ?_ ?_
  · simp [asm, asmI]
  · intro _ env he d d' hcol h
    rcases d with ⟨_ | ⟨v⟩ | ⟨s0, o0⟩, saddr, stk, mem, color, iochn, out⟩ <;>
      simp [execI, sem, D.axW, D.setVal, Val.toW, strBytes, D.put, D.killAx] at h hcol ⊢
    subst h hcol
    simp [LessDef.refl]

theorem rJoinStr_sound : RS rJoinStr := by
  intro c ch ub hg hw
  simp only [rJoinStr] at hg ⊢
  uncons c, a0, hg
  uncons c, a1, hg
  uncons c, a2, hg
  uncons c, a3, hg
  uncons c, a4, hg
  uncons c, a5, hg
  guards hg
  obtain ⟨⟨⟨⟨rfl, rfl⟩, rfl⟩, rfl⟩, hl⟩ := hg
  obtain ⟨s1, rfl⟩ : ∃ s, a1 = .str s := by cases a1 <;> simp [mstring] at hl <;> try omega
                                            exact ⟨_, rfl⟩
  obtain ⟨s2, rfl⟩ : ∃ s, a4 = .str s := by cases a4 <;> simp [mstring] at hl <;> try omega
                                            exact ⟨_, rfl⟩
  refine mkRS [(.CSTRING, [.str s1]), (.PRINT_STR, []), (.CSTRING, [.str s2]), (.PRINT_STR, [])] [(.CSTRING, [.str (s1 ++ s2)]), (.PRINT_STR, [])] c
    (by simp [Ed.setString, str]; edits) rfl (by simp) rfl rfl rfl ?_ ?_
  · simp [asm, asmI]
  · intro _ env he d d' hcol h
    simp [execI, sem, D.setVal, strBytes, D.put, D.killAx] at h ⊢
    subst h
    simp [LessDef.refl]

theorem xor_zero8 (w : W) : xorColor w.toInt 0 = lo w := by simp [xorColor, lo_eq]

theorem rJoinPut_sound : RS (rJoinPut 0) := by
  intro c ch ub hg hw
  simp only [rJoinPut] at hg ⊢
  uncons c, a0, hg
  uncons c, a1, hg
  uncons c, a2, hg
  uncons c, a3, hg
  uncons c, a4, hg
  uncons c, a5, hg
  guards hg
  obtain ⟨⟨⟨⟨⟨⟨rfl, hl⟩, rfl⟩, rfl⟩, w, rfl⟩, rfl⟩, _⟩ := hg
  obtain ⟨s1, rfl⟩ : ∃ s, a1 = .str s := by cases a1 <;> simp [mstring] at hl <;> try omega
                                            exact ⟨_, rfl⟩
  refine mkRS [(.CSTRING, [.str s1]), (.PRINT_STR, []), (.NUM, [.word w]), (.PUT, [])] [(.CSTRING, [.str (s1 ++ [xorColor w.toInt 0])]), (.PRINT_STR, [])] c
    (by simp [Ed.setString, str]; edits) rfl (by simp) rfl rfl rfl ?_ ?_
  · simp [asm, asmI]
  · intro _ env he d d' hcol h
    rcases d with ⟨ax, saddr, stk, mem, color, iochn, out⟩
    simp [execI, sem, opWord, D.setAx, D.axW, Val.toW, D.setVal, strBytes, D.put, D.killAx, xor_zero8] at h hcol ⊢
    subst h hcol
    simp [LessDef.refl]

theorem rJoinBytePut_sound : RS (rJoinBytePut 0) := by
  intro c ch ub hg hw
  simp only [rJoinBytePut] at hg ⊢
  uncons c, a0, hg
  uncons c, a1, hg
  uncons c, a2, hg
  uncons c, a3, hg
  rcases c with _ | ⟨a4, c⟩
  · simp [mbyte_iff, mword_iff] at hg
  guards hg
  obtain ⟨⟨⟨⟨⟨rfl, hl⟩, rfl⟩, rfl⟩, hb⟩, _⟩ := hg
  obtain ⟨s1, rfl⟩ : ∃ s, a1 = .str s := by cases a1 <;> simp [mstring] at hl <;> try omega
                                            exact ⟨_, rfl⟩
  obtain ⟨o, ho, hk⟩ := opAt hw 3 rfl rfl
  simp only [List.getElem?_cons_succ, List.getElem?_cons_zero, Option.some.injEq] at ho
  subst ho
  obtain ⟨b, rfl⟩ : ∃ b, a4 = .byte b := by rcases hb with ⟨b, rfl⟩ | ⟨b, rfl⟩ <;> simp_all [opOK]
  refine mkRS [(.CSTRING, [.str s1]), (.PRINT_STR, []), (.BYTE_PUT, [.byte b])] [(.CSTRING, [.str (s1 ++ [xorColor b.toNat 0])]), (.PRINT_STR, [])] c
    (by simp [Ed.setString, str]; edits) rfl (by simp) rfl rfl rfl ?_ ?_
  · simp [asm, asmI]
  · intro _ env he d d' hcol h
    rcases d with ⟨ax, saddr, stk, mem, color, iochn, out⟩
    simp [execI, sem, opByte, D.setVal, strBytes, D.put, D.killAx, xorColor] at h hcol ⊢
    subst h hcol
    simp [LessDef.refl]

end FB
