import Verif.RulesC
/-! Soundness of the rules that change jumps. -/
namespace FB
open Peep

/-- Replacing a window that holds jumps. -/
theorem ctlOK {L R post : List Codew} (hh : ∃ t L', L = .tok t :: L') (hL : NoLabel L) (hR : NoLabel R)
    (hw : wf (L ++ post) = true → wf (R ++ post) = true)
    (hc : Codew.byteStr "PRINT_COLOR" ∉ L → Codew.byteStr "PRINT_COLOR" ∉ R)
    (hwin : ∀ pre, Good (pre ++ (L ++ post)) → ∀ env, EnvOK env → ∀ k1 k2 r1 r2 d1 d2,
      CR (WS pre L R post) ⟨k1, r1, d1⟩ ⟨k2, r2, d2⟩ → k1 = L ++ post → k2 = R ++ post →
      SimStep env (pre ++ (L ++ post)) (pre ++ (R ++ post)) (CR (WS pre L R post)) ⟨k1, r1, d1⟩ ⟨k2, r2, d2⟩)
    (hwd : ∀ l, Codew.wordStr l ∈ R → Codew.wordStr l ∈ L := by simp) :
    RuleOK (L ++ post) (R ++ post) := by
  refine ⟨fun pre hg => ⟨hg.window hh hL hR hw, RefOK.window hL hR hwd⟩, fun pre hg => ?_, fun pre hg =>
    window hh hL hR hg.nocol fun env he c1 c2 => hwin pre hg env he c1.code c2.code c1.rets c2.rets c1.d c2.d⟩
  have := hg.nocol
  simp only [List.mem_append, not_or] at this ⊢
  exact ⟨hc this.2.1, this.2.2⟩

theorem mkCtl {e : Ed} {c : List Codew} {ub ch : Bool} {k : Nat} (L R post : List Codew)
    (he : e = ⟨R ++ post, ch, ub⟩) (hc : c = L ++ post)
    (hw : weight R + k ≤ weight L) (h : RuleOK (L ++ post) (R ++ post)) :
    ∃ c' ch', e = ⟨c', ch', ub⟩ ∧ RuleOK c c' ∧ (weight c' + k ≤ weight c) := by
  subst he hc
  refine ⟨_, _, rfl, h, ?_⟩
  simp only [weight, List.map_append, List.sum_append] at *
  omega

theorem opOK_jump {t a} (h : opOK t a = true) (ht : t = .JUMP ∨ t = .CJUMP ∨ t = .CNJUMP ∨ t = .CALL) :
    ∃ l, a = .wordStr l := by
  rcases ht with rfl | rfl | rfl | rfl <;> cases a <;> simp_all [opOK]

theorem jumpAt {c : List Codew} (hw : wf c = true) (i : Nat) {t : Tok} (h : c[i]? = some (.tok t))
    (ht : t = .JUMP ∨ t = .CJUMP ∨ t = .CNJUMP ∨ t = .CALL) : ∃ l, c[i + 1]? = some (.wordStr l) := by
  obtain ⟨o, h1, h2⟩ := opAt hw i h (by rcases ht with rfl | rfl | rfl | rfl <;> rfl)
  obtain ⟨l, rfl⟩ := opOK_jump h2 ht
  exact ⟨l, h1⟩

section steps
variable {env : Env} {P : List Codew} {l : String} {r : List Codew} {rs : List (List Codew)} {d : D}

theorem step_jump : step env P ⟨.tok .JUMP :: .wordStr l :: r, rs, d⟩ = goto P ⟨.tok .JUMP :: .wordStr l :: r, rs, d⟩ l := by
  simp [step, arity, takesOp, splitOps, Codew.isData, Codew.isTok, Codew.isLabel, isCtl, ctl]
theorem step_call : step env P ⟨.tok .CALL :: .wordStr l :: r, rs, d⟩ = goto P ⟨.tok .CALL :: .wordStr l :: r, r :: rs, d⟩ l := by
  simp [step, arity, takesOp, splitOps, Codew.isData, Codew.isTok, Codew.isLabel, isCtl, ctl]
theorem step_cjump_t (h : d.axBool = some true) : step env P ⟨.tok .CJUMP :: .wordStr l :: r, rs, d⟩ = .run ⟨r, rs, d.killAx⟩ := by
  simp [step, arity, takesOp, splitOps, Codew.isData, Codew.isTok, Codew.isLabel, isCtl, ctl, h]
theorem step_cjump_f (h : d.axBool = some false) : step env P ⟨.tok .CJUMP :: .wordStr l :: r, rs, d⟩ = goto P ⟨.tok .CJUMP :: .wordStr l :: r, rs, d⟩ l := by
  simp [step, arity, takesOp, splitOps, Codew.isData, Codew.isTok, Codew.isLabel, isCtl, ctl, h]
theorem step_cjump_n (h : d.axBool = none) : step env P ⟨.tok .CJUMP :: .wordStr l :: r, rs, d⟩ = .wrong := by
  simp [step, arity, takesOp, splitOps, Codew.isData, Codew.isTok, Codew.isLabel, isCtl, ctl, h]
theorem step_cnjump_f (h : d.axBool = some false) : step env P ⟨.tok .CNJUMP :: .wordStr l :: r, rs, d⟩ = .run ⟨r, rs, d.killAx⟩ := by
  simp [step, arity, takesOp, splitOps, Codew.isData, Codew.isTok, Codew.isLabel, isCtl, ctl, h]
theorem step_cnjump_t (h : d.axBool = some true) : step env P ⟨.tok .CNJUMP :: .wordStr l :: r, rs, d⟩ = goto P ⟨.tok .CNJUMP :: .wordStr l :: r, rs, d⟩ l := by
  simp [step, arity, takesOp, splitOps, Codew.isData, Codew.isTok, Codew.isLabel, isCtl, ctl, h]
theorem step_cnjump_n (h : d.axBool = none) : step env P ⟨.tok .CNJUMP :: .wordStr l :: r, rs, d⟩ = .wrong := by
  simp [step, arity, takesOp, splitOps, Codew.isData, Codew.isTok, Codew.isLabel, isCtl, ctl, h]
theorem step_ret : step env P ⟨.tok .RET :: r, rs, d⟩ = doRet ⟨.tok .RET :: r, rs, d⟩ := by
  simp [step, arity, takesOp, splitOps, isCtl, ctl]
theorem step_end : step env P ⟨.tok .END :: r, rs, d⟩ = .done d := by
  simp [step, arity, takesOp, splitOps, isCtl, ctl]
theorem step_cret_t (h : d.axBool = some true) : step env P ⟨.tok .CRET :: r, rs, d⟩ = .run ⟨r, rs, d.killAx⟩ := by
  simp [step, arity, takesOp, splitOps, isCtl, ctl, h]
theorem step_cret_f (h : d.axBool = some false) : step env P ⟨.tok .CRET :: r, rs, d⟩ = doRet ⟨.tok .CRET :: r, rs, d⟩ := by
  simp [step, arity, takesOp, splitOps, isCtl, ctl, h]
theorem step_cret_n (h : d.axBool = none) : step env P ⟨.tok .CRET :: r, rs, d⟩ = .wrong := by
  simp [step, arity, takesOp, splitOps, isCtl, ctl, h]
theorem step_cnret_f (h : d.axBool = some false) : step env P ⟨.tok .CNRET :: r, rs, d⟩ = .run ⟨r, rs, d.killAx⟩ := by
  simp [step, arity, takesOp, splitOps, isCtl, ctl, h]
theorem step_cnret_t (h : d.axBool = some true) : step env P ⟨.tok .CNRET :: r, rs, d⟩ = doRet ⟨.tok .CNRET :: r, rs, d⟩ := by
  simp [step, arity, takesOp, splitOps, isCtl, ctl, h]
theorem step_cnret_n (h : d.axBool = none) : step env P ⟨.tok .CNRET :: r, rs, d⟩ = .wrong := by
  simp [step, arity, takesOp, splitOps, isCtl, ctl, h]
theorem step_not {b} (h : d.axBool = some b) : step env P ⟨.tok .L_NOT :: r, rs, d⟩ = .run ⟨r, rs, d.setAx (b2w !b)⟩ := by
  simp [step, arity, takesOp, splitOps, isCtl, sem, h]
theorem step_not_n (h : d.axBool = none) : step env P ⟨.tok .L_NOT :: r, rs, d⟩ = .wrong := by
  simp [step, arity, takesOp, splitOps, isCtl, sem, h]
theorem step_num {w} : step env P ⟨.tok .NUM :: .word w :: r, rs, d⟩ = .run ⟨r, rs, d.setAx w⟩ := by
  simp [step, arity, takesOp, splitOps, isCtl, sem, opWord, Codew.isData, Codew.isTok, Codew.isLabel]
theorem axBool_set (b : Bool) : (d.setAx (b2w b)).axBool = some b := by
  simp [D.axBool, D.setAx, D.setVal, valBool_b2w]
theorem killAx_setAx {w} : (d.setAx w).killAx = d.killAx := rfl
end steps

/-- The label after the window is where jumps to it go. -/
theorem Good.find {pre L post : List Codew} {l : String} (hg : Good (pre ++ (L ++ .label l :: post))) :
    findLabel l (pre ++ (L ++ .label l :: post)) = some (.label l :: post) := by
  have key : ∀ p : List Codew, l ∉ labels p → findLabel l (p ++ .label l :: post) = some (.label l :: post) := by
    intro p hp
    induction p with
    | nil => simp [findLabel]
    | cons a p ih =>
      have h1 : a ≠ .label l := by rintro rfl; simp [labels] at hp
      have h2 : l ∉ labels p := by cases a <;> simp_all [labels]
      simp [findLabel, h1, ih h2]
  have := hg.nodup
  rw [← List.append_assoc] at this ⊢
  refine key _ fun hm => ?_
  rw [labels_append, List.nodup_append] at this
  exact this.2.2 _ hm l (by simp [labels]) rfl

variable {pre L R post : List Codew} {env : Env}

/-- Relation between positions after the window. -/
theorem CR.atPost {k1 k2 r1 r2 d1 d2 d1' d2'} (h : CR (WS pre L R post) ⟨k1, r1, d1⟩ ⟨k2, r2, d2⟩) (hd : LessDef d1' d2')
    (hc : d1'.color = d1.color) : CR (WS pre L R post) ⟨post, r1, d1'⟩ ⟨post, r2, d2'⟩ :=
  ⟨.inr ⟨rfl, List.suffix_refl _⟩, h.rets, hd, by have := h.color; simp_all⟩

/-- Both programs jump to the same label. -/
theorem sim_jump (hL : NoLabel L) (hR : NoLabel R) {c1 c2 : Cfg} {l : String} {k1 k2 r1 r2 d1 d2}
    (h1 : step env (pre ++ (L ++ post)) c1 = goto (pre ++ (L ++ post)) ⟨k1, r1, d1⟩ l)
    (h2 : step env (pre ++ (R ++ post)) c2 = goto (pre ++ (R ++ post)) ⟨k2, r2, d2⟩ l)
    (hr : RetRel (WS pre L R post) r1 r2) (hd : LessDef d1.killAx d2.killAx) (hc : d1.color = 0) :
    SimStep env (pre ++ (L ++ post)) (pre ++ (R ++ post)) (CR (WS pre L R post)) c1 c2 := by
  refine sim_goto h1 h2 fun q1 hq1 => ?_
  obtain ⟨q2, hq2, hS⟩ := findLabel_window hL hR 0 hq1
  exact ⟨q2, hq2, fun _ => ⟨hS, hr, hd, hc⟩⟩

/-- Both programs return. -/
theorem sim_ret' {S} {P Q : List Codew} {k1 k2 q1 q2 r1 r2 d1 d2 e2} (h1 : step env P ⟨k1, r1, d1⟩ = doRet ⟨q1, r1, d1⟩)
    (h2 : step env Q ⟨k2, r2, d2⟩ = doRet ⟨q2, r2, d2⟩) (hr : RetRel S r1 r2)
    (hd : LessDef d1.killAx e2) (he : e2 = d2.killAx) (hc : d1.color = 0) : SimStep env P Q (CR S) ⟨k1, r1, d1⟩ ⟨k2, r2, d2⟩ := by
  subst he
  have e : ∀ n, runN env P (n+1) ⟨k1, r1, d1⟩ = runN env P (n+1) ⟨.tok .RET :: [], r1, d1.killAx⟩ := by
    intro n
    have h3 : step env P ⟨.tok .RET :: [], r1, d1.killAx⟩ = doRet ⟨.tok .RET :: [], r1, d1.killAx⟩ := rfl
    simp only [runN, h1, h3]; rfl
  have e' : ∀ n, runN env Q (n+1) ⟨k2, r2, d2⟩ = runN env Q (n+1) ⟨.tok .RET :: [], r2, d2.killAx⟩ := by
    intro n
    have h3 : step env Q ⟨.tok .RET :: [], r2, d2.killAx⟩ = doRet ⟨.tok .RET :: [], r2, d2.killAx⟩ := rfl
    simp only [runN, h2, h3]; rfl
  by_cases hio : d1.iochn = 0
  · rcases run_ret (env := env) (P := P) hr [] d1.killAx hio with ⟨n, hn⟩ | ⟨n, k1', k2', r1', r2', hn, h3, h4, h5⟩
    · cases n with
      | zero => simp [runN] at hn
      | succ n => exact .inl ⟨n+1, by rw [e, hn]⟩
    · have hio2 : d2.iochn = 0 := hd.iochn.symm.trans hio
      refine sim_run (m := 0) (n := n) (c1' := ⟨k1', r1', d1.killAx⟩) (by rw [e, hn]; rfl) (c2' := ⟨k2', r2', d2.killAx⟩) ?_ ⟨?_, h5, hd, hc⟩
      · rw [runN_one, h2]; simp [doRet, hio2, h3]
      · show S d1.iochn k1' k2'
        exact hio ▸ h4
  · exact sim_wrong (by rw [h1]; exact if_neg hio)

theorem LessDef.setKill {d1 d2 : D} (h : LessDef d1 d2) (w : W) : LessDef (d1.setAx w).killAx d2.killAx := h.killAx
theorem LessDef.killL {d1 d2 : D} (h : LessDef d1 d2) : LessDef d1.killAx d2 :=
  ⟨.inl rfl, h.saddr, h.stk, h.mem, h.color, h.iochn, h.out⟩

theorem NoLabel.cons {a : Codew} {L : List Codew} (h : a.isLabel = false) (hL : NoLabel L) : NoLabel (a :: L) := by
  intro b hb; rcases List.mem_cons.1 hb with rfl | hb
  · exact h
  · exact hL b hb
theorem NoLabel.nil : NoLabel [] := by intro a ha; simp at ha

macro "nolabel" : tactic => `(tactic| (repeat (first | exact NoLabel.nil | refine NoLabel.cons rfl ?_)))

theorem wf_cut {L R post : List Codew} (hR : wf R = true) : wf (L ++ post) = true → wf (R ++ post) = true :=
  fun h => wf_append hR (wf_drop h)

theorem valBool_w (w : W) (h0 : w ≠ 0) (h1 : w ≠ 1) (d : D) : (d.setAx w).axBool = none := by
  simp only [D.axBool, D.setAx, D.setVal, Option.bind_some, valBool]; rw [if_neg h0, if_neg h1]

theorem num_cnjump_ok (w : W) (l : String) (post : List Codew) :
    RuleOK ([.tok .NUM, .word w, .tok .CNJUMP, .wordStr l] ++ post) ((if w = 0 then [] else [.tok .JUMP, .wordStr l]) ++ post) := by
  have hR : NoLabel (if w = 0 then [] else [.tok .JUMP, .wordStr l]) := by split <;> nolabel
  have hL : NoLabel [.tok .NUM, .word w, .tok .CNJUMP, .wordStr l] := by nolabel
  refine ctlOK ⟨_, _, rfl⟩ hL hR (wf_cut (by split <;> rfl)) (by split <;> simp) ?_
  rintro pre hg env he k1 k2 r1 r2 d1 d2 hr rfl rfl
  have s1 := step_num (env := env) (P := pre ++ ([.tok .NUM, .word w, .tok .CNJUMP, .wordStr l] ++ post)) (w := w) (r := .tok .CNJUMP :: .wordStr l :: post) (rs := r1) (d := d1)
  by_cases h0 : w = 0
  · subst h0
    have s2 := step_cnjump_f (env := env) (P := pre ++ ([.tok .NUM, .word 0, .tok .CNJUMP, .wordStr l] ++ post)) (l := l) (r := post) (rs := r1) (d := d1.setAx 0) (axBool_set false)
    exact sim_stutter (n := 1) (c1' := ⟨post, r1, d1.killAx⟩)
      (show runN _ _ 2 ⟨.tok .NUM :: .word 0 :: .tok .CNJUMP :: .wordStr l :: post, r1, d1⟩ = _ by
        rw [runN_succ_of_step s1, runN_one]; exact s2) (hr.atPost hr.d.killL rfl) (by simp <;> omega)
  · refine sim_after (n := 1) (show runN _ _ 1 ⟨.tok .NUM :: .word w :: .tok .CNJUMP :: .wordStr l :: post, r1, d1⟩ = _ by
      rw [runN_one]; exact s1) ?_ (by simp)
    by_cases h1 : w = 1
    · subst h1
      exact sim_jump hL hR (step_cnjump_t (axBool_set true)) (step_jump (r := post)) hr.rets (hr.d.setKill _) hr.color
    · exact sim_wrong (step_cnjump_n (valBool_w w h0 h1 _))

theorem num_cjump_ok (w : W) (l : String) (post : List Codew) :
    RuleOK ([.tok .NUM, .word w, .tok .CJUMP, .wordStr l] ++ post) ((if w = 0 then [.tok .JUMP, .wordStr l] else []) ++ post) := by
  have hR : NoLabel (if w = 0 then [.tok .JUMP, .wordStr l] else []) := by split <;> nolabel
  have hL : NoLabel [.tok .NUM, .word w, .tok .CJUMP, .wordStr l] := by nolabel
  refine ctlOK ⟨_, _, rfl⟩ hL hR (wf_cut (by split <;> rfl)) (by split <;> simp) ?_
  rintro pre hg env he k1 k2 r1 r2 d1 d2 hr rfl rfl
  have s1 := step_num (env := env) (P := pre ++ ([.tok .NUM, .word w, .tok .CJUMP, .wordStr l] ++ post)) (w := w) (r := .tok .CJUMP :: .wordStr l :: post) (rs := r1) (d := d1)
  by_cases h1 : w = 1
  · subst h1
    have s2 := step_cjump_t (env := env) (P := pre ++ ([.tok .NUM, .word 1, .tok .CJUMP, .wordStr l] ++ post)) (l := l) (r := post) (rs := r1) (d := d1.setAx 1) (axBool_set true)
    exact sim_stutter (n := 1) (c1' := ⟨post, r1, d1.killAx⟩)
      (show runN _ _ 2 ⟨.tok .NUM :: .word 1 :: .tok .CJUMP :: .wordStr l :: post, r1, d1⟩ = _ by
        rw [runN_succ_of_step s1, runN_one]; exact s2) (hr.atPost hr.d.killL rfl) (by simp <;> omega)
  · refine sim_after (n := 1) (show runN _ _ 1 ⟨.tok .NUM :: .word w :: .tok .CJUMP :: .wordStr l :: post, r1, d1⟩ = _ by
      rw [runN_one]; exact s1) ?_ (by simp)
    by_cases h0 : w = 0
    · subst h0
      exact sim_jump hL hR (step_cjump_f (axBool_set false)) (step_jump (r := post)) hr.rets (hr.d.setKill _) hr.color
    · exact sim_wrong (step_cjump_n (valBool_w w h0 h1 _))

theorem call_ret_ok (l : String) (post : List Codew) :
    RuleOK ([.tok .CALL, .wordStr l, .tok .RET] ++ post) ([.tok .JUMP, .wordStr l] ++ post) := by
  have hL : NoLabel [.tok .CALL, .wordStr l, .tok .RET] := by nolabel
  have hR : NoLabel [.tok .JUMP, .wordStr l] := by nolabel
  refine ctlOK ⟨_, _, rfl⟩ hL hR (wf_cut rfl) (by simp) ?_
  rintro pre hg env he k1 k2 r1 r2 d1 d2 hr rfl rfl
  exact sim_jump hL hR (step_call (r := .tok .RET :: post)) (step_jump (r := post)) (.drop hr.rets) hr.d.killAx hr.color

theorem not_cjump_ok (l : String) (post : List Codew) :
    RuleOK ([.tok .L_NOT, .tok .CJUMP, .wordStr l] ++ post) ([.tok .CNJUMP, .wordStr l] ++ post) := by
  have hL : NoLabel [.tok .L_NOT, .tok .CJUMP, .wordStr l] := by nolabel
  have hR : NoLabel [.tok .CNJUMP, .wordStr l] := by nolabel
  refine ctlOK ⟨_, _, rfl⟩ hL hR (wf_cut rfl) (by simp) ?_
  rintro pre hg env he k1 k2 r1 r2 d1 d2 hr rfl rfl
  cases hb : d1.axBool with
  | none => exact sim_wrong (step_not_n hb)
  | some b =>
    refine sim_after (n := 1) (c1' := ⟨.tok .CJUMP :: .wordStr l :: post, r1, d1.setAx (b2w !b)⟩) (by rw [runN_one]; exact step_not hb) ?_ (by simp)
    have hb2 := hr.d.axBool hb
    cases b
    · exact sim_step (step_cjump_t (axBool_set true)) (step_cnjump_f (r := post) hb2) (hr.atPost hr.d.killAx rfl)
    · exact sim_jump hL hR (step_cjump_f (axBool_set false)) (step_cnjump_t (r := post) hb2) hr.rets hr.d.killAx hr.color

theorem not_cnjump_ok (l : String) (post : List Codew) :
    RuleOK ([.tok .L_NOT, .tok .CNJUMP, .wordStr l] ++ post) ([.tok .CJUMP, .wordStr l] ++ post) := by
  have hL : NoLabel [.tok .L_NOT, .tok .CNJUMP, .wordStr l] := by nolabel
  have hR : NoLabel [.tok .CJUMP, .wordStr l] := by nolabel
  refine ctlOK ⟨_, _, rfl⟩ hL hR (wf_cut rfl) (by simp) ?_
  rintro pre hg env he k1 k2 r1 r2 d1 d2 hr rfl rfl
  cases hb : d1.axBool with
  | none => exact sim_wrong (step_not_n hb)
  | some b =>
    refine sim_after (n := 1) (c1' := ⟨.tok .CNJUMP :: .wordStr l :: post, r1, d1.setAx (b2w !b)⟩) (by rw [runN_one]; exact step_not hb) ?_ (by simp)
    have hb2 := hr.d.axBool hb
    cases b
    · exact sim_jump hL hR (step_cnjump_t (axBool_set true)) (step_cjump_f (r := post) hb2) hr.rets hr.d.killAx hr.color
    · exact sim_step (step_cnjump_f (axBool_set false)) (step_cjump_t (r := post) hb2) (hr.atPost hr.d.killAx rfl)

theorem not_cret_ok (post : List Codew) :
    RuleOK ([.tok .L_NOT, .tok .CRET] ++ post) ([.tok .CNRET] ++ post) := by
  have hL : NoLabel [.tok .L_NOT, .tok .CRET] := by nolabel
  have hR : NoLabel [.tok .CNRET] := by nolabel
  refine ctlOK ⟨_, _, rfl⟩ hL hR (wf_cut rfl) (by simp) ?_
  rintro pre hg env he k1 k2 r1 r2 d1 d2 hr rfl rfl
  cases hb : d1.axBool with
  | none => exact sim_wrong (step_not_n hb)
  | some b =>
    refine sim_after (n := 1) (c1' := ⟨.tok .CRET :: post, r1, d1.setAx (b2w !b)⟩) (by rw [runN_one]; exact step_not hb) ?_ (by simp)
    have hb2 := hr.d.axBool hb
    cases b
    · exact sim_step (step_cret_t (axBool_set true)) (step_cnret_f (r := post) hb2) (hr.atPost hr.d.killAx rfl)
    · exact sim_ret' (step_cret_f (axBool_set false)) (step_cnret_t (r := post) hb2) hr.rets hr.d.killAx rfl hr.color

theorem not_cnret_ok (post : List Codew) :
    RuleOK ([.tok .L_NOT, .tok .CNRET] ++ post) ([.tok .CRET] ++ post) := by
  have hL : NoLabel [.tok .L_NOT, .tok .CNRET] := by nolabel
  have hR : NoLabel [.tok .CRET] := by nolabel
  refine ctlOK ⟨_, _, rfl⟩ hL hR (wf_cut rfl) (by simp) ?_
  rintro pre hg env he k1 k2 r1 r2 d1 d2 hr rfl rfl
  cases hb : d1.axBool with
  | none => exact sim_wrong (step_not_n hb)
  | some b =>
    refine sim_after (n := 1) (c1' := ⟨.tok .CNRET :: post, r1, d1.setAx (b2w !b)⟩) (by rw [runN_one]; exact step_not hb) ?_ (by simp)
    have hb2 := hr.d.axBool hb
    cases b
    · exact sim_ret' (step_cnret_t (axBool_set true)) (step_cret_f (r := post) hb2) hr.rets hr.d.killAx rfl hr.color
    · exact sim_step (step_cnret_f (axBool_set false)) (step_cret_t (r := post) hb2) (hr.atPost hr.d.killAx rfl)

/-- Jumping to the label after the window. -/
theorem goto_post {l : String} {post' : List Codew} (hg : Good (pre ++ (L ++ .label l :: post'))) (k r d) :
    goto (pre ++ (L ++ .label l :: post')) ⟨k, r, d⟩ l = .run ⟨.label l :: post', r, d.killAx⟩ := by
  simp only [goto, hg.find]

theorem cjump_jump_ok (l m : String) (post : List Codew) :
    RuleOK ([.tok .CJUMP, .wordStr l, .tok .JUMP, .wordStr m] ++ .label l :: post) ([.tok .CNJUMP, .wordStr m] ++ .label l :: post) := by
  have hL : NoLabel [.tok .CJUMP, .wordStr l, .tok .JUMP, .wordStr m] := by nolabel
  have hR : NoLabel [.tok .CNJUMP, .wordStr m] := by nolabel
  refine ctlOK ⟨_, _, rfl⟩ hL hR (wf_cut rfl) (by simp) ?_
  rintro pre hg env he k1 k2 r1 r2 d1 d2 hr rfl rfl
  cases hb : d1.axBool with
  | none => exact sim_wrong (step_cjump_n hb)
  | some b =>
    have hb2 := hr.d.axBool hb
    cases b
    · exact sim_step ((step_cjump_f hb).trans (goto_post hg _ _ _)) (step_cnjump_f (r := .label l :: post) hb2) (hr.atPost hr.d.killAx rfl)
    · refine sim_after (n := 1) (c1' := ⟨.tok .JUMP :: .wordStr m :: .label l :: post, r1, d1.killAx⟩) (by rw [runN_one]; exact step_cjump_t hb) ?_ (by simp)
      exact sim_jump hL hR step_jump (step_cnjump_t (r := .label l :: post) hb2) hr.rets hr.d.killAx hr.color

theorem cnjump_jump_ok (l m : String) (post : List Codew) :
    RuleOK ([.tok .CNJUMP, .wordStr l, .tok .JUMP, .wordStr m] ++ .label l :: post) ([.tok .CJUMP, .wordStr m] ++ .label l :: post) := by
  have hL : NoLabel [.tok .CNJUMP, .wordStr l, .tok .JUMP, .wordStr m] := by nolabel
  have hR : NoLabel [.tok .CJUMP, .wordStr m] := by nolabel
  refine ctlOK ⟨_, _, rfl⟩ hL hR (wf_cut rfl) (by simp) ?_
  rintro pre hg env he k1 k2 r1 r2 d1 d2 hr rfl rfl
  cases hb : d1.axBool with
  | none => exact sim_wrong (step_cnjump_n hb)
  | some b =>
    have hb2 := hr.d.axBool hb
    cases b
    · refine sim_after (n := 1) (c1' := ⟨.tok .JUMP :: .wordStr m :: .label l :: post, r1, d1.killAx⟩) (by rw [runN_one]; exact step_cnjump_f hb) ?_ (by simp)
      exact sim_jump hL hR step_jump (step_cjump_f (r := .label l :: post) hb2) hr.rets hr.d.killAx hr.color
    · exact sim_step ((step_cnjump_t hb).trans (goto_post hg _ _ _)) (step_cjump_t (r := .label l :: post) hb2) (hr.atPost hr.d.killAx rfl)

theorem cjump_ret_ok (l : String) (post : List Codew) :
    RuleOK ([.tok .CJUMP, .wordStr l, .tok .RET] ++ .label l :: post) ([.tok .CNRET] ++ .label l :: post) := by
  have hL : NoLabel [.tok .CJUMP, .wordStr l, .tok .RET] := by nolabel
  have hR : NoLabel [.tok .CNRET] := by nolabel
  refine ctlOK ⟨_, _, rfl⟩ hL hR (wf_cut rfl) (by simp) ?_
  rintro pre hg env he k1 k2 r1 r2 d1 d2 hr rfl rfl
  cases hb : d1.axBool with
  | none => exact sim_wrong (step_cjump_n hb)
  | some b =>
    have hb2 := hr.d.axBool hb
    cases b
    · exact sim_step ((step_cjump_f hb).trans (goto_post hg _ _ _)) (step_cnret_f (r := .label l :: post) hb2) (hr.atPost hr.d.killAx rfl)
    · refine sim_after (n := 1) (c1' := ⟨.tok .RET :: .label l :: post, r1, d1.killAx⟩) (by rw [runN_one]; exact step_cjump_t hb) ?_ (by simp)
      exact sim_ret' step_ret (step_cnret_t (r := .label l :: post) hb2) hr.rets hr.d.killAx rfl hr.color

theorem cnjump_ret_ok (l : String) (post : List Codew) :
    RuleOK ([.tok .CNJUMP, .wordStr l, .tok .RET] ++ .label l :: post) ([.tok .CRET] ++ .label l :: post) := by
  have hL : NoLabel [.tok .CNJUMP, .wordStr l, .tok .RET] := by nolabel
  have hR : NoLabel [.tok .CRET] := by nolabel
  refine ctlOK ⟨_, _, rfl⟩ hL hR (wf_cut rfl) (by simp) ?_
  rintro pre hg env he k1 k2 r1 r2 d1 d2 hr rfl rfl
  cases hb : d1.axBool with
  | none => exact sim_wrong (step_cnjump_n hb)
  | some b =>
    have hb2 := hr.d.axBool hb
    cases b
    · refine sim_after (n := 1) (c1' := ⟨.tok .RET :: .label l :: post, r1, d1.killAx⟩) (by rw [runN_one]; exact step_cnjump_f hb) ?_ (by simp)
      exact sim_ret' step_ret (step_cret_f (r := .label l :: post) hb2) hr.rets hr.d.killAx rfl hr.color
    · exact sim_step ((step_cnjump_t hb).trans (goto_post hg _ _ _)) (step_cret_t (r := .label l :: post) hb2) (hr.atPost hr.d.killAx rfl)

theorem jump_next_ok (l : String) (post : List Codew) :
    RuleOK ([.tok .JUMP, .wordStr l] ++ .label l :: post) ([] ++ .label l :: post) := by
  have hL : NoLabel [.tok .JUMP, .wordStr l] := by nolabel
  have hR : NoLabel [] := by nolabel
  refine ctlOK ⟨_, _, rfl⟩ hL hR (wf_cut rfl) (by simp) ?_
  rintro pre hg env he k1 k2 r1 r2 d1 d2 hr rfl rfl
  exact sim_stutter (n := 0) (c1' := ⟨.label l :: post, r1, d1.killAx⟩)
    (by rw [runN_one]; exact step_jump.trans (goto_post hg _ _ _)) (hr.atPost hr.d.killL rfl) (by simp)

theorem dead_jump_ok (l : String) (x : Codew) (hx : x.isLabel = false) (post : List Codew) :
    RuleOK ([.tok .JUMP, .wordStr l, x] ++ post) ([.tok .JUMP, .wordStr l] ++ post) := by
  have hL : NoLabel [.tok .JUMP, .wordStr l, x] := by
    intro a ha; simp at ha; rcases ha with rfl | rfl | rfl <;> first | rfl | exact hx
  have hR : NoLabel [.tok .JUMP, .wordStr l] := by nolabel
  refine ctlOK ⟨_, _, rfl⟩ hL hR (wf_cut rfl) (by simp) ?_
  rintro pre hg env he k1 k2 r1 r2 d1 d2 hr rfl rfl
  exact sim_jump hL hR (step_jump (r := x :: post)) (step_jump (r := post)) hr.rets hr.d.killAx hr.color

theorem dead_ret_ok (x : Codew) (hx : x.isLabel = false) (post : List Codew) :
    RuleOK ([.tok .RET, x] ++ post) ([.tok .RET] ++ post) := by
  have hL : NoLabel [.tok .RET, x] := by
    intro a ha; simp at ha; rcases ha with rfl | rfl <;> first | rfl | exact hx
  have hR : NoLabel [.tok .RET] := by nolabel
  refine ctlOK ⟨_, _, rfl⟩ hL hR (wf_cut rfl) (by simp) ?_
  rintro pre hg env he k1 k2 r1 r2 d1 d2 hr rfl rfl
  exact sim_ret' (step_ret (r := x :: post)) (step_ret (r := post)) hr.rets hr.d.killAx rfl hr.color

theorem dead_end_ok (x : Codew) (hx : x.isLabel = false) (post : List Codew) :
    RuleOK ([.tok .END, x] ++ post) ([.tok .END] ++ post) := by
  have hL : NoLabel [.tok .END, x] := by
    intro a ha; simp at ha; rcases ha with rfl | rfl <;> first | rfl | exact hx
  have hR : NoLabel [.tok .END] := by nolabel
  refine ctlOK ⟨_, _, rfl⟩ hL hR (wf_cut rfl) (by simp) ?_
  rintro pre hg env he k1 k2 r1 r2 d1 d2 hr rfl rfl
  exact .inr (.inl ⟨1, 1, d1, d2, by rw [runN_one]; exact step_end (r := x :: post), by rw [runN_one]; exact step_end (r := post), hr.d.mem, hr.d.out⟩)


theorem rNumCnjump_sound : RS rNumCnjump := by
  intro c ch ub hg hw
  simp only [rNumCnjump] at hg ⊢
  uncons c, a0, hg
  uncons c, a1, hg
  uncons c, a2, hg
  guards hg
  obtain ⟨⟨rfl, w, rfl⟩, rfl⟩ := hg
  obtain ⟨l, hl⟩ := jumpAt hw 2 rfl (by simp)
  rcases c with _ | ⟨a3, c⟩
  · simp at hl
  simp only [List.getElem?_cons_succ, List.getElem?_cons_zero, Option.some.injEq] at hl
  subst hl
  refine mkCtl _ _ c (ch := true) ?_ rfl ?_ (num_cnjump_ok w l c)
  · by_cases h : w = 0#16 <;> simp [Ed.val, val, toInt_eq_zero, h] <;> edits
  · split <;> simp [weight, weight1]

theorem rNumCjump_sound : RS rNumCjump := by
  intro c ch ub hg hw
  simp only [rNumCjump] at hg ⊢
  uncons c, a0, hg
  uncons c, a1, hg
  uncons c, a2, hg
  guards hg
  obtain ⟨⟨rfl, w, rfl⟩, rfl⟩ := hg
  obtain ⟨l, hl⟩ := jumpAt hw 2 rfl (by simp)
  rcases c with _ | ⟨a3, c⟩
  · simp at hl
  simp only [List.getElem?_cons_succ, List.getElem?_cons_zero, Option.some.injEq] at hl
  subst hl
  refine mkCtl _ _ c (ch := true) ?_ rfl ?_ (num_cjump_ok w l c)
  · by_cases h : w = 0#16 <;> simp [Ed.val, val, toInt_eq_zero, h] <;> edits
  · split <;> simp [weight, weight1]

theorem rCallRet_sound : RS rCallRet := by
  intro c ch ub hg hw
  simp only [rCallRet] at hg ⊢
  uncons c, a0, hg
  uncons c, a1, hg
  uncons c, a2, hg
  guards hg
  obtain ⟨rfl, rfl⟩ := hg
  obtain ⟨l, hl⟩ := jumpAt hw 0 rfl (by simp)
  simp only [List.getElem?_cons_succ, List.getElem?_cons_zero, Option.some.injEq] at hl
  subst hl
  exact mkCtl _ _ c (ch := true) (by edits) rfl (by simp [weight, weight1]) (call_ret_ok l c)

theorem rNotCjump_sound : RS rNotCjump := by
  intro c ch ub hg hw
  simp only [rNotCjump] at hg ⊢
  uncons c, a0, hg
  uncons c, a1, hg
  guards hg
  obtain ⟨rfl, rfl⟩ := hg
  obtain ⟨l, hl⟩ := jumpAt hw 1 rfl (by simp)
  rcases c with _ | ⟨a2, c⟩
  · simp at hl
  simp only [List.getElem?_cons_succ, List.getElem?_cons_zero, Option.some.injEq] at hl
  subst hl
  exact mkCtl _ _ c (ch := true) (by edits) rfl (by simp [weight, weight1]) (not_cjump_ok l c)

theorem rNotCnjump_sound : RS rNotCnjump := by
  intro c ch ub hg hw
  simp only [rNotCnjump] at hg ⊢
  uncons c, a0, hg
  uncons c, a1, hg
  guards hg
  obtain ⟨rfl, rfl⟩ := hg
  obtain ⟨l, hl⟩ := jumpAt hw 1 rfl (by simp)
  rcases c with _ | ⟨a2, c⟩
  · simp at hl
  simp only [List.getElem?_cons_succ, List.getElem?_cons_zero, Option.some.injEq] at hl
  subst hl
  exact mkCtl _ _ c (ch := true) (by edits) rfl (by simp [weight, weight1]) (not_cnjump_ok l c)

theorem rNotCret_sound : RS rNotCret := by
  intro c ch ub hg hw
  simp only [rNotCret] at hg ⊢
  uncons c, a0, hg
  uncons c, a1, hg
  guards hg
  obtain ⟨rfl, rfl⟩ := hg
  exact mkCtl _ _ c (ch := true) (by edits) rfl (by simp [weight, weight1]) (not_cret_ok c)

theorem rNotCnret_sound : RS rNotCnret := by
  intro c ch ub hg hw
  simp only [rNotCnret] at hg ⊢
  uncons c, a0, hg
  uncons c, a1, hg
  guards hg
  obtain ⟨rfl, rfl⟩ := hg
  exact mkCtl _ _ c (ch := true) (by edits) rfl (by simp [weight, weight1]) (not_cnret_ok c)

/-- If the label in the code is the target of the jump, then (no label being empty) the jump names it. -/
theorem wlbl_eq {l m : String} (h : lbl 0 [.label l] = wlbl 0 [.wordStr m]) : l = m ∨ l = "" := by
  simp only [lbl, wlbl, List.getElem?_cons_zero] at h
  split at h
  · exact .inl h
  · exact .inr h

/-- The empty label does not occur. -/
theorem RuleOK.of_empty {c c' : List Codew} (h : "" ∈ labels c) : RuleOK c c' := by
  have hn : ∀ pre, ¬ Wf (pre ++ c) := fun pre hg => absurd (by rw [labels_append]; simp [h]) hg.noEmpty
  exact ⟨fun pre hg => absurd hg (hn pre), fun pre hg => absurd hg.toWf (hn pre), fun pre hg => absurd hg.toWf (hn pre)⟩

theorem rCjumpJump_sound : RS rCjumpJump := by
  intro c ch ub hg hw
  simp only [rCjumpJump] at hg ⊢
  uncons c, a0, hg
  uncons c, a1, hg
  uncons c, a2, hg
  uncons c, a3, hg
  uncons c, a4, hg
  guards hg
  obtain ⟨⟨⟨rfl, rfl⟩, l, rfl⟩, hlb⟩ := hg
  obtain ⟨m, hl⟩ := jumpAt hw 0 rfl (by simp)
  obtain ⟨m', hl'⟩ := jumpAt hw 2 rfl (by simp)
  simp only [List.getElem?_cons_succ, List.getElem?_cons_zero, Option.some.injEq] at hl hl'
  subst hl hl'
  refine mkCtl [.tok .CJUMP, .wordStr m, .tok .JUMP, .wordStr m'] [.tok .CNJUMP, .wordStr m'] (.label l :: c) (ch := true) (by edits) rfl (by simp [weight, weight1]) ?_
  rcases wlbl_eq hlb with rfl | rfl
  · exact cjump_jump_ok l m' c
  · exact RuleOK.of_empty (by simp [labels])

theorem rCnjumpJump_sound : RS rCnjumpJump := by
  intro c ch ub hg hw
  simp only [rCnjumpJump] at hg ⊢
  uncons c, a0, hg
  uncons c, a1, hg
  uncons c, a2, hg
  uncons c, a3, hg
  uncons c, a4, hg
  guards hg
  obtain ⟨⟨⟨rfl, rfl⟩, l, rfl⟩, hlb⟩ := hg
  obtain ⟨m, hl⟩ := jumpAt hw 0 rfl (by simp)
  obtain ⟨m', hl'⟩ := jumpAt hw 2 rfl (by simp)
  simp only [List.getElem?_cons_succ, List.getElem?_cons_zero, Option.some.injEq] at hl hl'
  subst hl hl'
  refine mkCtl [.tok .CNJUMP, .wordStr m, .tok .JUMP, .wordStr m'] [.tok .CJUMP, .wordStr m'] (.label l :: c) (ch := true) (by edits) rfl (by simp [weight, weight1]) ?_
  rcases wlbl_eq hlb with rfl | rfl
  · exact cnjump_jump_ok l m' c
  · exact RuleOK.of_empty (by simp [labels])

theorem rCjumpRet_sound : RS rCjumpRet := by
  intro c ch ub hg hw
  simp only [rCjumpRet] at hg ⊢
  uncons c, a0, hg
  uncons c, a1, hg
  uncons c, a2, hg
  uncons c, a3, hg
  guards hg
  obtain ⟨⟨⟨rfl, rfl⟩, l, rfl⟩, hlb⟩ := hg
  obtain ⟨m, hl⟩ := jumpAt hw 0 rfl (by simp)
  simp only [List.getElem?_cons_succ, List.getElem?_cons_zero, Option.some.injEq] at hl
  subst hl
  refine mkCtl [.tok .CJUMP, .wordStr m, .tok .RET] [.tok .CNRET] (.label l :: c) (ch := true) (by edits) rfl (by simp [weight, weight1]) ?_
  rcases wlbl_eq hlb with rfl | rfl
  · exact cjump_ret_ok l c
  · exact RuleOK.of_empty (by simp [labels])

theorem rCnjumpRet_sound : RS rCnjumpRet := by
  intro c ch ub hg hw
  simp only [rCnjumpRet] at hg ⊢
  uncons c, a0, hg
  uncons c, a1, hg
  uncons c, a2, hg
  uncons c, a3, hg
  guards hg
  obtain ⟨⟨⟨rfl, rfl⟩, l, rfl⟩, hlb⟩ := hg
  obtain ⟨m, hl⟩ := jumpAt hw 0 rfl (by simp)
  simp only [List.getElem?_cons_succ, List.getElem?_cons_zero, Option.some.injEq] at hl
  subst hl
  refine mkCtl [.tok .CNJUMP, .wordStr m, .tok .RET] [.tok .CRET] (.label l :: c) (ch := true) (by edits) rfl (by simp [weight, weight1]) ?_
  rcases wlbl_eq hlb with rfl | rfl
  · exact cnjump_ret_ok l c
  · exact RuleOK.of_empty (by simp [labels])

theorem rJumpNext_sound : RS rJumpNext := by
  intro c ch ub hg hw
  simp only [rJumpNext] at hg ⊢
  uncons c, a0, hg
  uncons c, a1, hg
  uncons c, a2, hg
  guards hg
  obtain ⟨⟨rfl, l, rfl⟩, hlb⟩ := hg
  obtain ⟨m, hl⟩ := jumpAt hw 0 rfl (by simp)
  simp only [List.getElem?_cons_succ, List.getElem?_cons_zero, Option.some.injEq] at hl
  subst hl
  refine mkCtl [.tok .JUMP, .wordStr m] [] (.label l :: c) (ch := true) (by edits) rfl (by simp [weight, weight1]) ?_
  rcases wlbl_eq hlb with rfl | rfl
  · exact jump_next_ok l c
  · exact RuleOK.of_empty (by simp [labels])

theorem rDeadJump_sound : RS rDeadJump := by
  intro c ch ub hg hw
  simp only [rDeadJump] at hg ⊢
  uncons c, a0, hg
  simp only [Bool.and_eq_true, mtok_iff, List.getElem?_cons_zero, Option.some.injEq] at hg
  obtain ⟨rfl, hx⟩ := hg
  obtain ⟨m, hl⟩ := jumpAt hw 0 rfl (by simp)
  rcases c with _ | ⟨a1, c⟩
  · simp at hl
  simp only [List.getElem?_cons_succ, List.getElem?_cons_zero, Option.some.injEq] at hl
  subst hl
  rcases c with _ | ⟨x, c⟩
  · exact mkCtl [.tok .JUMP, .wordStr m] [.tok .JUMP, .wordStr m] [] (ch := ch) (by edits) rfl (by simp [weight, weight1]) (RuleOK.refl _)
  · exact mkCtl [.tok .JUMP, .wordStr m, x] [.tok .JUMP, .wordStr m] c (ch := true) (by edits) rfl (by simp [weight, weight1]; omega)
      (dead_jump_ok m x (by cases x <;> simp_all [mlabel, Codew.isLabel]) c)

theorem rDeadRet_sound : RS rDeadRet := by
  intro c ch ub hg hw
  simp only [rDeadRet] at hg ⊢
  rcases c with _ | ⟨a0, c⟩
  · simp [mtok_iff] at hg
  simp only [Bool.and_eq_true, mtok_iff, Bool.or_eq_true, List.getElem?_cons_zero, Option.some.injEq] at hg
  obtain ⟨ht, hx⟩ := hg
  rcases c with _ | ⟨x, c⟩
  · exact mkCtl [a0] [a0] [] (ch := ch) (by edits) rfl (by simp [weight, weight1]) (RuleOK.refl _)
  · have hxl : x.isLabel = false := by cases x <;> simp_all [mlabel, Codew.isLabel]
    rcases ht with rfl | rfl
    · exact mkCtl [.tok .RET, x] [.tok .RET] c (ch := true) (by edits) rfl (by simp [weight, weight1]) (dead_ret_ok x hxl c)
    · exact mkCtl [.tok .END, x] [.tok .END] c (ch := true) (by edits) rfl (by simp [weight, weight1]) (dead_end_ok x hxl c)

end FB
