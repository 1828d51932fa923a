import Verif.Parse.Moves

/-!
# Items in the code of the parser

Which items a move can add to the code. Auxiliary, models nothing.
-/

namespace FB.Parse

open Frame

/-- An item present in the code of any procedure or in the stack of saved variables. -/
def InCode (s : PS) (c : CW) : Prop := (∃ k code, (k, code) ∈ s.procs ∧ c ∈ code) ∨ c ∈ s.varStk

/-- The items that a move can add. -/
inductive NewItem (env : Env) (Gd : DCode → Prop) (s s' : PS) : CK → Prop
  | gram (d : DCode) : Gd d → NewItem env Gd s s' d.ck
  | plain (k : CK) : Plain env s k → NewItem env Gd s s' k
  | jump (j : Jump) (k : CK) : j ∈ s.jumps ∨ j ∈ s'.jumps →
      k = .label j.label ∨ k = .wordStr j.label ∨ k = .label (lblX j.label) ∨ k = .wordStr (lblX j.label) →
      NewItem env Gd s s' k
  | user (k : CK) : k = .label (labelPrefix ++ s.lastLabel) ∨ k = .wordStr (labelPrefix ++ s.lastLabel) →
      NewItem env Gd s s' k
  | newVar (name : Str) : lookup name s.vars = none → Ident name →
      s'.vars = assign name (256 * s.vars.length) s.vars → NewItem env Gd s s' (.varn name s.vars.length)
  | fill : NewItem env Gd s s' (.tok .END)

section
variable {env : Env} {Gd : DCode → Prop}

theorem mem_assign {α : Type} {k k1 : Str} {v v1 : α} {l : List (Str × α)} (h : (k1, v1) ∈ assign k v l) :
    (k1, v1) = (k, v) ∨ (k1, v1) ∈ l := by
  induction l with
  | nil => simpa [assign] using h
  | cons x l ih =>
    obtain ⟨k2, v2⟩ := x
    simp only [assign] at h
    split at h
    · next e =>
      subst e
      simp only [List.mem_cons] at h ⊢
      rcases h with h | h
      · exact .inl h
      · exact .inr (.inr h)
    · simp only [List.mem_cons] at h ⊢
      rcases h with h | h
      · exact .inr (.inl h)
      · exact (ih h).imp id .inr

theorem mem_of_lookup {α : Type} {k : Str} {v : α} {l : List (Str × α)} (h : lookup k l = some v) : (k, v) ∈ l := by
  induction l with
  | nil => simp [lookup] at h
  | cons x l ih =>
    obtain ⟨k2, v2⟩ := x
    simp only [lookup] at h
    split at h
    · next e => cases h; subst e; simp
    · exact List.mem_cons_of_mem _ (ih h)

theorem inCode_code {s : PS} {c : CW} (h : c ∈ s.code) : InCode s c := by
  unfold PS.code at h
  cases hl : lookup s.curProc s.procs with
  | none => rw [hl] at h; simp at h
  | some v => rw [hl] at h; exact .inl ⟨_, v, mem_of_lookup hl, by simpa using h⟩

theorem inCode_setCode {s : PS} {cs : List CW} {c : CW} (h : InCode (s.setCode cs) c) : c ∈ cs ∨ InCode s c := by
  rcases h with ⟨k, code, hm, hc⟩ | h
  · rcases mem_assign hm with e | hm'
    · cases e; exact .inl hc
    · exact .inr (.inl ⟨k, code, hm', hc⟩)
  · exact .inr (.inr h)

theorem inCode_emit {s : PS} {k : CK} {c : CW} (h : InCode (s.emit k) c) : c = ⟨k, s.linenum⟩ ∨ InCode s c := by
  rcases inCode_setCode h with h | h
  · simp only [List.mem_cons] at h
    exact h.imp id inCode_code
  · exact .inr h

theorem inCode_congr {s s' : PS} (h1 : s'.procs = s.procs) (h2 : s'.varStk = s.varStk) {c : CW} (h : InCode s' c) :
    InCode s c := by
  unfold InCode at h ⊢
  rwa [h1, h2] at h

theorem inCode_pushProc {s : PS} {l : Str} {c : CW} (h : InCode (s.pushProc l) c) : InCode s c := by
  rcases h with ⟨k, code, hm, hc⟩ | h
  · unfold PS.pushProc at hm
    dsimp only at hm
    split at hm
    · exact .inl ⟨k, code, hm, hc⟩
    · rcases mem_assign hm with e | hm'
      · cases e; simp at hc
      · exact .inl ⟨k, code, hm', hc⟩
  · exact .inr h

theorem inCode_pushLoop {s : PS} {t : LT} {c : CW} (h : InCode (s.pushLoop t).2 c) : InCode s c :=
  inCode_congr (by simp) (by simp) h

theorem inCode_popJ {s : PS} {js : List Jump} {c : CW} (h : InCode (popJ s js) c) : InCode s c := h

theorem pushLoop_jumps (s : PS) (t : LT) : (s.pushLoop t).2.jumps = ⟨t, (s.pushLoop t).1, s.linenum⟩ :: s.jumps := by
  unfold PS.pushLoop
  dsimp only
  split <;> rfl

theorem mem_resize {c : CW} {cs : List CW} {n : Nat} (h : c ∈ PS.resize cs n) : c ∈ cs ∨ c = ⟨.tok .END, 0⟩ := by
  unfold PS.resize at h
  split at h
  · exact .inl (List.mem_of_mem_drop h)
  · simp only [List.mem_append, List.mem_replicate] at h
    rcases h with h | h
    · exact .inr h.2
    · exact .inl h

/-- Items of the code after a move were there or are new; then they have the current line number (or 0). -/
theorem Move.items {s s' : PS} (m : Move env Gd s s') {c : CW} (h : InCode s' c) :
    InCode s c ∨ (NewItem env Gd s s' c.k ∧ (c.lnum = s.linenum ∨ c.lnum = 0)) := by
  cases m with
  | same hs => exact .inl (inCode_congr hs.procs hs.varStk h)
  | gram hd =>
    rcases inCode_emit h with rfl | h
    · exact .inr ⟨.gram _ hd, .inl rfl⟩
    · exact .inl h
  | plain hp =>
    rcases inCode_emit h with rfl | h
    · exact .inr ⟨.plain _ hp, .inl rfl⟩
    · exact .inl h
  | @exit j hj =>
    have hmem : ∀ js : List Jump, exitSearch js = some (some j) → j ∈ js := by
      intro js
      induction js with
      | nil => intro h; simp [exitSearch] at h
      | cons x js ih =>
        intro h
        unfold exitSearch at h
        split at h
        · exact List.mem_cons_of_mem _ (ih h)
        · split at h
          · simp at h
          · simp at h; subst h; simp
    rcases inCode_emit h with rfl | h
    · exact .inr ⟨.jump j _ (.inl (hmem _ hj)) (.inr (.inr (.inr rfl))), .inl rfl⟩
    · exact .inl h
  | drop hc =>
    rcases inCode_setCode h with h | h
    · exact .inl (inCode_code (by rw [hc]; simp [h]))
    · exact .inl h
  | restore n =>
    rcases inCode_setCode h with h | h
    · rcases mem_resize h with h | rfl
      · exact .inl (inCode_code h)
      · exact .inr ⟨.fill, .inr rfl⟩
    · exact .inl h
  | @pushVar c0 cs hc =>
    rcases h with ⟨k, code, hm, hcm⟩ | h
    · have h' : InCode (s.setCode cs) c := .inl ⟨k, code, hm, hcm⟩
      rcases inCode_setCode h' with h | h
      · exact .inl (inCode_code (by rw [hc]; simp [h]))
      · exact .inl h
    · simp only [List.mem_cons] at h
      rcases h with rfl | h
      · exact .inl (inCode_code (by rw [hc]; simp))
      · exact .inl (.inr h)
  | @popVar c0 cs hc =>
    rcases h with ⟨k, code, hm, hcm⟩ | h
    · have h' : InCode (s.setCode (c0 :: s.code)) c := .inl ⟨k, code, hm, hcm⟩
      rcases inCode_setCode h' with h | h
      · simp only [List.mem_cons] at h
        rcases h with rfl | h
        · exact .inl (.inr (by rw [hc]; simp))
        · exact .inl (inCode_code h)
      · exact .inl h
    · exact .inl (.inr (by rw [hc]; simp [h]))
  | @openLabel t ht =>
    rcases inCode_emit h with rfl | h
    · refine .inr ⟨.jump ⟨t, (s.pushLoop t).1, s.linenum⟩ _ (.inr ?_) (.inl rfl), .inl (by simp)⟩
      simp [pushLoop_jumps]
    · exact .inl (inCode_pushLoop h)
  | @openRef t ht =>
    rcases inCode_emit h with rfl | h
    · refine .inr ⟨.jump ⟨t, (s.pushLoop t).1, s.linenum⟩ _ (.inr ?_) (.inr (.inl rfl)), .inl (by simp)⟩
      simp [pushLoop_jumps]
    · exact .inl (inCode_pushLoop h)
  | openPlain ht => exact .inl (inCode_pushLoop h)
  | openProc hc =>
    rcases inCode_setCode (inCode_pushProc h) with h | h
    · exact .inl (inCode_code (by rw [hc]; simp [h]))
    · exact .inl (inCode_pushLoop h)
  | dropJump hj ht => exact .inl (inCode_popJ h)
  | @closeLoop j js hj ht =>
    rcases inCode_emit h with rfl | h
    · exact .inr ⟨.jump j _ (.inl (by simp [hj])) (.inr (.inr (.inl rfl))), .inl (by simp [popJ])⟩
    · rcases inCode_emit h with rfl | h
      · exact .inr ⟨.jump j _ (.inl (by simp [hj])) (.inr (.inl rfl)), .inl rfl⟩
      · exact .inl (inCode_popJ h)
  | @closeWhile j1 j2 js hj h1 h2 =>
    rcases inCode_emit h with rfl | h
    · exact .inr ⟨.jump j2 _ (.inl (by simp [hj])) (.inr (.inr (.inl rfl))), .inl (by simp [popJ])⟩
    · rcases inCode_emit h with rfl | h
      · exact .inr ⟨.jump j1 _ (.inl (by simp [hj])) (.inl rfl), .inl (by simp [popJ])⟩
      · rcases inCode_emit h with rfl | h
        · exact .inr ⟨.jump j2 _ (.inl (by simp [hj])) (.inr (.inl rfl)), .inl rfl⟩
        · exact .inl (inCode_popJ h)
  | @closeFor j1 j2 js c0 cs hj h1 h2 hc =>
    rcases inCode_emit h with rfl | h
    · exact .inr ⟨.jump j2 _ (.inl (by simp [hj])) (.inr (.inr (.inl rfl))), .inl (by simp [popJ])⟩
    · rcases inCode_emit h with rfl | h
      · exact .inr ⟨.jump j1 _ (.inl (by simp [hj])) (.inl rfl), .inl (by simp [popJ])⟩
      · rcases inCode_emit h with rfl | h
        · exact .inr ⟨.jump j2 _ (.inl (by simp [hj])) (.inr (.inl rfl)), .inl (by simp [popJ])⟩
        · rcases inCode_setCode h with h | h
          · exact .inl (inCode_code (by rw [hc]; simp [h]))
          · exact .inl (inCode_popJ h)
  | @closeIf j js hj ht =>
    rcases inCode_emit h with rfl | h
    · exact .inr ⟨.jump j _ (.inl (by simp [hj])) (.inl rfl), .inl rfl⟩
    · exact .inl (inCode_popJ h)
  | @elseIf j js c0 cs n t hj ht hc hn hl =>
    rcases inCode_emit h with rfl | h
    · exact .inr ⟨.jump j _ (.inl (by simp [hj])) (.inl rfl), .inl (by simp [popJ])⟩
    · rcases inCode_emit h with rfl | h
      · refine .inr ⟨.jump ⟨t, (((popJ s js).setCode cs).pushLoop t).1, ((popJ s js).setCode cs).linenum⟩ _ (.inr ?_)
          (.inr (.inl rfl)), .inl (by simp [popJ])⟩
        simp [pushLoop_jumps]
      · rcases inCode_setCode (inCode_pushLoop h) with h | h
        · exact .inl (inCode_code (by rw [hc]; simp [h]))
        · exact .inl (inCode_popJ h)
  | @closeProc2 j js hj ht =>
    rcases inCode_emit h with rfl | h
    · exact .inr ⟨.jump j _ (.inl (by simp [hj])) (.inr (.inr (.inl rfl))), .inl rfl⟩
    · exact .inl (inCode_popJ h)
  | closeProcData hj ht hp => exact .inl (inCode_congr rfl rfl h)
  | @newVar name hn hi =>
    rcases inCode_emit h with rfl | h
    · exact .inr ⟨.newVar name hn hi (by simp), .inl rfl⟩
    · exact .inl (inCode_congr rfl rfl h)
  | @setType c0 cs n hc hn =>
    have h' : InCode (s.setCode cs) c := inCode_congr rfl rfl h
    rcases inCode_setCode h' with h | h
    · exact .inl (inCode_code (by rw [hc]; simp [h]))
    · exact .inl h
  | touchLabel => exact .inl (inCode_congr rfl rfl h)
  | makeLabel => exact .inl (inCode_congr rfl rfl h)
  | @labelDef c0 cs hc hd =>
    rcases inCode_emit h with rfl | h
    · refine .inr ⟨.user _ (.inl rfl), .inl ?_⟩
      simp
    · have h' : InCode (((s.pushLoop .PROC_DATA).2.setCode cs).pushProc (s.pushLoop .PROC_DATA).1) c :=
        inCode_congr (by simp) (by simp) h
      rcases inCode_setCode (inCode_pushProc h') with h | h
      · exact .inl (inCode_code (by rw [hc]; simp [h]))
      · exact .inl (inCode_pushLoop h)
  | count => exact .inl (inCode_congr rfl rfl h)
  | exec he =>
    rcases inCode_emit h with rfl | h
    · exact .inr ⟨.user _ (.inr rfl), .inl rfl⟩
    · exact .inl (inCode_congr rfl rfl h)
  | procCheck => exact .inl (inCode_congr rfl rfl h)
  | @labelType c0 cs n t hc hn ht =>
    have h' : InCode (s.setCode cs) c := inCode_congr rfl rfl h
    rcases inCode_setCode h' with h | h
    · exact .inl (inCode_code (by rw [hc]; simp [h]))
    · exact .inl h
  | segment => exact .inl (inCode_congr rfl rfl h)

/-- Jumps after a move were there or are new. -/
theorem Move.jumps_mem {s s' : PS} (m : Move env Gd s s') {j : Jump} (h : j ∈ s'.jumps) :
    j ∈ s.jumps ∨ j.label = PS.jumpLabel (s.labelNum + 1) := by
  have hp : ∀ (x : PS) (t : LT), j ∈ (x.pushLoop t).2.jumps → j ∈ x.jumps ∨ j.label = PS.jumpLabel (x.labelNum + 1) := by
    intro x t h
    rw [pushLoop_jumps] at h
    simp only [List.mem_cons] at h
    rcases h with rfl | h
    · exact .inr (by simp [PS.pushLoop])
    · exact .inl h
  cases m with
  | same hs => exact .inl (hs.jumps ▸ h)
  | openLabel _ => exact hp _ _ (by simpa using h)
  | openRef _ => exact hp _ _ (by simpa using h)
  | openPlain _ => exact hp _ _ (by simpa using h)
  | openProc _ => exact hp _ _ (by simpa using h)
  | @labelDef c0 cs _ _ => exact hp s .PROC_DATA (by simpa using h)
  | dropJump hj _ => exact .inl (by rw [hj]; exact List.mem_cons_of_mem _ h)
  | closeLoop hj _ => left; rw [hj]; exact List.mem_cons_of_mem _ (by simpa [popJ] using h)
  | closeWhile hj _ _ =>
    left; rw [hj]; exact List.mem_cons_of_mem _ (List.mem_cons_of_mem _ (by simpa [popJ] using h))
  | closeFor hj _ _ _ =>
    left; rw [hj]; exact List.mem_cons_of_mem _ (List.mem_cons_of_mem _ (by simpa [popJ] using h))
  | closeIf hj _ => left; rw [hj]; exact List.mem_cons_of_mem _ (by simpa [popJ] using h)
  | @elseIf j0 js c0 cs n t hj _ _ _ _ =>
    rcases hp ((popJ s js).setCode cs) t (by simpa using h) with h | h
    · left; rw [hj]; exact List.mem_cons_of_mem _ (by simpa [popJ] using h)
    · right; simpa [popJ] using h
  | closeProc2 hj _ => left; rw [hj]; exact List.mem_cons_of_mem _ (by simpa [popJ] using h)
  | closeProcData hj _ _ => left; rw [hj]; exact List.mem_cons_of_mem _ h
  | _ => left; simpa using h

end

end FB.Parse
