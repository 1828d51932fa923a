import Verif.Passes
/-!
# Soundness of the global passes

`remove_unused_labels`, `replace_label_targets`, `trace_iochn`: each is first shown to compute a simple
function of the code, then that function is shown to preserve behaviour.
-/
namespace FB
open Peep

/-- Behaviour is preserved by a simulation that relates the start of the programs. -/
theorem refines_of_sim {P Q : List Codew} {S : W → List Codew → List Codew → Prop} (h0 : S 0 P Q)
    (hs : ∀ env, EnvOK env → ∀ c1 c2, CR S c1 c2 → SimStep env P Q (CR S) c1 c2) : Refines P Q := by
  intro env he m hsafe
  exact sim_behaves he (fun c1 c2 h => h.d.out) (hs env he) ⟨h0, .nil, LessDef.refl _, rfl⟩ hsafe

/-! ## `remove_unused_labels` -/

/-- Items that stay. -/
def keepItem (used : List String) : Codew → Bool
  | .label l => used.contains l
  | _ => true

theorem removeLoop (used : List String) : ∀ (c : List Codew) (acc : List Codew) (ch ub : Bool), ∃ ch',
    loop (removeLabelsBody used) () acc ⟨c, ch, ub⟩ = ⟨acc ++ c.filter (keepItem used), ch', ub⟩ := by
  intro c
  induction c with
  | nil => intro acc ch ub; exact ⟨ch, by rw [loop]; simp⟩
  | cons a c ih =>
    intro acc ch ub
    rw [loop]
    have h1 := weight1_pos a
    by_cases hk : keepItem used a = true
    · have hb : removeLabelsBody used () ⟨a :: c, ch, ub⟩ = ((), ⟨a :: c, ch, ub⟩, 1) := by
        unfold removeLabelsBody
        rw [if_neg]
        intro h
        cases a <;> simp_all [mlabel, lbl, keepItem]
      obtain ⟨ch', ih⟩ := ih (acc ++ [a]) ch ub
      refine ⟨ch', ?_⟩
      simp only [reduceCtorEq, if_false, hb, List.drop_succ_cons, List.drop_zero, weight_cons, List.take_succ_cons, List.take_zero]
      rw [dif_pos (by omega), ih]
      simp [hk]
    · have hb : removeLabelsBody used () ⟨a :: c, ch, ub⟩ = ((), ⟨c, true, ub⟩, 0) := by
        unfold removeLabelsBody
        rw [if_pos]
        · simp [Ed.del]
        · cases a <;> simp_all [mlabel, lbl, keepItem]
      obtain ⟨ch', ih⟩ := ih acc true ub
      refine ⟨ch', ?_⟩
      simp only [reduceCtorEq, if_false, hb, List.drop_zero, weight_cons, List.take_zero, List.append_nil]
      rw [dif_pos (by omega), ih]
      simp [hk]

theorem keep_data {used : List String} {a : Codew} (h : a.isData = true) : keepItem used a = true := by
  cases a <;> simp_all [keepItem, Codew.isData, Codew.isTok, Codew.isLabel]

theorem filter_data {used : List String} {ops : List Codew} (h : ∀ o ∈ ops, o.isData = true) : ops.filter (keepItem used) = ops := by
  simp only [List.filter_eq_self]
  exact fun a ha => keep_data (h a ha)

theorem findLabel_filter {used : List String} {l : String} (hl : l ∈ used) : ∀ {P k : List Codew}, findLabel l P = some k →
    findLabel l (P.filter (keepItem used)) = some (k.filter (keepItem used)) := by
  intro P
  induction P with
  | nil => intro k h; simp [findLabel] at h
  | cons a P ih =>
    intro k h
    simp only [findLabel] at h
    split at h
    · rename_i ha
      subst ha
      obtain rfl := Option.some.inj h
      have : keepItem used (.label l) = true := by simpa [keepItem] using hl
      simp [this, findLabel]
    · rename_i ha
      by_cases hk : keepItem used a = true
      · simp [hk, findLabel, ha, ih h]
      · simp [hk, ih h]

theorem mem_usedLabels {P : List Codew} {l : String} (h : Codew.wordStr l ∈ P) : l ∈ usedLabels P := by
  simp only [usedLabels, List.mem_filterMap]
  exact ⟨_, h, rfl⟩

theorem remove_refines {P : List Codew} (hg : Good P) : Refines P (P.filter (keepItem (usedLabels P))) := by
  refine refines_of_sim (S := fun _ a b => a <:+ P ∧ b = a.filter (keepItem (usedLabels P))) ⟨List.suffix_refl _, rfl⟩ ?_
  intro env he c1 c2 hr
  obtain ⟨h1, h2⟩ := hr.code
  match hc : c1.code with
  | [] => exact sim_wrong (by simp [step, hc])
  | .label l :: p =>
    rw [hc] at h1 h2
    by_cases hk : keepItem (usedLabels P) (.label l) = true
    · exact lock_label hr hc (by rw [h2]; simp [hk]; rfl) fun _ => ⟨suffix_tail h1, rfl⟩
    · by_cases hio : c1.d.iochn = 0
      · refine sim_stutter (n := 0) (c1' := { c1 with code := p }) ?_ ⟨⟨suffix_tail h1, ?_⟩, hr.rets, hr.d, hr.color⟩ (by simp [hc])
        · rw [runN_one]; simp [step, hc, hio]
        · rw [h2]; simp [hk]
      · exact sim_wrong (by simp only [step, hc]; exact if_neg hio)
  | .tok t :: p =>
    rw [hc] at h1 h2
    cases hs : splitOps (arity env t) p with
    | none => exact sim_wrong (by simp [step, hc, hs])
    | some q =>
      obtain ⟨ops, r⟩ := q
      have hpe := splitOps_eq hs
      have hd := splitOps_data hs
      have hsuf : r <:+ P := by
        subst hpe; exact (List.suffix_append ops r).trans (suffix_tail h1)
      have h2' : c2.code = .tok t :: (ops ++ r.filter (keepItem (usedLabels P))) := by
        rw [h2, hpe]; simp only [List.filter_cons, List.filter_append, filter_data hd]; rfl
      have hs2 : splitOps (arity env t) (ops ++ r.filter (keepItem (usedLabels P))) = some (ops, r.filter (keepItem (usedLabels P))) := by
        have := splitOps_of hd (r.filter (keepItem (usedLabels P)))
        rw [splitOps_length hs] at this
        exact this
      have hin : ∀ o ∈ ops, o ∈ P := fun o ho => h1.mem (by simp [hpe, ho])
      by_cases hct : isCtl t = true
      · refine lock_ctl hr hc h2' hs hs2 hct (fun _ => ⟨hsuf, rfl⟩) (fun _ => ⟨hsuf, rfl⟩) ?_
        rintro l rfl k1 hk1
        exact ⟨_, findLabel_filter (mem_usedLabels (hin _ (by simp))) hk1, findLabel_suffix hk1, rfl⟩
      · exact lock_data he hr hc h2' hs hs2 (by simpa using hct) (fun hm => hg.nocol (hin _ hm)) (fun _ _ => ⟨hsuf, rfl⟩)
  | .byte _ :: p | .byteStr _ :: p | .word _ :: p | .wordStr _ :: p | .varn _ _ :: p | .fp _ :: p | .str _ :: p =>
    exact sim_wrong (by simp [step, hc])

theorem labels_filter (used : List String) (P : List Codew) : (labels (P.filter (keepItem used))).Sublist (labels P) := by
  simp only [labels]
  exact (List.filter_sublist).filterMap _

theorem wf_filter (used : List String) : ∀ {P : List Codew}, wf P = true → wf (P.filter (keepItem used)) = true := by
  intro P
  induction P with
  | nil => intro _; rfl
  | cons a P ih =>
    intro h
    have ih := ih (wf_tail h)
    by_cases hk : keepItem used a = true
    · simp only [List.filter_cons, hk, if_true]
      cases a with
      | tok t =>
        simp only [wf, Bool.and_eq_true] at h ⊢
        refine ⟨?_, ih⟩
        have h1 := h.1
        simp only [headOK, Bool.or_eq_true] at h1 ⊢
        rcases h1 with h1 | h1
        · exact .inl h1
        · right
          cases P with
          | nil => simp at h1
          | cons o P => simp only at h1; simp [keep_data (opOK_data h1), h1]
      | _ => exact ih
    · simp only [List.filter_cons, hk]; exact ih

theorem Wf.remove {P : List Codew} (hg : Wf P) (used : List String) : Wf (P.filter (keepItem used)) :=
  have hs := labels_filter used P
  ⟨wf_filter used hg.ops, hg.nodup.sublist hs, fun hm => hg.noEmpty (hs.subset hm), fun hm => hg.noRet (hs.subset hm)⟩

theorem Good.remove {P : List Codew} (hg : Good P) (used : List String) : Good (P.filter (keepItem used)) := by
  have hs := labels_filter used P
  exact ⟨hg.toWf.remove used, fun hm => hg.nocol (List.mem_filter.1 hm).1⟩

/-- Labels are not added, and names that were defined stay defined (`E` are the names defined elsewhere). -/
def Refs (c c' : List Codew) : Prop :=
  (∀ l, l ∈ labels c' → l ∈ labels c) ∧
  ∀ E : String → Prop, (∀ l, Codew.wordStr l ∈ c → l ∈ labels c ∨ E l) → ∀ l, Codew.wordStr l ∈ c' → l ∈ labels c' ∨ E l

theorem Refs.trans {a b c : List Codew} (h1 : Refs a b) (h2 : Refs b c) : Refs a c :=
  ⟨fun l h => h1.1 l (h2.1 l h), fun E h => h2.2 E (h1.2 E h)⟩

theorem RefOK.refs {a b : List Codew} (h : RefOK a b) : Refs a b :=
  ⟨fun _ hl => h.1 ▸ hl, fun _ hE l hl => h.1 ▸ hE l (h.2 l hl)⟩

/-- What is shown of each pass. -/
def PassOK (f : Ed → Ed) : Prop := ∀ e, Good e.code → Refines e.code (f e).code ∧ Good (f e).code ∧ (f e).ub = e.ub ∧ Refs e.code (f e).code

theorem remove_refs (P : List Codew) : Refs P (P.filter (keepItem (usedLabels P))) := by
  refine ⟨fun l hl => (labels_filter _ P).subset hl, fun E h l hl => ?_⟩
  have hl' := (List.mem_filter.1 hl).1
  refine (h l hl').imp (fun hm => ?_) id
  simp only [labels, List.mem_filterMap] at hm ⊢
  obtain ⟨a, ha, hb⟩ := hm
  refine ⟨a, List.mem_filter.2 ⟨ha, ?_⟩, hb⟩
  cases a <;> simp_all [keepItem, mem_usedLabels]

theorem removeUnusedLabels_ok : PassOK removeUnusedLabels := by
  rintro ⟨c, ch, ub⟩ hg
  obtain ⟨ch', h⟩ := removeLoop (usedLabels c) c [] ch ub
  simp only [removeUnusedLabels, h]
  exact ⟨remove_refines hg, hg.remove _, trivial, remove_refs c⟩

/-! ## `replace_label_targets` -/

def isJump (t : Tok) : Bool := t == .JUMP || t == .CJUMP || t == .CNJUMP

/-- The return that replaces a jump. -/
def retTok : Tok → Tok
  | .JUMP => .RET
  | .CJUMP => .CRET
  | _ => .CNRET

/-- Every jump goes to its final target. -/
def threadJumps (tgt : List (String × String)) : List Codew → List Codew
  | .tok t :: .wordStr l :: r =>
      if isJump t && hasLbl l.toList then
        match lookup tgt l with
        | none => .tok t :: .wordStr l :: threadJumps tgt r
        | some t' => if t' = "__TOK_RET__" then .tok (retTok t) :: threadJumps tgt r
                     else .tok t :: .wordStr t' :: threadJumps tgt r
      else .tok t :: .wordStr l :: threadJumps tgt r
  | a :: r => a :: threadJumps tgt r
  | [] => []

theorem thread_skip {tgt a r} (h : a.isTok = false) : threadJumps tgt (a :: r) = a :: threadJumps tgt r := by
  cases a <;> first | rfl | simp [Codew.isTok] at h

theorem thread_data {tgt} {ops : List Codew} (h : ∀ o ∈ ops, o.isData = true) (r : List Codew) :
    threadJumps tgt (ops ++ r) = ops ++ threadJumps tgt r := by
  induction ops with
  | nil => rfl
  | cons a ops ih =>
    have h1 : a.isTok = false := by have := h a (by simp); cases a <;> simp_all [Codew.isData, Codew.isTok]
    simp [thread_skip h1, ih fun o ho => h o (by simp [ho])]

/-- Is there something to replace here? -/
def threadHere (tgt : List (String × String)) (t : Tok) (l t' : String) : Prop :=
  isJump t = true ∧ hasLbl l.toList = true ∧ lookup tgt l = some t'

theorem thread_tok {tgt t p} (h : ¬ ∃ l r t', p = .wordStr l :: r ∧ threadHere tgt t l t') :
    threadJumps tgt (.tok t :: p) = .tok t :: threadJumps tgt p := by
  rcases p with _ | ⟨a, r⟩
  · rfl
  · cases a with
    | wordStr l =>
      rw [threadJumps]
      split
      · rename_i hj
        simp only [Bool.and_eq_true] at hj
        cases hl : lookup tgt l with
        | none => rfl
        | some t' => exact absurd ⟨l, r, t', rfl, hj.1, hj.2, hl⟩ h
      · rfl
    | _ => rfl

theorem replace_noop {tgt a c ch ub} (h : ¬ ∃ t l r t', a = .tok t ∧ c = .wordStr l :: r ∧ threadHere tgt t l t') :
    replaceBody tgt () ⟨a :: c, ch, ub⟩ = ((), ⟨a :: c, ch, ub⟩, 1) := by
  unfold replaceBody
  simp only
  split
  · rename_i hg
    simp only [Bool.and_eq_true, Bool.or_eq_true, mtok_iff, mlblw_iff, List.getElem?_cons_zero, List.getElem?_cons_succ, Option.some.injEq] at hg
    obtain ⟨h1, l, h2, h3⟩ := hg
    obtain ⟨t, rfl, ht⟩ : ∃ t, a = .tok t ∧ isJump t = true := by
      rcases h1 with (rfl | rfl) | rfl <;> exact ⟨_, rfl, rfl⟩
    rcases c with _ | ⟨b, r⟩
    · simp at h2
    simp only [List.getElem?_cons_zero, Option.some.injEq] at h2
    subst h2
    have hw : wlbl 1 (.tok t :: .wordStr l :: r) = l := by simp [wlbl, h3]
    rw [hw]
    cases hl : lookup tgt l with
    | none => rfl
    | some t' => exact absurd ⟨t, l, r, t', rfl, rfl, ht, h3, hl⟩ h
  · rfl

theorem isJump_cases {t : Tok} (h : isJump t = true) : t = .JUMP ∨ t = .CJUMP ∨ t = .CNJUMP := by
  simpa [isJump, or_assoc] using h

theorem replace_here {tgt t l r t' ch ub} (h : threadHere tgt t l t') : ∃ ch',
    replaceBody tgt () ⟨.tok t :: .wordStr l :: r, ch, ub⟩ =
      if t' = "__TOK_RET__" then ((), ⟨.tok (retTok t) :: r, ch', ub⟩, 1) else ((), ⟨.tok t :: .wordStr t' :: r, ch', ub⟩, 1) := by
  obtain ⟨h1, h2, h3⟩ := h
  have hw : wlbl 1 (.tok t :: .wordStr l :: r) = l := by simp [wlbl, h2]
  have hm : mlblw 1 (.tok t :: .wordStr l :: r) = true := by simp [mlblw, h2]
  unfold replaceBody
  simp only [hw, hm, h3]
  by_cases hr : t' = "__TOK_RET__"
  · refine ⟨true, ?_⟩
    rcases isJump_cases h1 with rfl | rfl | rfl <;> simp [hr, mtok, Ed.setTok, Ed.set, Ed.del, retTok]
  · by_cases hl : l = t'
    · refine ⟨ch, ?_⟩
      subst hl
      rcases isJump_cases h1 with rfl | rfl | rfl <;> simp [hr, mtok]
    · refine ⟨true, ?_⟩
      rcases isJump_cases h1 with rfl | rfl | rfl <;> simp [hr, hl, mtok, Ed.setWs, Ed.set]

theorem loop_adv {σ : Type} {body : σ → Ed → σ × Ed × Nat} {s s' acc a c ch ub a' c' ch' ub'}
    (h : body s ⟨a :: c, ch, ub⟩ = (s', ⟨a' :: c', ch', ub'⟩, 1)) (hw : weight c' < weight (a :: c)) :
    loop body s acc ⟨a :: c, ch, ub⟩ = loop body s' (acc ++ [a']) ⟨c', ch', ub'⟩ := by
  rw [loop]
  simp only [reduceCtorEq, if_false, h, List.drop_succ_cons, List.drop_zero, List.take_succ_cons, List.take_zero]
  rw [dif_pos hw]

theorem replaceLoop (tgt : List (String × String)) : ∀ (n : Nat) (c : List Codew), c.length ≤ n → ∀ (acc : List Codew) (ch ub : Bool), ∃ ch',
    loop (replaceBody tgt) () acc ⟨c, ch, ub⟩ = ⟨acc ++ threadJumps tgt c, ch', ub⟩ := by
  intro n
  induction n with
  | zero =>
    intro c hc acc ch ub
    obtain rfl : c = [] := by simpa using hc
    exact ⟨ch, by rw [loop]; simp [threadJumps]⟩
  | succ n ih =>
    intro c hc acc ch ub
    rcases c with _ | ⟨a, c⟩
    · exact ⟨ch, by rw [loop]; simp [threadJumps]⟩
    have hw : weight c < weight (a :: c) := by have := weight1_pos a; rw [weight_cons]; omega
    by_cases h : ∃ t l r t', a = .tok t ∧ c = .wordStr l :: r ∧ threadHere tgt t l t'
    · obtain ⟨t, l, r, t', rfl, rfl, hh⟩ := h
      obtain ⟨ch1, hb⟩ := replace_here (r := r) (ch := ch) (ub := ub) hh
      have hlen : r.length ≤ n := by simp at hc; omega
      simp only [threadJumps, hh.1, hh.2.1, hh.2.2, Bool.and_self, if_true]
      by_cases hr : t' = "__TOK_RET__"
      · simp only [hr, if_true] at hb ⊢
        obtain ⟨ch', ih⟩ := ih r hlen (acc ++ [.tok (retTok t)]) ch1 ub
        refine ⟨ch', ?_⟩
        rw [loop_adv hb (by simp only [weight_cons, weight1] at *; omega), ih]
        simp
      · simp only [hr, if_false] at hb ⊢
        have hn : replaceBody tgt () ⟨.wordStr t' :: r, ch1, ub⟩ = ((), ⟨.wordStr t' :: r, ch1, ub⟩, 1) :=
          replace_noop (by rintro ⟨_, _, _, _, h, _⟩; simp at h)
        obtain ⟨ch', ih⟩ := ih r hlen (acc ++ [.tok t] ++ [.wordStr t']) ch1 ub
        refine ⟨ch', ?_⟩
        rw [loop_adv hb (by simp only [weight_cons, weight1] at *; omega),
          loop_adv hn (by simp only [weight_cons, weight1] at *; omega), ih]
        simp
    · obtain ⟨ch', ih⟩ := ih c (by simpa using hc) (acc ++ [a]) ch ub
      refine ⟨ch', ?_⟩
      rw [loop_adv (replace_noop h) hw, ih]
      have : threadJumps tgt (a :: c) = a :: threadJumps tgt c := by
        cases a with
        | tok t => exact thread_tok fun ⟨l, r, t', h1, h2⟩ => h ⟨t, l, r, t', rfl, h1, h2⟩
        | _ => rfl
      simp [this]

theorem thread_ind {motive : List Codew → Prop} (case1 : ∀ t l r, motive r → motive (.tok t :: .wordStr l :: r))
    (case2 : ∀ a r, (∀ t l r', a = .tok t → r = .wordStr l :: r' → False) → motive r → motive (a :: r))
    (case3 : motive []) : ∀ c, motive c
  | [] => case3
  | [a] => case2 a [] (by simp) case3
  | a :: b :: r => by
    by_cases h : ∃ t l, a = .tok t ∧ b = .wordStr l
    · obtain ⟨t, l, rfl, rfl⟩ := h
      exact case1 t l r (thread_ind case1 case2 case3 r)
    · exact case2 a (b :: r) (fun t l r' h1 h2 => h ⟨t, l, h1, (List.cons.inj h2).1⟩) (thread_ind case1 case2 case3 (b :: r))

theorem labels_thread (tgt : List (String × String)) (c : List Codew) : labels (threadJumps tgt c) = labels c := by
  induction c using thread_ind with
  | case1 t l r ih => 
    rw [threadJumps]
    have : ∀ x t, labels (.tok t :: x) = labels x := fun _ _ => rfl
    have : ∀ x l, labels (.wordStr l :: x) = labels x := fun _ _ => rfl
    (repeat' split) <;> simp_all
  | case2 a r h ih =>
    rw [threadJumps]
    · cases a <;> simp_all [labels]
    · exact h
  | case3 => rfl

theorem wf_thread (tgt : List (String × String)) (c : List Codew) (h : wf c = true) : wf (threadJumps tgt c) = true := by
  induction c using thread_ind with
  | case1 t l r ih => 
    have ih := ih (wf_tail (wf_tail h))
    simp only [wf, Bool.and_eq_true] at h
    rw [threadJumps]
    split
    · rename_i hj
      simp only [Bool.and_eq_true] at hj
      rcases isJump_cases hj.1 with rfl | rfl | rfl <;> (repeat' split) <;>
        simp_all [wf, headOK, takesOp, opOK, retTok]
    · simp only [wf, Bool.and_eq_true]
      refine ⟨?_, ih⟩
      have h1 := h.1
      simp only [headOK] at h1 ⊢
      exact h1
  | case2 a r hh ih =>
    rw [threadJumps]
    · have ih := ih (wf_tail h)
      cases a with
      | tok t =>
        simp only [wf, Bool.and_eq_true] at h ⊢
        refine ⟨?_, ih⟩
        have h1 := h.1
        simp only [headOK, Bool.or_eq_true] at h1 ⊢
        rcases h1 with h1 | h1
        · exact .inl h1
        · right
          cases r with
          | nil => simp at h1
          | cons o r => 
            simp only at h1
            have : o.isTok = false := by have := opOK_data h1; cases o <;> simp_all [Codew.isData, Codew.isTok]
            rw [thread_skip this]
            exact h1
      | _ => exact ih
    · exact hh
  | case3 => rfl

theorem mem_thread (tgt : List (String × String)) (s : String) (c : List Codew) (h : Codew.byteStr s ∈ threadJumps tgt c) : Codew.byteStr s ∈ c := by
  induction c using thread_ind with
  | case1 t l r ih => 
    rw [threadJumps] at h
    have : ∀ x t, Codew.byteStr s ∈ Codew.tok t :: x ↔ Codew.byteStr s ∈ x := fun _ _ => by simp
    have : ∀ x t, Codew.byteStr s ∈ Codew.wordStr t :: x ↔ Codew.byteStr s ∈ x := fun _ _ => by simp
    (repeat' split at h) <;> simp_all
  | case2 a r hh ih =>
    rw [threadJumps] at h
    · simp only [List.mem_cons] at h ⊢
      exact h.imp id ih
    · exact hh
  | case3 => exact h

theorem Wf.thread {P : List Codew} (hg : Wf P) (tgt : List (String × String)) : Wf (threadJumps tgt P) :=
  have hl := labels_thread tgt P
  ⟨wf_thread tgt P hg.ops, hl ▸ hg.nodup, hl ▸ hg.noEmpty, hl ▸ hg.noRet⟩

theorem Good.thread {P : List Codew} (hg : Good P) (tgt : List (String × String)) : Good (threadJumps tgt P) :=
  ⟨hg.toWf.thread tgt, fun h => hg.nocol (mem_thread _ _ _ h)⟩

theorem findLabel_thread (tgt : List (String × String)) {l : String} (P : List Codew) : ∀ {k}, findLabel l P = some k →
    findLabel l (threadJumps tgt P) = some (threadJumps tgt k) := by
  induction P using thread_ind with
  | case1 t l' r ih => 
    intro k h
    have h : findLabel l r = some k := by simpa [findLabel] using h
    have ih := ih h
    rw [threadJumps]
    (repeat' split) <;> simp [findLabel, ih]
  | case2 a r hh ih =>
    intro k h
    simp only [findLabel] at h
    rw [threadJumps]
    · split at h
      · rename_i ha
        subst ha
        obtain rfl := Option.some.inj h
        simp [findLabel, threadJumps]
      · rename_i ha
        simp [findLabel, ha, ih h]
    · exact hh
  | case3 => intro k h; simp [findLabel] at h

/-! The targets. -/

theorem targetOf_spec : ∀ (c : List Codew) (acc : Option String) (t : String), targetOf acc c = some t →
    ∃ (ls : List String) (r : List Codew), c = ls.map Codew.label ++ r ∧
      ((t = "__TOK_RET__" ∧ ∃ q, r = .tok .RET :: q) ∨ (hasLbl t.toList = true ∧ ∃ q, r = .tok .JUMP :: .wordStr t :: q) ∨
       (acc = some t ∧ ls = []) ∨ ls.getLast? = some t) := by
  intro c
  induction c with
  | nil => 
    intro acc t h
    exact ⟨[], [], rfl, .inr (.inr (.inl ⟨by simpa [targetOf, mtok] using h, rfl⟩))⟩
  | cons a c ih =>
    intro acc t h
    by_cases hl : ∃ l, a = .label l
    · obtain ⟨l, rfl⟩ := hl
      rw [targetOf] at h
      obtain ⟨ls, r, h1, h2⟩ := ih _ _ h
      refine ⟨l :: ls, r, by simp [h1], ?_⟩
      rcases h2 with h2 | h2 | ⟨h2, rfl⟩ | h2
      · exact .inl h2
      · exact .inr (.inl h2)
      · simp at h2; subst h2; exact .inr (.inr (.inr rfl))
      · refine .inr (.inr (.inr ?_))
        rw [List.getLast?_cons]; simp [h2]
    · rw [targetOf] at h
      · refine ⟨[], a :: c, rfl, ?_⟩
        split at h
        · rename_i hm
          rw [mtok_iff] at hm
          simp only [List.getElem?_cons_zero, Option.some.injEq] at hm
          exact .inl ⟨by simpa using h.symm, c, by rw [hm]⟩
        · split at h
          · rename_i hm
            simp only [Bool.and_eq_true, mtok_iff, mlblw_iff, List.getElem?_cons_zero, Option.some.injEq, List.getElem?_cons_succ] at hm
            obtain ⟨rfl, l, h1, h2⟩ := hm
            rcases c with _ | ⟨b, q⟩
            · simp at h1
            simp only [List.getElem?_cons_zero, Option.some.injEq] at h1
            subst h1
            have hw : wlbl 1 (.tok .JUMP :: .wordStr l :: q) = l := by simp [wlbl, h2]
            rw [hw] at h
            simp only [Option.some.injEq] at h
            subst h
            exact .inr (.inl ⟨h2, q, rfl⟩)
          · exact .inr (.inr (.inl ⟨h, rfl⟩))
      · intro l r hh; simp only [List.cons.injEq] at hh; exact hl ⟨l, hh.1⟩

theorem lookup_mem {tgt : List (String × String)} {l t} (h : lookup tgt l = some t) : (l, t) ∈ tgt := by
  simp only [lookup, Option.map_eq_some_iff] at h
  obtain ⟨⟨a, b⟩, h1, h2⟩ := h
  have := List.find?_some h1
  simp at this h2
  subst this h2
  exact List.mem_of_find?_eq_some h1

theorem mem_targets : ∀ {P : List Codew} {l t}, (l, t) ∈ targets P → ∃ rest, .label l :: rest <:+ P ∧ targetOf none rest = some t := by
  intro P
  induction P with
  | nil => intro l t h; simp [targets] at h
  | cons a P ih =>
    intro l t h
    have base : (l, t) ∈ targets P → ∃ rest, .label l :: rest <:+ a :: P ∧ targetOf none rest = some t := fun h => by
      obtain ⟨rest, h1, h2⟩ := ih h
      exact ⟨rest, h1.trans (List.suffix_cons ..), h2⟩
    by_cases hl : ∃ l, a = .label l
    · obtain ⟨l', rfl⟩ := hl
      rw [targets] at h
      split at h
      · rename_i t' ht
        simp only [List.mem_append, List.mem_singleton, Prod.mk.injEq] at h
        rcases h with h | ⟨rfl, rfl⟩
        · exact base h
        · exact ⟨P, List.suffix_refl _, ht⟩
      · exact base h
    · rw [targets] at h
      · exact base h
      · intro l hh; exact hl ⟨l, hh⟩

theorem Good.findSuffix {P rest : List Codew} {l : String} (hg : Good P) (h : .label l :: rest <:+ P) :
    findLabel l P = some (.label l :: rest) := by
  obtain ⟨x, rfl⟩ := h
  have := Good.find (pre := x) (L := []) (l := l) (post := rest) (by simpa using hg)
  simpa using this

theorem thread_words (tgt : List (String × String)) (s : String) (c : List Codew) (h : Codew.wordStr s ∈ threadJumps tgt c) :
    Codew.wordStr s ∈ c ∨ ∃ l, lookup tgt l = some s ∧ s ≠ "__TOK_RET__" := by
  induction c using thread_ind with
  | case1 t l r ih =>
    rw [threadJumps] at h
    have h1 : ∀ x t, Codew.wordStr s ∈ Codew.tok t :: x ↔ Codew.wordStr s ∈ x := fun _ _ => by simp
    simp only [h1, List.mem_cons, Codew.wordStr.injEq] at ih ⊢
    have done : Codew.wordStr s ∈ threadJumps tgt r → (s = l ∨ Codew.wordStr s ∈ r) ∨ ∃ l, lookup tgt l = some s ∧ s ≠ "__TOK_RET__" :=
      fun h => (ih h).imp .inr id
    split at h
    · split at h
      · simp only [h1, List.mem_cons, Codew.wordStr.injEq] at h
        exact h.elim (fun h => .inl (.inl h)) done
      · rename_i t' ht
        split at h
        · rw [h1] at h; exact done h
        · rename_i hne
          simp only [h1, List.mem_cons, Codew.wordStr.injEq] at h
          exact h.elim (fun h => .inr ⟨l, h ▸ ht, h ▸ hne⟩) done
    · simp only [h1, List.mem_cons, Codew.wordStr.injEq] at h
      exact h.elim (fun h => .inl (.inl h)) done
  | case2 a r hh ih =>
    rw [threadJumps] at h
    · simp only [List.mem_cons] at h ⊢
      exact h.elim (fun h => .inl (.inl h)) fun h => (ih h).imp .inr id
    · exact hh
  | case3 => exact .inl h

theorem mem_labels {P : List Codew} {l : String} : l ∈ labels P ↔ Codew.label l ∈ P := by
  simp only [labels, List.mem_filterMap]
  constructor
  · rintro ⟨a, h1, h2⟩; cases a <;> simp_all
  · intro h; exact ⟨_, h, rfl⟩

theorem thread_refs (P : List Codew) : Refs P (threadJumps (targets P) P) := by
  refine ⟨fun l hl => labels_thread _ P ▸ hl, fun E h s hs => ?_⟩
  rw [labels_thread]
  rcases thread_words _ _ _ hs with hs | ⟨l, hl, hne⟩
  · exact h s hs
  · obtain ⟨rest, h1, h2⟩ := mem_targets (lookup_mem hl)
    obtain ⟨ls, r, rfl, h3⟩ := targetOf_spec _ _ _ h2
    rcases h3 with ⟨rfl, q, rfl⟩ | ⟨_, q, rfl⟩ | ⟨hn, _⟩ | hlast
    · exact absurd rfl hne
    · exact h s (h1.mem (by simp))
    · cases hn
    · left
      rw [mem_labels]
      refine h1.mem ?_
      have := List.mem_of_getLast? hlast
      simp [this]

theorem run_labels {env : Env} {P : List Codew} {r rs} {d : D} (hio : d.iochn = 0) (ls : List String) :
    runN env P ls.length ⟨ls.map Codew.label ++ r, rs, d⟩ = .run ⟨r, rs, d⟩ := by
  induction ls with
  | nil => rfl
  | cons l ls ih =>
    have : step env P ⟨(l :: ls).map Codew.label ++ r, rs, d⟩ = .run ⟨ls.map Codew.label ++ r, rs, d⟩ := by
      simp [step, hio]
    rw [List.length_cons, runN_succ_of_step this, ih]

theorem killAx_killAx (d : D) : d.killAx.killAx = d.killAx := rfl

/-- The relation used for `replace_label_targets`. -/
def TS (P : List Codew) (_ : W) (a b : List Codew) : Prop := a <:+ P ∧ b = threadJumps (targets P) a

/-- A jump and its threaded version. -/
theorem thread_jump {env : Env} {P : List Codew} (hg : Good P) {c1 c2 x1 x2 : Cfg} {l t : String} (hr : CR (TS P) c1 c2)
    (hx1 : x1.rets = c1.rets ∧ x1.d = c1.d) (hx2 : x2.rets = c2.rets ∧ x2.d = c2.d)
    (h1 : step env P c1 = goto P x1 l) (hl : lookup (targets P) l = some t)
    (h2 : step env (threadJumps (targets P) P) c2 = 
      if t = "__TOK_RET__" then doRet x2 else goto (threadJumps (targets P) P) x2 t) :
    SimStep env P (threadJumps (targets P) P) (CR (TS P)) c1 c2 := by
  obtain ⟨rest, hs, ht⟩ := mem_targets (lookup_mem hl)
  have hf := hg.findSuffix hs
  rcases x1 with ⟨xc1, xr1, xd1⟩
  rcases x2 with ⟨xc2, xr2, xd2⟩
  obtain ⟨rfl, rfl⟩ := hx1
  obtain ⟨rfl, rfl⟩ := hx2
  have h1' : step env P c1 = .run ⟨.label l :: rest, c1.rets, c1.d.killAx⟩ := by rw [h1]; simp [goto, hf]
  by_cases hio : c1.d.iochn = 0
  · obtain ⟨ls, r, hr1, hcase⟩ := targetOf_spec _ _ _ ht
    have run1 : ∀ n, runN env P (n + (ls.length + 1) + 1) c1 = runN env P n ⟨r, c1.rets, c1.d.killAx⟩ := by
      intro n
      have e : n + (ls.length + 1) = (ls.length + 1) + n := by omega
      have := run_labels (env := env) (P := P) (r := r) (rs := c1.rets) (d := c1.d.killAx) hio (l :: ls)
      rw [runN_succ_of_step h1', e]
      exact runN_add_run (by rw [hr1]; exact this)
    have hio2 : c2.d.iochn = 0 := by rw [← hr.d.iochn, hio]
    rcases hcase with ⟨rfl, q, rfl⟩ | ⟨hlb, q, rfl⟩ | ⟨hn, _⟩ | hlast
    · -- return
      simp only [if_true] at h2
      rcases run_ret (env := env) (P := P) hr.rets q c1.d.killAx hio with ⟨n, hn⟩ | ⟨n, k1, k2, r1', r2', hn, h3, h4, h5⟩
      · exact .inl ⟨n + (ls.length + 1) + 1, by rw [run1, hn]⟩
      · refine sim_run (m := 0) (n := (n + 1) + (ls.length + 1)) (c1' := ⟨k1, r1', c1.d.killAx⟩) (c2' := ⟨k2, r2', c2.d.killAx⟩) ?_ ?_ ⟨?_, h5, hr.d.killAx, hr.color⟩
        · rw [run1, hn]; rfl
        · rw [runN_one, h2]; simp [doRet, hio2, h3]
        · exact h4
    · -- another jump
      have htr : t ≠ "__TOK_RET__" := by
        rintro rfl
        exact absurd hlb (by decide)
      rw [if_neg htr] at h2
      have hj := step_jump (env := env) (P := P) (l := t) (r := q) (rs := c1.rets) (d := c1.d.killAx)
      cases hft : findLabel t P with
      | none =>
        exact .inl ⟨1 + (ls.length + 1) + 1, by rw [run1, runN_one, hj]; simp [goto, hft]⟩
      | some k =>
        refine sim_run (m := 0) (n := 1 + (ls.length + 1)) (c1' := ⟨k, c1.rets, c1.d.killAx⟩) (c2' := ⟨threadJumps (targets P) k, c2.rets, c2.d.killAx⟩) ?_ ?_ ⟨⟨findLabel_suffix hft, rfl⟩, hr.rets, hr.d.killAx, hr.color⟩
        · rw [run1, runN_one, hj]; simp [goto, hft, killAx_killAx]
        · rw [runN_one, h2]; simp [goto, findLabel_thread _ _ hft]
    · cases hn
    · -- the last of several labels
      obtain ⟨ls', rfl⟩ : ∃ ls', ls = ls' ++ [t] := by
        rw [List.getLast?_eq_some_iff] at hlast; exact hlast
      have hs' : .label t :: r <:+ P := by
        refine List.IsSuffix.trans ?_ hs
        rw [hr1]
        exact ⟨.label l :: ls'.map Codew.label, by simp⟩
      have hft := hg.findSuffix hs'
      have htr : t ≠ "__TOK_RET__" := by
        rintro rfl
        refine hg.noRet ?_
        simp only [labels, List.mem_filterMap]
        exact ⟨_, hs'.mem (List.mem_cons_self ..), rfl⟩
      rw [if_neg htr] at h2
      have run2 : runN env P (ls'.length + 1 + 1) c1 = .run ⟨.label t :: r, c1.rets, c1.d.killAx⟩ := by
        have := run_labels (env := env) (P := P) (r := .label t :: r) (rs := c1.rets) (d := c1.d.killAx) hio (l :: ls')
        rw [runN_succ_of_step h1', hr1]
        simpa using this
      refine sim_run (m := 0) (n := ls'.length + 1) (c2' := ⟨threadJumps (targets P) (.label t :: r), c2.rets, c2.d.killAx⟩) run2 ?_ ⟨⟨hs', rfl⟩, hr.rets, hr.d.killAx, hr.color⟩
      rw [runN_one, h2]; simp [goto, findLabel_thread _ _ hft]
  · refine .inl ⟨2, ?_⟩
    rw [runN_succ_of_step h1', runN_one]
    simp only [step]
    exact if_neg hio

theorem thread_refines {P : List Codew} (hg : Good P) : Refines P (threadJumps (targets P) P) := by
  refine refines_of_sim (S := TS P) ⟨List.suffix_refl _, rfl⟩ ?_
  intro env he c1 c2 hr
  obtain ⟨h1, h2⟩ := hr.code
  match hc : c1.code with
  | [] => exact sim_wrong (by simp [step, hc])
  | .label l :: p =>
    rw [hc] at h1 h2
    exact lock_label hr hc h2 fun _ => ⟨suffix_tail h1, rfl⟩
  | .tok t :: p =>
    rw [hc] at h1 h2
    by_cases hh : ∃ l r t', p = .wordStr l :: r ∧ threadHere (targets P) t l t'
    · obtain ⟨l, r, t', rfl, hj, hlb, hl⟩ := hh
      have h2' : c2.code = if t' = "__TOK_RET__" then .tok (retTok t) :: threadJumps (targets P) r
          else .tok t :: .wordStr t' :: threadJumps (targets P) r := by
        rw [h2, threadJumps]; simp [hj, hlb, hl]
      have hrs : r <:+ P := suffix_tail (suffix_tail h1)
      rcases c1 with ⟨k1, r1, d1⟩
      rcases c2 with ⟨k2, r2, d2⟩
      simp only at hc h2'
      subst hc
      have fall : CR (TS P) ⟨r, r1, d1.killAx⟩ ⟨threadJumps (targets P) r, r2, d2.killAx⟩ := ⟨⟨hrs, rfl⟩, hr.rets, hr.d.killAx, hr.color⟩
      have hbool : ∀ b, d1.axBool = some b → d2.axBool = some b := fun b => hr.d.axBool
      by_cases htr : t' = "__TOK_RET__"
      · simp only [htr, if_true] at h2'
        subst h2'
        subst htr
        rcases isJump_cases hj with rfl | rfl | rfl
        · refine thread_jump hg hr (x2 := ⟨_, r2, d2⟩) ⟨rfl, rfl⟩ ⟨rfl, rfl⟩ step_jump hl ?_
          simp only [if_true]; exact step_ret
        · cases hb : d1.axBool with
          | none => exact sim_wrong (step_cjump_n hb)
          | some b =>
            cases b
            · refine thread_jump hg hr (x2 := ⟨_, r2, d2⟩) ⟨rfl, rfl⟩ ⟨rfl, rfl⟩ (step_cjump_f hb) hl ?_
              simp only [if_true]; exact step_cret_f (hbool _ hb)
            · exact sim_step (step_cjump_t hb) (step_cret_t (hbool _ hb)) fall
        · cases hb : d1.axBool with
          | none => exact sim_wrong (step_cnjump_n hb)
          | some b =>
            cases b
            · exact sim_step (step_cnjump_f hb) (step_cnret_f (hbool _ hb)) fall
            · refine thread_jump hg hr (x2 := ⟨_, r2, d2⟩) ⟨rfl, rfl⟩ ⟨rfl, rfl⟩ (step_cnjump_t hb) hl ?_
              simp only [if_true]; exact step_cnret_t (hbool _ hb)
      · simp only [htr, if_false] at h2'
        subst h2'
        rcases isJump_cases hj with rfl | rfl | rfl
        · refine thread_jump hg hr (x2 := ⟨_, r2, d2⟩) ⟨rfl, rfl⟩ ⟨rfl, rfl⟩ step_jump hl ?_
          simp only [if_neg htr]; exact step_jump
        · cases hb : d1.axBool with
          | none => exact sim_wrong (step_cjump_n hb)
          | some b =>
            cases b
            · refine thread_jump hg hr (x2 := ⟨_, r2, d2⟩) ⟨rfl, rfl⟩ ⟨rfl, rfl⟩ (step_cjump_f hb) hl ?_
              simp only [if_neg htr]; exact step_cjump_f (hbool _ hb)
            · exact sim_step (step_cjump_t hb) (step_cjump_t (hbool _ hb)) fall
        · cases hb : d1.axBool with
          | none => exact sim_wrong (step_cnjump_n hb)
          | some b =>
            cases b
            · exact sim_step (step_cnjump_f hb) (step_cnjump_f (hbool _ hb)) fall
            · refine thread_jump hg hr (x2 := ⟨_, r2, d2⟩) ⟨rfl, rfl⟩ ⟨rfl, rfl⟩ (step_cnjump_t hb) hl ?_
              simp only [if_neg htr]; exact step_cnjump_t (hbool _ hb)
    · rw [thread_tok hh] at h2
      cases hs : splitOps (arity env t) p with
      | none => exact sim_wrong (by simp [step, hc, hs])
      | some q =>
        obtain ⟨ops, r⟩ := q
        have hpe := splitOps_eq hs
        have hd := splitOps_data hs
        have hsuf : r <:+ P := by
          subst hpe; exact (List.suffix_append ops r).trans (suffix_tail h1)
        have h2' : c2.code = .tok t :: (ops ++ threadJumps (targets P) r) := by
          rw [h2, hpe, thread_data hd]
        have hs2 : splitOps (arity env t) (ops ++ threadJumps (targets P) r) = some (ops, threadJumps (targets P) r) := by
          have := splitOps_of hd (threadJumps (targets P) r)
          rw [splitOps_length hs] at this
          exact this
        have hin : ∀ o ∈ ops, o ∈ P := fun o ho => h1.mem (by simp [hpe, ho])
        by_cases hct : isCtl t = true
        · refine lock_ctl hr hc h2' hs hs2 hct (fun _ => ⟨hsuf, rfl⟩) (fun _ => ⟨hsuf, rfl⟩) ?_
          rintro l rfl k1 hk1
          exact ⟨_, findLabel_thread _ _ hk1, findLabel_suffix hk1, rfl⟩
        · exact lock_data he hr hc h2' hs hs2 (by simpa using hct) (fun hm => hg.nocol (hin _ hm)) (fun _ _ => ⟨hsuf, rfl⟩)
  | .byte _ :: p | .byteStr _ :: p | .word _ :: p | .wordStr _ :: p | .varn _ _ :: p | .fp _ :: p | .str _ :: p =>
    exact sim_wrong (by simp [step, hc])

theorem replaceLabelTargets_ok : PassOK replaceLabelTargets := by
  rintro ⟨c, ch, ub⟩ hg
  obtain ⟨ch', h⟩ := replaceLoop (targets c) _ c (Nat.le_refl _) [] ch ub
  simp only [replaceLabelTargets, h]
  exact ⟨thread_refines hg, hg.thread _, trivial, thread_refs c⟩

/-! ## `trace_iochn` -/

/-- Selections of the channel that is already selected are removed; `io` is the channel known so far, or -1. -/
def traceCode (io : Int) : List Codew → List Codew
  | .label l :: r => .label l :: traceCode 0 r
  | .tok .CALL :: r => .tok .CALL :: traceCode 0 r
  | .tok .NUM :: .word w :: .tok .IOCHN :: r =>
      if io = w.toInt then traceCode io r else .tok .NUM :: .word w :: .tok .IOCHN :: traceCode w.toInt r
  | .tok .IOCHN :: r => .tok .IOCHN :: traceCode (-1) r
  | a :: r => a :: traceCode io r
  | [] => []

/-- The four kinds of positions. -/
inductive TC : List Codew → Prop
  | label l r : TC (.label l :: r)
  | call r : TC (.tok .CALL :: r)
  | num w r : TC (.tok .NUM :: .word w :: .tok .IOCHN :: r)
  | iochn r : TC (.tok .IOCHN :: r)

theorem trace_other {io a r} (h : ¬ TC (a :: r)) : traceCode io (a :: r) = a :: traceCode io r := by
  rw [traceCode]
  · rintro l rfl; exact h (.label ..)
  · rintro rfl; exact h (.call ..)
  · rintro w r' rfl rfl; exact h (.num ..)
  · rintro rfl; exact h (.iochn ..)

theorem trace_data {io} {ops : List Codew} (h : ∀ o ∈ ops, o.isData = true) (r : List Codew) :
    traceCode io (ops ++ r) = ops ++ traceCode io r := by
  induction ops with
  | nil => rfl
  | cons a ops ih =>
    have h1 : ¬ TC (a :: (ops ++ r)) := by
      have := h a (by simp)
      intro ht
      generalize he : a :: (ops ++ r) = c at ht
      cases ht <;> (simp only [List.cons.injEq] at he; obtain ⟨rfl, _⟩ := he; simp [Codew.isData, Codew.isTok, Codew.isLabel] at this)
    simp [trace_other h1, ih fun o ho => h o (by simp [ho])]

theorem trace_body_other {io a r ch ub} (h : ¬ TC (a :: r)) : traceIochnBody io ⟨a :: r, ch, ub⟩ = (io, ⟨a :: r, ch, ub⟩, 1) := by
  unfold traceIochnBody
  have h1 : mlabel 0 (a :: r) = false := by
    rw [Bool.eq_false_iff]; intro hm; rw [mlabel_iff] at hm; obtain ⟨w, hm⟩ := hm; simp at hm; subst hm; exact h (.label ..)
  have h2 : mtok 0 .CALL (a :: r) = false := by
    rw [Bool.eq_false_iff]; intro hm; rw [mtok_iff] at hm; simp at hm; subst hm; exact h (.call ..)
  have h3 : mtok 0 .IOCHN (a :: r) = false := by
    rw [Bool.eq_false_iff]; intro hm; rw [mtok_iff] at hm; simp at hm; subst hm; exact h (.iochn ..)
  have h4 : (mtok 0 .NUM (a :: r) && mword 1 (a :: r) && mtok 2 .IOCHN (a :: r)) = false := by
    rw [Bool.eq_false_iff]; intro hm
    simp only [Bool.and_eq_true, mtok_iff, mword_iff] at hm
    obtain ⟨⟨hm1, w, hm2⟩, hm3⟩ := hm
    simp only [List.getElem?_cons_zero, List.getElem?_cons_succ, Option.some.injEq] at hm1 hm2 hm3
    subst hm1
    rcases r with _ | ⟨b, _ | ⟨c, r⟩⟩
    · simp at hm2
    · simp at hm3
    · simp at hm2 hm3; subst hm2 hm3; exact h (.num ..)
  simp [h1, h2, h3, h4]

theorem traceLoop : ∀ (n : Nat) (c : List Codew), c.length ≤ n → ∀ (io : Int) (acc : List Codew) (ch ub : Bool), ∃ ch',
    loop traceIochnBody io acc ⟨c, ch, ub⟩ = ⟨acc ++ traceCode io c, ch', ub⟩ := by
  intro n
  induction n with
  | zero =>
    intro c hc io acc ch ub
    obtain rfl : c = [] := by simpa using hc
    exact ⟨ch, by rw [loop]; simp [traceCode]⟩
  | succ n ih =>
    intro c hc io acc ch ub
    rcases c with _ | ⟨a, c⟩
    · exact ⟨ch, by rw [loop]; simp [traceCode]⟩
    have hw : weight c < weight (a :: c) := by have := weight1_pos a; rw [weight_cons]; omega
    by_cases h : TC (a :: c)
    · generalize hac : a :: c = ac at h hc hw
      cases h with
      | label l r =>
        obtain ⟨rfl, rfl⟩ := List.cons.inj hac
        obtain ⟨ch', ih⟩ := ih c (by simpa using hc) 0 (acc ++ [.label l]) ch ub
        exact ⟨ch', by rw [loop_adv (s' := 0) rfl hw, ih]; simp [traceCode]⟩
      | call r =>
        obtain ⟨rfl, rfl⟩ := List.cons.inj hac
        obtain ⟨ch', ih⟩ := ih c (by simpa using hc) 0 (acc ++ [.tok .CALL]) ch ub
        exact ⟨ch', by rw [loop_adv (s' := 0) rfl hw, ih]; simp [traceCode]⟩
      | iochn r =>
        obtain ⟨rfl, rfl⟩ := List.cons.inj hac
        obtain ⟨ch', ih⟩ := ih c (by simpa using hc) (-1) (acc ++ [.tok .IOCHN]) ch ub
        exact ⟨ch', by rw [loop_adv (s' := -1) rfl hw, ih]; simp [traceCode]⟩
      | num w r =>
        obtain ⟨rfl, rfl⟩ := List.cons.inj hac
        have hlen : r.length ≤ n := by simp at hc; omega
        have hw' : weight r < weight (.tok .NUM :: .word w :: .tok .IOCHN :: r) := by simp only [weight_cons, weight1]; omega
        by_cases hio : io = w.toInt
        · have hb : traceIochnBody io ⟨.tok .NUM :: .word w :: .tok .IOCHN :: r, ch, ub⟩ = (io, ⟨r, true, ub⟩, 0) := by
            simp [traceIochnBody, mlabel, mtok, mword, val, Ed.del, hio]
          obtain ⟨ch', ih⟩ := ih r hlen io acc true ub
          refine ⟨ch', ?_⟩
          rw [loop]
          simp only [reduceCtorEq, if_false, hb, List.drop_zero, List.take_zero, List.append_nil]
          rw [dif_pos hw', ih]
          simp [traceCode, hio]
        · have hb : traceIochnBody io ⟨.tok .NUM :: .word w :: .tok .IOCHN :: r, ch, ub⟩ = (w.toInt, ⟨.tok .NUM :: .word w :: .tok .IOCHN :: r, ch, ub⟩, 3) := by
            simp [traceIochnBody, mlabel, mtok, mword, val, hio]
          obtain ⟨ch', ih⟩ := ih r hlen w.toInt (acc ++ [.tok .NUM, .word w, .tok .IOCHN]) ch ub
          refine ⟨ch', ?_⟩
          rw [loop]
          simp only [reduceCtorEq, if_false, hb, List.drop_succ_cons, List.drop_zero, List.take_succ_cons, List.take_zero]
          rw [dif_pos hw', ih]
          simp [traceCode, hio]
    · obtain ⟨ch', ih⟩ := ih c (by simpa using hc) io (acc ++ [a]) ch ub
      refine ⟨ch', ?_⟩
      rw [loop_adv (trace_body_other h) hw, ih]
      simp [trace_other h]

theorem trace_ind {motive : Int → List Codew → Prop} (nil : ∀ io, motive io []) (label : ∀ io l r, motive 0 r → motive io (.label l :: r))
    (call : ∀ io r, motive 0 r → motive io (.tok .CALL :: r))
    (num : ∀ io w r, (io = w.toInt → motive io r) → (io ≠ w.toInt → motive w.toInt r) → motive io (.tok .NUM :: .word w :: .tok .IOCHN :: r))
    (iochn : ∀ io r, motive (-1) r → motive io (.tok .IOCHN :: r))
    (other : ∀ io a r, ¬ TC (a :: r) → motive io r → motive io (a :: r)) : ∀ (n : Nat) (c : List Codew), c.length ≤ n → ∀ io, motive io c := by
  intro n
  induction n with
  | zero => intro c hc io; obtain rfl : c = [] := by simpa using hc
            exact nil io
  | succ n ih =>
    intro c hc io
    rcases c with _ | ⟨a, c⟩
    · exact nil io
    by_cases h : TC (a :: c)
    · generalize hac : a :: c = ac at h hc
      cases h with
      | label l r => exact label _ _ _ (ih r (by simpa using hc) _)
      | call r => exact call _ _ (ih r (by simpa using hc) _)
      | iochn r => exact iochn _ _ (ih r (by simpa using hc) _)
      | num w r => 
        have hlen : r.length ≤ n := by simp at hc; omega
        exact num _ _ _ (fun _ => ih r hlen _) (fun _ => ih r hlen _)
    · exact other _ _ _ h (ih c (by simpa using hc) _)

theorem labels_trace (c : List Codew) (io : Int) : labels (traceCode io c) = labels c := by
  refine trace_ind (motive := fun io c => labels (traceCode io c) = labels c) ?_ ?_ ?_ ?_ ?_ ?_ _ c (Nat.le_refl _) io
  · intro io; rfl
  · intro io l r h; simp only [traceCode, labels, List.filterMap_cons] at *; rw [h]
  · intro io r h; simp only [traceCode, labels, List.filterMap_cons] at *; rw [h]
  · intro io w r h1 h2; simp only [traceCode, labels, List.filterMap_cons] at *
    split
    · rename_i h; exact h1 h
    · rename_i h; simp only [List.filterMap_cons]; exact h2 h
  · intro io r h; simp only [traceCode, labels, List.filterMap_cons] at *; rw [h]
  · intro io a r ht h; rw [trace_other ht]; cases a <;> simp_all [labels]

theorem mem_trace (x : Codew) (c : List Codew) (io : Int) : x ∈ traceCode io c → x ∈ c := by
  refine trace_ind (motive := fun io c => x ∈ traceCode io c → x ∈ c) ?_ ?_ ?_ ?_ ?_ ?_ _ c (Nat.le_refl _) io
  · intro io h; exact h
  · intro io l r h; simp only [traceCode, List.mem_cons]; exact Or.imp id h
  · intro io r h; simp only [traceCode, List.mem_cons]; exact Or.imp id h
  · intro io w r h1 h2 h; simp only [traceCode] at h
    split at h
    · rename_i hio; simp [h1 hio h]
    · rename_i hio; simp only [List.mem_cons] at h ⊢
      exact Or.imp id (Or.imp id (Or.imp id (h2 hio))) h
  · intro io r h; simp only [traceCode, List.mem_cons]; exact Or.imp id h
  · intro io a r ht h; rw [trace_other ht]; simp only [List.mem_cons]; exact Or.imp id h

theorem wf_trace (c : List Codew) (io : Int) : wf c = true → wf (traceCode io c) = true := by
  refine trace_ind (motive := fun io c => wf c = true → wf (traceCode io c) = true) ?_ ?_ ?_ ?_ ?_ ?_ _ c (Nat.le_refl _) io
  · intro io h; rfl
  · intro io l r h hw; exact h hw
  · intro io r h hw
    obtain ⟨o, c', rfl, ho⟩ := op_here (t := .CALL) rfl hw
    have h1 := h (wf_tail hw)
    rw [show o :: c' = [o] ++ c' from rfl, trace_data (by simpa using opOK_data ho)] at h1
    simp only [traceCode]
    rw [show o :: c' = [o] ++ c' from rfl, trace_data (by simpa using opOK_data ho)]
    simp only [wf, headOK, takesOp, Bool.not_true, Bool.false_or, Bool.and_eq_true, List.cons_append, List.nil_append] at h1 ⊢
    exact ⟨ho, h1⟩
  · intro io w r h1 h2 hw
    have hw' := wf_tail (wf_tail (wf_tail hw))
    simp only [traceCode]
    split
    · rename_i hio; exact h1 hio hw'
    · rename_i hio; simpa [wf, headOK, takesOp, opOK] using h2 hio hw'
  · intro io r h hw
    simpa [traceCode, wf, headOK, takesOp] using h (wf_tail hw)
  · intro io a r ht h hw
    rw [trace_other ht]
    have h0 := h (wf_tail hw)
    cases a with
    | tok t =>
      by_cases htk : takesOp t = true
      · obtain ⟨o, c', rfl, ho⟩ := op_here htk hw
        rw [show o :: c' = [o] ++ c' from rfl, trace_data (by simpa using opOK_data ho)] at h0 ⊢
        simp only [wf, headOK, List.cons_append, List.nil_append, Bool.and_eq_true, Bool.or_eq_true] at h0 ⊢
        exact ⟨.inr ho, h0⟩
      · simp [wf, headOK, htk, h0]
    | _ => exact h0

theorem Wf.trace {P : List Codew} (hg : Wf P) (io : Int) : Wf (traceCode io P) :=
  have hl := labels_trace P io
  ⟨wf_trace P io hg.ops, hl ▸ hg.nodup, hl ▸ hg.noEmpty, hl ▸ hg.noRet⟩

theorem Good.trace {P : List Codew} (hg : Good P) (io : Int) : Good (traceCode io P) :=
  ⟨hg.toWf.trace io, fun h => hg.nocol (mem_trace _ _ _ h)⟩

theorem findLabel_trace {l : String} (P : List Codew) (io : Int) {k} : findLabel l P = some k → findLabel l (traceCode io P) = some (traceCode 0 k) := by
  refine trace_ind (motive := fun io P => findLabel l P = some k → findLabel l (traceCode io P) = some (traceCode 0 k)) ?_ ?_ ?_ ?_ ?_ ?_ _ P (Nat.le_refl _) io
  · intro io h; simp [findLabel] at h
  · intro io l' r ih h
    simp only [findLabel] at h
    split at h
    · rename_i ha
      obtain rfl := Option.some.inj h
      simp only [Codew.label.injEq] at ha
      subst ha
      simp [traceCode, findLabel]
    · rename_i ha
      simp only [traceCode, findLabel, ha, if_false]
      exact ih h
  · intro io r ih h
    simp [findLabel] at h
    simp [traceCode, findLabel, ih h]
  · intro io w r h1 h2 h
    simp [findLabel] at h
    simp only [traceCode]
    split
    · rename_i hio; exact h1 hio h
    · rename_i hio; simp [findLabel, h2 hio h]
  · intro io r ih h
    simp [findLabel] at h
    simp [traceCode, findLabel, ih h]
  · intro io a r ht ih h
    rw [trace_other ht]
    have : a ≠ .label l := by rintro rfl; exact ht (.label ..)
    simp only [findLabel, this, if_false] at h ⊢
    exact ih h

/-- The relation used for `trace_iochn`: the tracked channel is right, if known. -/
def IS (P : List Codew) (io : W) (a b : List Codew) : Prop :=
  a <:+ P ∧ ∃ k : Int, (k = -1 ∨ k = io.toInt) ∧ b = traceCode k a

theorem step_iochn {env : Env} {P r : List Codew} {rs} {d : D} {w : W} (h : w.toNat < 8) :
    step env P ⟨.tok .IOCHN :: r, rs, d.setAx w⟩ = .run ⟨r, rs, { d with iochn := w }.killAx⟩ := by
  simp [step, arity, takesOp, splitOps, isCtl, sem, D.axW, D.setAx, D.setVal, Val.toW, h, D.killAx]

theorem step_iochn_wrong {env : Env} {P r : List Codew} {rs} {d : D} {w : W} (h : ¬ w.toNat < 8) :
    step env P ⟨.tok .IOCHN :: r, rs, d.setAx w⟩ = .wrong := by
  simp [step, arity, takesOp, splitOps, isCtl, sem, D.axW, D.setAx, D.setVal, Val.toW, h]

theorem trace_refines {P : List Codew} (hg : Good P) : Refines P (traceCode 0 P) := by
  refine refines_of_sim (S := IS P) ⟨List.suffix_refl _, 0, .inr rfl, rfl⟩ ?_
  intro env he c1 c2 hr
  obtain ⟨h1, io, hio, h2⟩ := hr.code
  have main : ∀ (t : Tok) (p : List Codew) (k : Int), c1.code = .tok t :: p → c2.code = .tok t :: traceCode k p →
      .tok t :: p <:+ P → (∀ d' ops, sem env t ops c1.d = some d' → k = -1 ∨ k = d'.iochn.toInt) → 
      (t ≠ .CALL → k = -1 ∨ k = c1.d.iochn.toInt) → (t = .CALL → k = 0) →
      SimStep env P (traceCode 0 P) (CR (IS P)) c1 c2 := by
    intro t p k hc h2 h1 hk1 hk2 hk3
    cases hs : splitOps (arity env t) p with
    | none => exact sim_wrong (by simp [step, hc, hs])
    | some q =>
      obtain ⟨ops, r⟩ := q
      have hpe := splitOps_eq hs
      have hd := splitOps_data hs
      have hsuf : r <:+ P := by
        subst hpe; exact (List.suffix_append ops r).trans (suffix_tail h1)
      have h2' : c2.code = .tok t :: (ops ++ traceCode k r) := by
        rw [h2, hpe, trace_data hd]
      have hs2 : splitOps (arity env t) (ops ++ traceCode k r) = some (ops, traceCode k r) := by
        have := splitOps_of hd (traceCode k r)
        rw [splitOps_length hs] at this
        exact this
      have hin : ∀ o ∈ ops, o ∈ P := fun o ho => h1.mem (by simp [hpe, ho])
      by_cases hct : isCtl t = true
      · refine lock_ctl hr hc h2' hs hs2 hct (fun ht => ⟨hsuf, k, hk2 ht, rfl⟩) (fun ht => ⟨hsuf, k, .inr (by rw [hk3 ht]; rfl), rfl⟩) ?_
        rintro l rfl k1 hk1
        exact ⟨_, findLabel_trace _ _ hk1, findLabel_suffix hk1, 0, .inr rfl, rfl⟩
      · exact lock_data he hr hc h2' hs hs2 (by simpa using hct) (fun hm => hg.nocol (hin _ hm)) (fun d' hd' => ⟨hsuf, k, hk1 d' ops hd', rfl⟩)
  by_cases ht : TC c1.code
  · generalize hc : c1.code = cc at ht h1 h2
    cases ht with
    | label l r => exact lock_label hr hc h2 fun _ => ⟨suffix_tail h1, 0, .inr rfl, rfl⟩
    | call r =>
      exact main .CALL r 0 hc h2 h1 (fun d' ops h => by
        exfalso
        rcases ops with _ | ⟨o, ops⟩ <;> simp [sem, binop, unop] at h) (by simp) (fun _ => rfl)
    | iochn r => exact main .IOCHN r (-1) hc h2 h1 (fun _ _ _ => .inl rfl) (fun _ => .inl rfl) (by simp)
    | num w r =>
      rcases c1 with ⟨k1, r1, d1⟩
      rcases c2 with ⟨k2, r2, d2⟩
      simp only at hc h2
      subst hc h2
      have hsuf : r <:+ P := suffix_tail (suffix_tail (suffix_tail h1))
      have s1 := step_num (env := env) (P := P) (w := w) (r := .tok .IOCHN :: r) (rs := r1) (d := d1)
      by_cases hw : w.toNat < 8
      · by_cases he : io = w.toInt
        · have hwi : w = d1.iochn := by
            rcases hio with hio | hio
            · exfalso
              rw [hio, BitVec.toInt_eq_toNat_cond] at he
              split at he <;> omega
            · rw [he] at hio
              exact BitVec.eq_of_toInt_eq hio
          refine sim_stutter (n := 1) (c1' := ⟨r, r1, d1.killAx⟩) ?_ ⟨⟨hsuf, io, hio, ?_⟩, hr.rets, hr.d.killL, hr.color⟩ (by simp <;> omega)
          · rw [runN_succ_of_step s1, runN_one, step_iochn hw, hwi]
          · simp [traceCode, he]
        · have h2' : traceCode io (.tok .NUM :: .word w :: .tok .IOCHN :: r) = .tok .NUM :: .word w :: .tok .IOCHN :: traceCode w.toInt r := by
            simp [traceCode, he]
          have s2 := step_num (env := env) (P := traceCode 0 P) (w := w) (r := .tok .IOCHN :: traceCode w.toInt r) (rs := r2) (d := d2)
          rw [h2']
          refine sim_run (n := 1) (m := 1) (c1' := ⟨r, r1, { d1 with iochn := w }.killAx⟩) (c2' := ⟨traceCode w.toInt r, r2, { d2 with iochn := w }.killAx⟩) ?_ ?_
            ⟨⟨hsuf, _, .inr rfl, rfl⟩, hr.rets, ?_, hr.color⟩
          · rw [runN_succ_of_step s1, runN_one, step_iochn hw]
          · rw [runN_succ_of_step s2, runN_one, step_iochn hw]
          · have := hr.d
            exact ⟨.inl rfl, this.saddr, this.stk, this.mem, this.color, rfl, this.out⟩
      · exact .inl ⟨2, by rw [runN_succ_of_step s1, runN_one, step_iochn_wrong hw]⟩
  · match hc : c1.code with
    | [] => exact sim_wrong (by simp [step, hc])
    | .label l :: p => exact absurd (hc ▸ .label l p) ht
    | .tok t :: p =>
      rw [hc] at h1 h2 ht
      rw [trace_other ht] at h2
      refine main t p io hc h2 h1 ?_ (fun _ => hio) ?_
      · intro d' ops hd'
        rw [sem_iochn he hd' (by rintro rfl; exact ht (.iochn _))]
        exact hio
      · rintro rfl; exact absurd (.call p) ht
    | .byte _ :: p | .byteStr _ :: p | .word _ :: p | .wordStr _ :: p | .varn _ _ :: p | .fp _ :: p | .str _ :: p =>
      exact sim_wrong (by simp [step, hc])

theorem traceIochn_ok : PassOK traceIochn := by
  rintro ⟨c, ch, ub⟩ hg
  obtain ⟨ch', h⟩ := traceLoop _ c (Nat.le_refl _) 0 [] ch ub
  simp only [traceIochn, h]
  exact ⟨trace_refines hg, hg.trace _, trivial, RefOK.refs ⟨labels_trace _ _, fun l => mem_trace _ _ _⟩⟩

/-! ## The whole optimizer -/

theorem PassOK.comp {f g : Ed → Ed} (hf : PassOK f) (hg : PassOK g) : PassOK (fun e => g (f e)) := fun e he =>
  let x := hf e he
  let y := hg (f e) x.2.1
  ⟨x.1.trans y.1, y.2.1, y.2.2.1.trans x.2.2.1, x.2.2.2.trans y.2.2.2⟩

theorem loop_ok {σ : Type} {I : σ → Prop} {body : σ → Ed → σ × Ed × Nat} (hb : BodyOK I body) {s : σ} (hs : I s) :
    PassOK (loop body s []) := fun e he => by
  have := loop_sound hb s [] e hs (by simpa using he)
  simp only [List.nil_append] at this
  exact ⟨this.1, this.2.1, this.2.2.1, this.2.2.2.refs⟩

theorem round_ok : PassOK (round Fix.fixed) := by
  have h := ((removeUnusedLabels_ok.comp replaceLabelTargets_ok).comp traceIochn_ok).comp (loop_ok mainBody_ok (s := 0) rfl)
  intro e he
  exact h { e with changed := false } he

theorem prepare_ok : PassOK prepare :=
  (loop_ok expandPush_all.ok (s := ()) trivial).comp (loop_ok expandNumbers_all.ok (s := ()) trivial)

theorem finish_ok : PassOK finish :=
  (((loop_ok printChars_ok (s := 0) rfl).comp (loop_ok shortenNumbers_all.ok (s := ()) trivial)).comp
    (loop_ok foldPush_all.ok (s := ()) trivial)).comp (loop_ok foldSaddr_all.ok (s := ()) trivial)

theorem rounds_ok : ∀ fuel e e', rounds Fix.fixed fuel e = some e' → Good e.code →
    Refines e.code e'.code ∧ Good e'.code ∧ e'.ub = e.ub ∧ Refs e.code e'.code := by
  intro fuel
  induction fuel with
  | zero => intro e e' h; simp [rounds] at h
  | succ n ih =>
    intro e e' h hg
    have h1 := round_ok e hg
    simp only [rounds] at h
    split at h
    · have h2 := ih _ _ h h1.2.1
      exact ⟨h1.1.trans h2.1, h2.2.1, h2.2.2.1.trans h1.2.2.1, h1.2.2.2.trans h2.2.2.2⟩
    · obtain rfl := Option.some.inj h
      exact h1

/-- The whole optimizer preserves behaviour, keeps programs well formed, and makes no invalid access. -/
theorem optimizeEd_ok {fuel : Nat} {P : List Codew} {e : Ed} (h : optimizeEd Fix.fixed fuel P = some e) (hg : Good P) :
    Refines P e.code ∧ Good e.code ∧ e.ub = false ∧ Refs P e.code := by
  simp only [optimizeEd, Option.map_eq_some_iff] at h
  obtain ⟨e1, h1, rfl⟩ := h
  have a := prepare_ok ⟨P, false, false⟩ hg
  have b := rounds_ok _ _ _ h1 a.2.1
  have c := finish_ok e1 b.2.1
  exact ⟨(a.1.trans b.1).trans c.1, c.2.1, (c.2.2.1.trans b.2.2.1).trans a.2.2.1, (a.2.2.2.trans b.2.2.2).trans c.2.2.2⟩

end FB
