import Verif.Term
/-!
The rounds of the optimizer that change nothing but the targets of jumps.
-/
namespace FB
open Peep

/-- The sum of a rank of the names that the code uses. -/
def phi1 (h : String → Nat) : Codew → Nat
  | .wordStr l => h l
  | _ => 0

def phi (h : String → Nat) (c : List Codew) : Nat := (c.map (phi1 h)).sum

theorem phi_cons (h : String → Nat) (a : Codew) (c : List Codew) : phi h (a :: c) = phi1 h a + phi h c := by simp [phi]
theorem phi_append (h : String → Nat) (a c : List Codew) : phi h (a ++ c) = phi h a + phi h c := by simp [phi]

/-- `replace_label_targets` keeps both measures or lowers the weight. -/
def Dr (c : List Codew) (_ : Bool) (c' : List Codew) (_ : Bool) : Prop :=
  weight c' < weight c ∨ (weight c' = weight c ∧ nu c' = nu c)

/-- And, with a rank of the labels, it then does nothing or lowers the rank of the names. -/
def Dh (h : String → Nat) (c : List Codew) (ch : Bool) (c' : List Codew) (ch' : Bool) : Prop :=
  weight c' < weight c ∨ (weight c' = weight c ∧ ((ch' = ch ∧ phi h c' = phi h c) ∨ phi h c' < phi h c))

theorem Dr.rel : EdRel Dr where
  refl _ _ := .inr ⟨rfl, rfl⟩
  trans := by intro a x b y c z h1 h2; simp only [Dr] at *; omega
  app := by intro a x b y acc h; simp only [Dr, weight_append, nu_append] at *; omega

theorem Dh.rel (h : String → Nat) : EdRel (Dh h) where
  refl _ _ := .inr ⟨rfl, .inl ⟨rfl, rfl⟩⟩
  trans := by
    intro a x b y c z h1 h2
    simp only [Dh] at *
    rcases h1 with h1 | ⟨h1, ⟨rfl, h3⟩ | h3⟩
    · left; omega
    · rcases h2 with h2 | ⟨h2, ⟨rfl, h4⟩ | h4⟩
      · left; omega
      · right; refine ⟨by omega, .inl ⟨rfl, by omega⟩⟩
      · right; refine ⟨by omega, .inr (by omega)⟩
    · rcases h2 with h2 | ⟨h2, ⟨rfl, h4⟩ | h4⟩
      · left; omega
      · right; refine ⟨by omega, .inr (by omega)⟩
      · right; refine ⟨by omega, .inr (by omega)⟩
  app := by
    intro a x b y acc hh
    simp only [Dh, weight_append, phi_append] at *
    rcases hh with h1 | ⟨h1, ⟨rfl, h3⟩ | h3⟩
    · left; omega
    · right; exact ⟨by omega, .inl ⟨rfl, by omega⟩⟩
    · right; exact ⟨by omega, .inr (by omega)⟩

/-- The edits of one step of `replace_label_targets`. -/
theorem replaceBody_cases (tgt : List (String × String)) (c : List Codew) (ch ub : Bool) :
    ((replaceBody tgt () ⟨c, ch, ub⟩).2.1 = ⟨c, ch, ub⟩) ∨
    (∃ t l r, c = .tok t :: .wordStr l :: r ∧ isJump t = true ∧ (replaceBody tgt () ⟨c, ch, ub⟩).2.1 = ⟨.tok (retTok t) :: r, true, ub⟩) ∨
    (∃ t l r t', c = .tok t :: .wordStr l :: r ∧ isJump t = true ∧ lookup tgt l = some t' ∧ t' ≠ "__TOK_RET__" ∧ t' ≠ l ∧
      (replaceBody tgt () ⟨c, ch, ub⟩).2.1 = ⟨.tok t :: .wordStr t' :: r, true, ub⟩) := by
  rcases c with _ | ⟨a, c⟩
  · left; simp [replaceBody, mtok]
  by_cases hh : ∃ t l r t', a = .tok t ∧ c = .wordStr l :: r ∧ threadHere tgt t l t'
  · obtain ⟨t, l, r, t', rfl, rfl, h1, h2, h3⟩ := hh
    have hw : wlbl 1 (.tok t :: .wordStr l :: r) = l := by simp [wlbl, h2]
    have hm : mlblw 1 (.tok t :: .wordStr l :: r) = true := by simp [mlblw, h2]
    unfold replaceBody
    simp only [hw, hm, h3]
    by_cases hr : t' = "__TOK_RET__"
    · refine .inr (.inl ⟨t, l, r, rfl, h1, ?_⟩)
      rcases isJump_cases h1 with rfl | rfl | rfl <;> simp [hr, mtok, Ed.setTok, Ed.set, Ed.del, retTok]
    · by_cases hl : l = t'
      · left
        subst hl
        rcases isJump_cases h1 with rfl | rfl | rfl <;> simp [hr, mtok]
      · refine .inr (.inr ⟨t, l, r, t', rfl, h1, h3, hr, fun h => hl h.symm, ?_⟩)
        rcases isJump_cases h1 with rfl | rfl | rfl <;> simp [hr, hl, mtok, Ed.setWs, Ed.set]
  · left; rw [replace_noop hh]

theorem jump_w {t : Tok} (h : isJump t = true) : weight1 (.tok t) = 1 ∧ weight1 (.tok (retTok t)) = 1 := by
  rcases isJump_cases h with rfl | rfl | rfl <;> exact ⟨rfl, rfl⟩

theorem replace_dr (e : Ed) : Dr e.code e.changed (replaceLabelTargets e).code (replaceLabelTargets e).changed :=
  loop_rel Dr.rel (fun _ => True) (fun _ _ h => h) (fun _ _ _ _ _ _ _ => trivial)
    (fun s c ch ub _ _ => by
      rcases replaceBody_cases (targets e.code) c ch ub with h | ⟨t, l, r, rfl, hj, h⟩ | ⟨t, l, r, t', rfl, hj, _, _, _, h⟩ <;> rw [h]
      · exact Dr.rel.refl _ _
      · left; have := jump_w hj; have := weight1_pos (.wordStr l); simp only [weight_cons]; omega
      · right; simp [weight_cons, nu_cons, weight1, nu1]) () [] e trivial

theorem replace_dh (h : String → Nat) (e : Ed)
    (hr : ∀ l t, lookup (targets e.code) l = some t → t ≠ "__TOK_RET__" → t ≠ l → h t < h l) :
    Dh h e.code e.changed (replaceLabelTargets e).code (replaceLabelTargets e).changed :=
  loop_rel (Dh.rel h) (fun _ => True) (fun _ _ h => h) (fun _ _ _ _ _ _ _ => trivial)
    (fun s c ch ub _ _ => by
      rcases replaceBody_cases (targets e.code) c ch ub with hh | ⟨t, l, r, rfl, hj, hh⟩ | ⟨t, l, r, t', rfl, hj, h1, h2, h3, hh⟩ <;> rw [hh]
      · exact (Dh.rel h).refl _ _
      · left; have := jump_w hj; have := weight1_pos (.wordStr l); simp only [weight_cons]; omega
      · right
        refine ⟨by simp [weight_cons, weight1], .inr ?_⟩
        have := hr l t' h1 h2 h3
        simp only [phi_cons, phi1]; omega) () [] e trivial

theorem replace_code (e : Ed) : (replaceLabelTargets e).code = threadJumps (targets e.code) e.code := by
  rcases e with ⟨c, ch, ub⟩
  obtain ⟨ch', h⟩ := replaceLoop (targets c) _ c (Nat.le_refl _) [] ch ub
  simp only [replaceLabelTargets, h, List.nil_append]

/-! ## Where labels lead -/

/-- The code from label `l` on is a jump to another label `t`, or that label, as `targets` finds it. -/
def Edge (c : List Codew) (l t : String) : Prop :=
  t ≠ l ∧ t ≠ "__TOK_RET__" ∧ ∃ rest, .label l :: rest <:+ c ∧ targetOf none rest = some t

/-- A rank of the labels that goes down along jumps. -/
def IsRank (h : String → Nat) (c : List Codew) : Prop := ∀ l t, Edge c l t → h t < h l

theorem lookup_edge {c : List Codew} {l t : String} (h : lookup (targets c) l = some t) (h1 : t ≠ "__TOK_RET__") (h2 : t ≠ l) : Edge c l t :=
  ⟨h2, h1, mem_targets (lookup_mem h)⟩

theorem suffix_thread (tgt : List (String × String)) {l : String} {rest' : List Codew} (c : List Codew) :
    .label l :: rest' <:+ threadJumps tgt c → ∃ rest, .label l :: rest <:+ c ∧ rest' = threadJumps tgt rest := by
  induction c using thread_ind with
  | case1 t m r ih =>
    have up : ∀ {x : List Codew}, x <:+ r → x <:+ .tok t :: .wordStr m :: r := fun h => h.trans ((List.suffix_cons ..).trans (List.suffix_cons ..))
    have done : .label l :: rest' <:+ threadJumps tgt r → ∃ rest, .label l :: rest <:+ .tok t :: .wordStr m :: r ∧ rest' = threadJumps tgt rest :=
      fun h => let ⟨x, h1, h2⟩ := ih h; ⟨x, up h1, h2⟩
    intro h
    rw [threadJumps] at h
    (repeat' split at h) <;> simp only [List.suffix_cons_iff, List.cons.injEq, reduceCtorEq, false_and, false_or] at h <;> exact done h
  | case2 a r hh ih =>
    intro h
    rw [threadJumps] at h
    · rw [List.suffix_cons_iff] at h
      rcases h with h | h
      · obtain ⟨rfl, rfl⟩ := List.cons.inj h
        exact ⟨r, List.suffix_refl _, rfl⟩
      · obtain ⟨x, h1, h2⟩ := ih h
        exact ⟨x, h1.trans (List.suffix_cons ..), h2⟩
    · exact hh
  | case3 => intro h; simp [threadJumps] at h

theorem thread_head (tgt : List (String × String)) (t : Tok) (p : List Codew) :
    mlblw 1 (.tok t :: threadJumps tgt p) = mlblw 1 (.tok t :: p) ∧ wlbl 1 (.tok t :: threadJumps tgt p) = wlbl 1 (.tok t :: p) := by
  rcases p with _ | ⟨a, p⟩
  · exact ⟨rfl, rfl⟩
  · by_cases ha : a.isTok = true
    · obtain ⟨u, rfl⟩ : ∃ u, a = .tok u := by cases a <;> simp_all [Codew.isTok]
      obtain ⟨u', q, hq⟩ : ∃ u' q, threadJumps tgt (.tok u :: p) = .tok u' :: q := by
        rcases p with _ | ⟨b, p⟩
        · exact ⟨u, [], rfl⟩
        · cases b with
          | wordStr m => rw [threadJumps]; (repeat' split) <;> exact ⟨_, _, rfl⟩
          | _ => exact ⟨_, _, rfl⟩
      rw [hq]; exact ⟨rfl, rfl⟩
    · rw [thread_skip (by simpa using ha)]
      simp [mlblw, wlbl]

theorem targetOf_thread (tgt : List (String × String)) (hn : ∀ l t, lookup tgt l = some t → t ≠ "__TOK_RET__" → hasLbl t.toList = true)
    {t' : String} (ht : t' ≠ "__TOK_RET__") : ∀ (c : List Codew) (acc : Option String), targetOf acc (threadJumps tgt c) = some t' →
      ∃ t, targetOf acc c = some t ∧ (t' = t ∨ lookup tgt t = some t') := by
  intro c
  induction c with
  | nil => intro acc h; exact ⟨t', h, .inl rfl⟩
  | cons a c ih =>
    intro acc h
    cases a with
    | label l =>
      rw [thread_skip rfl, targetOf] at h
      rw [targetOf]
      exact ih _ h
    | tok t =>
      by_cases hh : ∃ l r t', c = .wordStr l :: r ∧ threadHere tgt t l t'
      · obtain ⟨l, r, t2, rfl, h1, h2, h3⟩ := hh
        have e1 : threadJumps tgt (.tok t :: .wordStr l :: r) =
            if t2 = "__TOK_RET__" then .tok (retTok t) :: threadJumps tgt r else .tok t :: .wordStr t2 :: threadJumps tgt r := by
          rw [threadJumps]; simp [h1, h2, h3]
        rw [e1] at h
        by_cases hr : t2 = "__TOK_RET__"
        · rw [if_pos hr] at h
          rcases isJump_cases h1 with rfl | rfl | rfl
          · simp [targetOf, mtok, retTok] at h; exact absurd h.symm ht
          · simp [targetOf, mtok, retTok] at h; exact ⟨t', by simp [targetOf, mtok, h], .inl rfl⟩
          · simp [targetOf, mtok, retTok] at h; exact ⟨t', by simp [targetOf, mtok, h], .inl rfl⟩
        · rw [if_neg hr] at h
          have h4 := hn _ _ h3 hr
          rcases isJump_cases h1 with rfl | rfl | rfl
          · simp [targetOf, mtok, mlblw, wlbl, h4] at h
            exact ⟨l, by simp [targetOf, mtok, mlblw, wlbl, h2], .inr (h ▸ h3)⟩
          · simp [targetOf, mtok] at h; exact ⟨t', by simp [targetOf, mtok, h], .inl rfl⟩
          · simp [targetOf, mtok] at h; exact ⟨t', by simp [targetOf, mtok, h], .inl rfl⟩
      · rw [thread_tok hh] at h
        refine ⟨t', ?_, .inl rfl⟩
        have e1 := thread_head tgt t c
        simp only [targetOf, e1.1, e1.2] at h ⊢
        simpa [mtok] using h
    | _ =>
      rw [thread_skip rfl] at h
      refine ⟨t', ?_, .inl rfl⟩
      simpa [targetOf, mtok] using h

/-- Every label has "lbl" in its name. -/
def LblNamed (c : List Codew) : Prop := ∀ l ∈ labels c, hasLbl l.toList = true

theorem edge_named {c : List Codew} (hc : LblNamed c) {l t : String} (h : lookup (targets c) l = some t) (ht : t ≠ "__TOK_RET__") :
    hasLbl t.toList = true := by
  obtain ⟨rest, h1, h2⟩ := mem_targets (lookup_mem h)
  obtain ⟨ls, r, rfl, h3⟩ := targetOf_spec _ _ _ h2
  rcases h3 with ⟨rfl, _⟩ | ⟨h3, _⟩ | ⟨h3, _⟩ | h3
  · exact absurd rfl ht
  · exact h3
  · cases h3
  · refine hc t (mem_labels.2 (h1.subset ?_))
    have := List.mem_of_getLast? h3
    simp [this]

theorem IsRank.thread {h : String → Nat} {c : List Codew} (hg : Wf c) (hc : LblNamed c) (hr : IsRank h c) : IsRank h (threadJumps (targets c) c) := by
  rintro l t' ⟨h1, h2, rest', h3, h4⟩
  obtain ⟨rest, h5, rfl⟩ := suffix_thread _ _ h3
  obtain ⟨t, h6, h7⟩ := targetOf_thread (targets c) (fun _ _ => edge_named hc) h2 _ _ h4
  rcases h7 with rfl | h7
  · exact hr l t' ⟨h1, h2, rest, h5, h6⟩
  · by_cases htl : t = l
    · subst htl; exact hr t t' (lookup_edge h7 h2 h1)
    · have ht : t ≠ "__TOK_RET__" ∨ t = "__TOK_RET__" := by by_cases h : t = "__TOK_RET__" <;> simp [h]
      by_cases htt : t' = t
      · exact hr l t' ⟨h1, h2, rest, h5, htt ▸ h6⟩
      · have a := hr t t' (lookup_edge h7 h2 htt)
        rcases ht with ht | ht
        · have b := hr l t ⟨htl, ht, rest, h5, h6⟩
          omega
        · obtain ⟨r2, h8, _⟩ := mem_targets (lookup_mem h7)
          exact absurd (mem_labels.2 (h8.subset (List.mem_cons_self ..))) (ht ▸ hg.noRet)

/-! ## Ranks and cycles -/

/-- The names of labels in the code and of the words that it uses. -/
def names (c : List Codew) : List String := c.filterMap fun | .label s => some s | .wordStr s => some s | _ => none

theorem Edge.names {c : List Codew} {l t : String} (h : Edge c l t) : t ∈ names c := by
  obtain ⟨_, h0, rest, h1, h2⟩ := h
  obtain ⟨ls, r, rfl, h3⟩ := targetOf_spec _ _ _ h2
  simp only [FB.names, List.mem_filterMap]
  rcases h3 with ⟨rfl, _⟩ | ⟨_, q, rfl⟩ | ⟨h3, _⟩ | h3
  · exact absurd rfl h0
  · exact ⟨.wordStr t, h1.subset (by simp), rfl⟩
  · cases h3
  · exact ⟨.label t, h1.subset (by have := List.mem_of_getLast? h3; simp [this]), rfl⟩

open Classical in
/-- Labels that do not lead back to themselves have a rank. -/
theorem rank_or_cycle (c : List Codew) : (∃ h, IsRank h c) ∨ ∃ l, Relation.TransGen (Edge c) l l := by
  by_cases hc : ∃ l, Relation.TransGen (Edge c) l l
  · exact .inr hc
  · left
    refine ⟨fun l => ((names c).toFinset.filter fun x => Relation.TransGen (Edge c) l x).card, fun l t h => ?_⟩
    apply Finset.card_lt_card
    rw [Finset.ssubset_iff_of_subset]
    · refine ⟨t, ?_, ?_⟩
      · simp only [Finset.mem_filter, List.mem_toFinset]
        exact ⟨h.names, .single h⟩
      · simp only [Finset.mem_filter, not_and]
        exact fun _ ht => hc ⟨t, ht⟩
    · intro x
      simp only [Finset.mem_filter]
      exact fun hx => ⟨hx.1, .head h hx.2⟩

/-! ## Rounds -/

/-- A round lowers `weight`, or keeps it and lowers `nu`, or only changes the targets of jumps. -/
theorem round_cases (fx : Fix) (e : Ed) (hg : Wf e.code) :
    weight (round fx e).code < weight e.code ∨ (weight (round fx e).code = weight e.code ∧ nu (round fx e).code < nu e.code) ∨
    (weight (round fx e).code = weight e.code ∧ nu (round fx e).code = nu e.code ∧
      (round fx e).code = threadJumps (targets e.code) e.code ∧
      ∀ h, IsRank h e.code → (round fx e).changed = true → phi h (round fx e).code < phi h e.code) := by
  unfold round
  simp only
  generalize h0 : ({ e with changed := false } : Ed) = e0
  have c0 : e0.code = e.code := by subst h0; rfl
  have f0 : e0.changed = false := by subst h0; rfl
  rw [← c0] at hg ⊢
  clear h0 c0
  have d1 := removeLabels_down e0
  have w1 := (removeUnusedLabels_wf e0 hg).1
  generalize removeUnusedLabels e0 = e1 at *
  have d2 := replace_dr e1
  have k2 := replace_code e1
  have p2 : ∀ h, IsRank h e1.code → Dh h e1.code e1.changed (replaceLabelTargets e1).code (replaceLabelTargets e1).changed :=
    fun h hr => replace_dh h e1 fun l t a b c => hr l t (lookup_edge a b c)
  have w2 := (replaceLabelTargets_wf e1 w1).1
  generalize replaceLabelTargets e1 = e2 at *
  have d3 := traceIochn_down e2
  have w3 := (traceIochn_wf e2 w2).1
  generalize traceIochn e2 = e3 at *
  have d4 := main_down fx e3 w3
  generalize loop (mainBody fx) 0 [] e3 = e4 at *
  rcases d1 with ⟨d1, x1⟩ | d1
  · rcases d3 with ⟨d3, x3⟩ | d3
    · rcases d4 with ⟨d4, x4⟩ | d4
      · rw [d4, d3, x4, x3, ← d1]
        simp only [Dr] at d2
        rcases d2 with d2 | d2
        · exact .inl d2
        · refine .inr (.inr ⟨d2.1, d2.2, k2, fun h hr hc => ?_⟩)
          rcases p2 h hr with p | ⟨_, ⟨p, _⟩ | p⟩
          · omega
          · rw [p, x1, f0] at hc; cases hc
          · exact p
      · simp only [Dr] at d2; rw [d3] at d4; rw [← d1]; omega
    · have : weight e4.code < weight e3.code ∨ (weight e4.code = weight e3.code ∧ nu e4.code ≤ nu e3.code) := by
        rcases d4 with ⟨d4, _⟩ | d4
        · rw [d4]; omega
        · omega
      simp only [Dr] at d2; rw [← d1]; omega
  · have a : weight e4.code < weight e3.code ∨ (weight e4.code = weight e3.code ∧ nu e4.code ≤ nu e3.code) := by
      rcases d4 with ⟨d4, _⟩ | d4
      · rw [d4]; omega
      · omega
    have b : weight e3.code < weight e2.code ∨ (weight e3.code = weight e2.code ∧ nu e3.code ≤ nu e2.code) := by
      rcases d3 with ⟨d3, _⟩ | d3
      · rw [d3]; omega
      · omega
    simp only [Dr] at d2
    omega

theorem rounds_some (fx : Fix) : ∀ (n : Nat) (e : Ed), ((round fx)^[n + 1] e).changed = false → ∃ fuel e', rounds fx fuel e = some e' := by
  intro n
  induction n with
  | zero => intro e h; exact ⟨1, round fx e, by simp only [Function.iterate_succ, Function.iterate_zero, Function.comp_apply, id] at h; simp [rounds, h]⟩
  | succ n ih =>
    intro e h
    rw [Function.iterate_succ_apply] at h
    by_cases hc : (round fx e).changed = true
    · obtain ⟨fuel, e', h1⟩ := ih _ h
      exact ⟨fuel + 1, e', by simp [rounds, hc, h1]⟩
    · exact ⟨1, round fx e, by simp [rounds, hc]⟩

theorem settle (f : Nat → Nat) (m : Nat) (h : ∀ k, m ≤ k → f (k + 1) ≤ f k) : ∃ n, m ≤ n ∧ ∀ k, n ≤ k → f k = f n := by
  generalize hv : f m = v
  induction v using Nat.strong_induction_on generalizing m with
  | _ v ih =>
    by_cases hk : ∃ k, m ≤ k ∧ f k < f m
    · obtain ⟨k, h1, h2⟩ := hk
      obtain ⟨n, h3, h4⟩ := ih (f k) (by omega) k (fun j hj => h j (by omega)) rfl
      exact ⟨n, by omega, h4⟩
    · refine ⟨m, Nat.le_refl _, fun k hmk => ?_⟩
      have h1 : ¬ f k < f m := fun h => hk ⟨k, hmk, h⟩
      have h2 : f k ≤ f m := by
        clear h1
        induction k, hmk using Nat.le_induction with
        | base => exact Nat.le_refl _
        | succ k hmk ih2 => exact Nat.le_trans (h k hmk) ih2
      omega

/-- If the rounds do not end, from some round on there always is a cycle of jumps. -/
theorem rounds_end_or_cycle (fx : Fix) (e : Ed) (hg : Wf e.code) (hl : LblNamed e.code) :
    (∃ fuel e', rounds fx fuel e = some e') ∨
    ∃ n, ∀ k, n ≤ k → ∃ l, Relation.TransGen (Edge ((round fx)^[k] e).code) l l := by
  by_cases hend : ∃ n, ((round fx)^[n + 1] e).changed = false
  · obtain ⟨n, h⟩ := hend; exact .inl (rounds_some fx n e h)
  right
  have hch : ∀ n, ((round fx)^[n + 1] e).changed = true := fun n => by
    by_contra h; exact hend ⟨n, by simpa using h⟩
  have hwf : ∀ n, Wf ((round fx)^[n] e).code ∧ LblNamed ((round fx)^[n] e).code := by
    intro n
    induction n with
    | zero => exact ⟨hg, hl⟩
    | succ n ih =>
      rw [Function.iterate_succ_apply']
      have := round_wf fx _ ih.1
      exact ⟨this.1, fun l h => ih.2 l (this.2.2.1 l h)⟩
  -- the weight settles, then `nu`
  obtain ⟨n1, _, hn1⟩ := settle (fun k => weight ((round fx)^[k] e).code) 0 fun k _ => by
    have := round_cases fx _ (hwf k).1
    simp only [Function.iterate_succ_apply']
    omega
  obtain ⟨n2, hn2, hnu⟩ := settle (fun k => nu ((round fx)^[k] e).code) n1 fun k hk => by
    have := round_cases fx _ (hwf k).1
    have h3 := hn1 k (by omega)
    have h4 := hn1 (k + 1) (by omega)
    simp only [Function.iterate_succ_apply'] at h3 h4 ⊢
    omega
  refine ⟨n2, fun k hk => ?_⟩
  refine (rank_or_cycle _).resolve_left ?_
  rintro ⟨h, hr⟩
  -- with a rank the names would go down for ever
  have pure : ∀ j, IsRank h ((round fx)^[k + j] e).code ∧ phi h ((round fx)^[k + j] e).code + j ≤ phi h ((round fx)^[k] e).code := by
    intro j
    induction j with
    | zero => exact ⟨hr, Nat.le_refl _⟩
    | succ j ih =>
      have h1 := hn1 (k + j) (by omega)
      have h2 := hn1 (k + j + 1) (by omega)
      have h3 := hnu (k + j) (by omega)
      have h4 := hnu (k + j + 1) (by omega)
      have hc := hch (k + j)
      have hw := hwf (k + j)
      rw [Function.iterate_succ_apply'] at h2 h4 hc
      rw [← Nat.add_assoc, Function.iterate_succ_apply']
      rcases round_cases fx _ hw.1 with h | h | ⟨_, _, h5, h6⟩
      · omega
      · omega
      · have := h6 h ih.1 hc
        exact ⟨h5 ▸ ih.1.thread hw.1 hw.2, by omega⟩
  have := (pure (phi h ((round fx)^[k] e).code + 1)).2
  omega

end FB
