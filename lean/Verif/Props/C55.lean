import Verif.Props.C54

/-!
# C55: the steps of a compilation

For every command line: what each step reads was given by the user or was written by a step before; only files written by the same
run are deleted; a failed step is the last one; after a run without failures all the files given were used, all their object
files were linked, in the order of the command line, and no temporary file is left.
-/

namespace FB.Drv

open FB.Parse (Str ofS)

/-- Specification: the files that one step reads. -/
def reads : Ev → List Str
  | .compile inp _ _ => [inp]
  | .assemble inp _ _ => [inp]
  | .link inp _ _ => inp
  | .remove _ => []

/-- Specification: the file that one step makes. -/
def makes : Ev → List Str
  | .compile _ out _ => [out]
  | .assemble _ out _ => [out]
  | .link _ out _ => [out]
  | .remove _ => []

/-- The whole list of steps. -/
def plan (o : Opts) (binExt : Str) : List Ev := basEvs o ++ asmEvs o ++ linkEvs o binExt ++ rmEvs o

theorem run_take (o : Opts) (b : Str) (st : List Ev → Nat) : ∃ k, (runMain o b st).1 = (plan o b).take k ∧ ((runMain o b st).2 = 0 → k = (plan o b).length) := by
  obtain ⟨k, h1, h2⟩ := steps_prefix st (plan o b) []
  exact ⟨k, by simpa [runMain, plan] using h1, h2⟩

theorem prefix_of {α : Type} {p s t q : List α} {e : α} {k : Nat} (h : t.take k = p ++ e :: s) (hq : q <+: t) (he : q.length ≤ p.length) : ∀ x ∈ q, x ∈ p := by
  have hp : p <+: t := (List.prefix_append p (e :: s)).trans (h ▸ List.take_prefix k t)
  exact fun x hx => (List.prefix_of_prefix_length_le hq hp he).subset hx

theorem split_at {α : Type} {A B p s : List α} {e : α} {k : Nat} (h : (A ++ B).take k = p ++ e :: s) (hA : e ∉ A) : A.length ≤ p.length := by
  by_contra hc
  have hlt : p.length < A.length := Nat.lt_of_not_le hc
  have h1 : ((A ++ B).take k)[p.length]? = some e := by rw [h]; simp
  rw [List.getElem?_take] at h1
  split at h1
  · rw [List.getElem?_append_left hlt] at h1
    exact hA (List.mem_of_getElem? h1)
  · cases h1

/-- What a step reads is a file of the command line, or was made by a step before. -/
theorem C55_reads (num : Str → Option Nat) (args : List Str) (o : Opts) (binExt : Str) (st : List Ev → Nat)
    (h : parseArgs num args = .ok o) (p s : List Ev) (e : Ev) (ht : (runMain o binExt st).1 = p ++ e :: s) :
    ∀ f ∈ reads e, f ∈ filesOf false args ∨ ∃ e' ∈ p, f ∈ makes e' := by
  have hg := good_args h
  obtain ⟨k, h1, _⟩ := run_take o binExt st
  rw [h1] at ht
  have he : e ∈ plan o binExt := by
    have : e ∈ (plan o binExt).take k := by rw [ht]; simp
    exact List.mem_of_mem_take this
  intro f hf
  simp only [plan, List.mem_append] at he
  rcases he with ((he | he) | he) | he
  · obtain ⟨q, hq, rfl⟩ := List.mem_map.1 he
    simp only [reads, List.mem_singleton] at hf
    exact .inl (hf ▸ (hg.bas q hq).1)
  · obtain ⟨q, hq, rfl⟩ := List.mem_map.1 he
    simp only [reads, List.mem_singleton] at hf
    subst hf
    rcases (hg.asm q hq).1 with h2 | ⟨r, hr, h2⟩
    · exact .inl h2.1
    · right
      have hle : (basEvs o).length ≤ p.length := by
        refine split_at (B := asmEvs o ++ (linkEvs o binExt ++ rmEvs o)) (by simpa [plan] using ht) ?_
        intro hm
        obtain ⟨x, _, hx⟩ := List.mem_map.1 hm
        cases hx
      refine ⟨_, prefix_of ht ⟨asmEvs o ++ (linkEvs o binExt ++ rmEvs o), by simp [plan]⟩ hle _ (List.mem_map.2 ⟨r, hr, rfl⟩), ?_⟩
      simp [makes, h2]
  · unfold linkEvs at he
    by_cases hl : o.link = []
    · simp [hl] at he
    · rw [if_neg hl, List.mem_singleton] at he
      subst he
      simp only [reads] at hf
      rcases hg.link f hf with h2 | ⟨r, hr, h2⟩
      · exact .inl h2.1
      · right
        have hle : (basEvs o ++ asmEvs o).length ≤ p.length := by
          refine split_at (B := linkEvs o binExt ++ rmEvs o) (by simpa [plan] using ht) ?_
          intro hm
          rcases List.mem_append.1 hm with hm | hm <;> obtain ⟨x, _, hx⟩ := List.mem_map.1 hm <;> cases hx
        refine ⟨_, prefix_of ht ⟨linkEvs o binExt ++ rmEvs o, by simp [plan]⟩ hle _
          (List.mem_append_right _ (List.mem_map.2 ⟨r, hr, rfl⟩)), ?_⟩
        simp [makes, h2]
  · unfold rmEvs at he
    by_cases hk : o.keep = true
    · simp [hk] at he
    · simp only [hk] at he
      obtain ⟨x, _, rfl⟩ := List.mem_map.1 he
      simp [reads] at hf

/-- A file that is deleted was made before, in the same run. -/
theorem C55_removes (o : Opts) (binExt : Str) (st : List Ev → Nat) (p s : List Ev) (f : Str)
    (ht : (runMain o binExt st).1 = p ++ .remove f :: s) : ∃ e' ∈ p, f ∈ makes e' := by
  obtain ⟨k, h1, _⟩ := run_take o binExt st
  rw [h1] at ht
  have he : Ev.remove f ∈ plan o binExt := by
    have : Ev.remove f ∈ (plan o binExt).take k := by rw [ht]; simp
    exact List.mem_of_mem_take this
  have hno : Ev.remove f ∉ basEvs o ++ asmEvs o := by
    intro hm
    rcases List.mem_append.1 hm with hm | hm <;> obtain ⟨x, _, hx⟩ := List.mem_map.1 hm <;> cases hx
  have hnl : Ev.remove f ∉ linkEvs o binExt := by
    unfold linkEvs; split <;> simp
  have he : Ev.remove f ∈ rmEvs o := by
    simp only [plan, List.mem_append] at he
    simp only [List.mem_append] at hno
    exact he.resolve_left fun h => h.elim hno hnl
  have hle : (basEvs o ++ asmEvs o).length ≤ p.length := split_at (B := linkEvs o binExt ++ rmEvs o) (by simpa [plan] using ht) hno
  have hin := prefix_of ht ⟨linkEvs o binExt ++ rmEvs o, by simp [plan]⟩ hle
  unfold rmEvs at he
  by_cases hk : o.keep = true
  · simp [hk] at he
  · simp only [hk] at he
    obtain ⟨x, hx, hx'⟩ := List.mem_map.1 he
    cases hx'
    unfold temps at hx
    by_cases h1 : o.oneStep = true
    · simp [h1] at hx
    · simp only [h1] at hx
      rcases List.mem_append.1 hx with hx | hx
      · obtain ⟨q, hq, rfl⟩ := List.mem_map.1 hx
        exact ⟨_, hin _ (List.mem_append_left _ (List.mem_map.2 ⟨q, hq, rfl⟩)), by simp [makes]⟩
      · obtain ⟨q, hq, rfl⟩ := List.mem_map.1 hx
        exact ⟨_, hin _ (List.mem_append_right _ (List.mem_map.2 ⟨q, hq, rfl⟩)), by simp [makes]⟩

theorem steps_stop (st : List Ev → Nat) : ∀ (l h : List Ev), (steps st h l).2 ≠ 0 →
    ∃ q e, (steps st h l).1 = h ++ q ++ [e] ∧ st (h ++ q ++ [e]) ≠ 0 ∧ (∀ f, e ≠ .remove f) ∧ (q ++ [e]) <+: l := by
  intro l
  induction l with
  | nil => intro h hn; simp [steps] at hn
  | cons e r ih =>
    intro h hn
    have go : steps st h (e :: r) = steps st (h ++ [e]) r →
        ∃ q e', (steps st h (e :: r)).1 = h ++ q ++ [e'] ∧ st (h ++ q ++ [e']) ≠ 0 ∧ (∀ f, e' ≠ .remove f) ∧ (q ++ [e']) <+: (e :: r) := by
      intro hx
      obtain ⟨q, e', h1, h2, h3, h4⟩ := ih (h ++ [e]) (by rw [← hx]; exact hn)
      refine ⟨e :: q, e', ?_, ?_, h3, ?_⟩
      · rw [hx, h1]; simp
      · simpa using h2
      · simpa using h4
    have stop : steps st h (e :: r) = (h ++ [e], 1) → st (h ++ [e]) ≠ 0 → (∀ f, e ≠ .remove f) →
        ∃ q e', (steps st h (e :: r)).1 = h ++ q ++ [e'] ∧ st (h ++ q ++ [e']) ≠ 0 ∧ (∀ f, e' ≠ .remove f) ∧ (q ++ [e']) <+: (e :: r) := by
      intro hx hz hr
      exact ⟨[], e, by simp [hx], by simpa using hz, hr, by simp⟩
    cases e with
    | remove f => exact go rfl
    | compile i o' l' =>
      by_cases hz : st (h ++ [.compile i o' l']) = 0
      · exact go (by simp [steps, hz])
      · exact stop (by simp [steps, hz]) hz (by simp)
    | assemble i o' l' =>
      by_cases hz : st (h ++ [.assemble i o' l']) = 0
      · exact go (by simp [steps, hz])
      · exact stop (by simp [steps, hz]) hz (by simp)
    | link i o' l' =>
      by_cases hz : st (h ++ [.link i o' l']) = 0
      · exact go (by simp [steps, hz])
      · exact stop (by simp [steps, hz]) hz (by simp)

/-- The compiler fails exactly when one of its steps does, and then nothing is done after that step; in particular, the temporary
files are not deleted. -/
theorem C55_fails (o : Opts) (binExt : Str) (st : List Ev → Nat) (h : (runMain o binExt st).2 ≠ 0) :
    ∃ q e, (runMain o binExt st).1 = q ++ [e] ∧ st (q ++ [e]) ≠ 0 ∧ (∀ f, Ev.remove f ∉ q ++ [e]) := by
  obtain ⟨q, e, h1, h2, h3, h4⟩ := steps_stop st (plan o binExt) [] h
  refine ⟨q, e, by simpa [runMain, plan] using h1, by simpa using h2, ?_⟩
  intro f hf
  have hno : ∀ f, Ev.remove f ∉ basEvs o ++ asmEvs o ++ linkEvs o binExt := by
    intro f hm
    rcases List.mem_append.1 hm with hm | hm
    · rcases List.mem_append.1 hm with hm | hm <;> obtain ⟨x, _, hx⟩ := List.mem_map.1 hm <;> cases hx
    · unfold linkEvs at hm; split at hm <;> simp at hm
  have hpre : (q ++ [e]) <+: (basEvs o ++ asmEvs o ++ linkEvs o binExt) := by
    have hB : (basEvs o ++ asmEvs o ++ linkEvs o binExt) <+: plan o binExt := List.prefix_append _ _
    by_cases hle : (q ++ [e]).length ≤ (basEvs o ++ asmEvs o ++ linkEvs o binExt).length
    · exact List.prefix_of_prefix_length_le h4 hB hle
    · exfalso
      have hlt : (basEvs o ++ asmEvs o ++ linkEvs o binExt).length ≤ q.length := by simp at hle ⊢; omega
      have : (plan o binExt)[q.length]? = some e := by
        obtain ⟨t, ht⟩ := h4
        rw [← ht]; simp
      unfold plan at this
      rw [List.getElem?_append_right hlt] at this
      have hm := List.mem_of_getElem? this
      unfold rmEvs at hm
      split at hm
      · simp at hm
      · obtain ⟨x, _, hx⟩ := List.mem_map.1 hm
        exact h3 x hx.symm
  exact hno f (hpre.subset hf)

/-- After a run without failures: every file of the command line was read by its step. -/
theorem C55_all_used (num : Str → Option Nat) (args : List Str) (o : Opts) (binExt : Str) (st : List Ev → Nat)
    (h : parseArgs num args = .ok o) (h0 : (runMain o binExt st).2 = 0) :
    ∀ f ∈ filesOf false args, ∃ e ∈ (runMain o binExt st).1, f ∈ reads e ∧
      match e with
      | .compile .. => IsBas f
      | .assemble .. => IsAsm f
      | .link .. => IsObj f
      | .remove _ => False := by
  have hg := good_args h
  obtain ⟨k, h1, h2⟩ := run_take o binExt st
  rw [h1, h2 h0, List.take_length]
  intro f hf
  rcases hg.all f hf with ⟨hi, a, ha⟩ | ⟨hi, a, ha⟩ | ⟨hi, ha⟩
  · exact ⟨.compile f a _, by simp only [plan, List.mem_append]; exact .inl (.inl (.inl (List.mem_map.2 ⟨_, ha, rfl⟩))), by simp [reads], hi⟩
  · exact ⟨.assemble f a _, by simp only [plan, List.mem_append]; exact .inl (.inl (.inr (List.mem_map.2 ⟨_, ha, rfl⟩))), by simp [reads], hi⟩
  · have hl : o.link ≠ [] := List.ne_nil_of_mem ha
    exact ⟨.link o.link _ _, by simp only [plan, List.mem_append]; exact .inl (.inr (by unfold linkEvs; rw [if_neg hl]; exact List.mem_singleton.2 rfl)), ha, hi⟩

/-- The object file of a file in a list of steps: the file itself, or what the assembler made for it, or for what the compiler made
for it. -/
def ObjIn (tr : List Ev) (f l : Str) : Prop :=
  (IsObj f ∧ l = f) ∨ (IsAsm f ∧ ∃ x, Ev.assemble f l x ∈ tr) ∨ (IsBas f ∧ ∃ a x y, Ev.compile f a x ∈ tr ∧ Ev.assemble a l y ∈ tr)

/-- After a run without failures and without `-c`: the last step but the deletions is the linker, and it gets the object file of
each file of the command line, in the same order. -/
theorem C55_linked (num : Str → Option Nat) (args : List Str) (o : Opts) (binExt : Str) (st : List Ev → Nat)
    (h : parseArgs num args = .ok o) (h0 : (runMain o binExt st).2 = 0) (hc : o.oneStep = false) :
    ∃ objs x tr rm, (runMain o binExt st).1 = tr ++ .link objs (exeOf o binExt) x :: rm ∧ (∀ e ∈ rm, ∃ f, e = .remove f) ∧
      List.Forall₂ (ObjIn tr) (filesOf false args) objs := by
  have hg := good_args h
  obtain ⟨k, h1, h2⟩ := run_take o binExt st
  have ho := hg.order hc
  have hl : o.link ≠ [] := by
    intro hl
    rw [hl] at ho
    have hF : filesOf false args = [] := by simpa using ho
    unfold parseArgs at h
    split at h
    · cases h
    next o1 hp =>
    split at h
    · cases h
    next hno =>
    have : o1 = o := by cases h; rfl
    subst this
    have hb : o1.bas = [] := by
      rcases hb : o1.bas with _ | ⟨p, r⟩
      · rfl
      · have := (hg.bas p (by rw [hb]; simp)).1
        rw [hF] at this; cases this
    have ha : o1.asm = [] := by
      rcases ha : o1.asm with _ | ⟨p, r⟩
      · rfl
      · rcases (hg.asm p (by rw [ha]; simp)).1 with h3 | ⟨q, h3, _⟩
        · have := h3.1; rw [hF] at this; cases this
        · rw [hb] at h3; cases h3
    exact hno (.inl ⟨hb, ha, hl⟩)
  refine ⟨o.link, if o.listing then some (addExt (exeOf o binExt) (ofS ".lbl")) else none, basEvs o ++ asmEvs o, rmEvs o, ?_, ?_, ?_⟩
  · rw [h1, h2 h0, List.take_length]
    unfold plan linkEvs
    rw [if_neg hl]
    simp
  · intro e he
    unfold rmEvs at he
    split at he
    · cases he
    · obtain ⟨x, _, hx⟩ := List.mem_map.1 he
      exact ⟨x, hx.symm⟩
  · refine ho.imp ?_
    rintro f l (h3 | ⟨h3, h4⟩ | ⟨h3, a, h4, h5⟩)
    · exact .inl h3
    · exact .inr (.inl ⟨h3, _, List.mem_append_right _ (List.mem_map.2 ⟨_, h4, rfl⟩)⟩)
    · exact .inr (.inr ⟨h3, a, _, _, List.mem_append_left _ (List.mem_map.2 ⟨_, h4, rfl⟩), List.mem_append_right _ (List.mem_map.2 ⟨_, h5, rfl⟩)⟩)

/-- After a run without failures, without `-c` and `-keep`: all the files made by the compiler and the assembler are deleted. -/
theorem C55_clean (o : Opts) (binExt : Str) (st : List Ev → Nat) (h0 : (runMain o binExt st).2 = 0) (hc : o.oneStep = false) (hk : o.keep = false) :
    (∀ i f x, Ev.compile i f x ∈ (runMain o binExt st).1 → Ev.remove f ∈ (runMain o binExt st).1) ∧
    (∀ i f x, Ev.assemble i f x ∈ (runMain o binExt st).1 → Ev.remove f ∈ (runMain o binExt st).1) := by
  obtain ⟨k, h1, h2⟩ := run_take o binExt st
  rw [h1, h2 h0, List.take_length]
  have rm : ∀ f, f ∈ o.bas.map (·.2) ++ o.asm.map (·.2) → Ev.remove f ∈ plan o binExt := by
    intro f hf
    refine List.mem_append_right _ ?_
    unfold rmEvs temps
    simp only [hk, hc]
    exact List.mem_map.2 ⟨f, hf, rfl⟩
  have noL : ∀ {e : Ev}, (∀ a b c, e ≠ .link a b c) → e ∉ linkEvs o binExt := by
    intro e he hm
    unfold linkEvs at hm
    split at hm
    · cases hm
    · exact he _ _ _ (List.mem_singleton.1 hm)
  have noR : ∀ {e : Ev}, (∀ a, e ≠ .remove a) → e ∉ rmEvs o := by
    intro e he hm
    unfold rmEvs at hm
    split at hm
    · cases hm
    · obtain ⟨x, _, hx⟩ := List.mem_map.1 hm
      exact he x hx.symm
  constructor
  · intro i f x hm
    apply rm
    simp only [plan, List.mem_append] at hm
    rcases hm with ((hm | hm) | hm) | hm
    · obtain ⟨q, hq, hx⟩ := List.mem_map.1 hm
      cases hx
      exact List.mem_append_left _ (List.mem_map.2 ⟨q, hq, rfl⟩)
    · obtain ⟨q, hq, hx⟩ := List.mem_map.1 hm
      cases hx
    · exact absurd hm (noL (by simp))
    · exact absurd hm (noR (by simp))
  · intro i f x hm
    apply rm
    simp only [plan, List.mem_append] at hm
    rcases hm with ((hm | hm) | hm) | hm
    · obtain ⟨q, hq, hx⟩ := List.mem_map.1 hm
      cases hx
    · obtain ⟨q, hq, hx⟩ := List.mem_map.1 hm
      cases hx
      exact List.mem_append_right _ (List.mem_map.2 ⟨q, hq, rfl⟩)
    · exact absurd hm (noL (by simp))
    · exact absurd hm (noR (by simp))

/-- The lists with `-c` before the first file. -/
structure Good1 (o : Opts) (F : List Str) : Prop where
  one : o.oneStep = true
  asm : ∀ p ∈ o.asm, p.1 ∈ F ∧ IsAsm p.1
  link : ∀ f ∈ o.link, f ∈ F ∧ IsObj f

theorem Good1.loop {num : Str → Option Nat} : ∀ {args : List Str} {o o' : Opts} {F : List Str}, Good1 o F → argLoop num o args = .ok o' →
    Good1 o' (F ++ filesOf o.nextOut args)
  | [], o, o', F, h, hl => by
    have : o = o' := by simpa [argLoop] using hl
    subst this
    simpa [filesOf] using h
  | a :: r, o, o', F, h, hl => by
    unfold argLoop at hl
    split at hl
    · cases hl
    next o1 hs =>
    rcases argStep_cases hs with ⟨hn, e⟩ | ⟨hn, ha, hg, e⟩ | ⟨hn, ha, hst, hg, hd, e⟩ | ⟨hn, ha, hst, hh, hs', h1⟩ | ⟨hn, hh, hne, e⟩
    · have : Good1 o1 F := by subst e; exact ⟨h.one, h.asm, h.link⟩
      have := Good1.loop this hl
      have en : o1.nextOut = false := by rw [e]
      rw [en] at this
      simpa [hn, filesOf] using this
    · have : Good1 o1 F := by subst e; exact ⟨h.one, h.asm, h.link⟩
      have := Good1.loop this hl
      have en : o1.nextOut = true := by rw [e]
      rw [en] at this
      simpa [hn, filesOf, ha] using this
    · have : Good1 o1 F := by subst e; exact ⟨h.one, h.asm, h.link⟩
      have := Good1.loop this hl
      have en : o1.nextOut = false := by rw [e]; exact hn
      rw [en] at this
      have hh : a.head? = some 45 := starts_head hst rfl
      simpa only [hn, filesOf, if_neg ha, if_pos hh] using this
    · have : Good1 o1 F := ⟨by rw [h1, h.one]; rfl, by rw [hs'.asm]; exact h.asm, by rw [hs'.link]; exact h.link⟩
      have := Good1.loop this hl
      rw [hs'.next, hn] at this
      simpa only [hn, filesOf, if_neg ha, if_pos hh] using this
    · have g1 : Good1 o1 (F ++ [a]) := by
        have oldA : ∀ p ∈ o.asm, p.1 ∈ F ++ [a] ∧ IsAsm p.1 := fun p hp => ⟨List.mem_append_left _ (h.asm p hp).1, (h.asm p hp).2⟩
        have oldL : ∀ f ∈ o.link, f ∈ F ++ [a] ∧ IsObj f := fun f hf => ⟨List.mem_append_left _ (h.link f hf).1, (h.link f hf).2⟩
        subst e
        unfold fileStep
        dsimp only
        split_ifs with c1 c2 c3 c4 c5 <;> first
          | exact absurd h.one ‹_›
          | skip
        all_goals refine ⟨h.one, ?_, ?_⟩
        all_goals first
          | exact oldA
          | exact oldL
          | (intro f hf
             rcases List.mem_append.1 hf with hf | hf
             · exact oldL f hf
             · rw [List.mem_singleton.1 hf]; exact ⟨by simp, c1⟩)
          | (intro f hf
             rcases List.mem_append.1 hf with hf | hf
             · exact oldA f hf
             · rw [List.mem_singleton.1 hf]; exact ⟨by simp, c1, c2⟩)
      have := Good1.loop g1 hl
      have en : o1.nextOut = false := by rw [e]; unfold fileStep; dsimp only; split_ifs <;> exact hn
      rw [en] at this
      have ha : a ≠ ofS "-o" := by rintro rfl; exact hh (by decide)
      simpa only [hn, filesOf, if_neg ha, if_neg hh, List.append_assoc, List.singleton_append] using this

/-- With `-c` as first argument: nothing is deleted, and only files of the command line are assembled or linked. -/
theorem C55_compile_only (num : Str → Option Nat) (args : List Str) (o : Opts) (binExt : Str) (st : List Ev → Nat)
    (h : parseArgs num (ofS "-c" :: args) = .ok o) :
    ∀ e ∈ (runMain o binExt st).1, match e with
      | .compile .. => True
      | .assemble i _ _ => i ∈ filesOf false args
      | .link l _ _ => ∀ f ∈ l, f ∈ filesOf false args
      | .remove _ => False := by
  have hg : Good1 o (filesOf false args) := by
    unfold parseArgs at h
    split at h
    · cases h
    next o1 hp =>
    split at h
    · cases h
    have : o1 = o := by cases h; rfl
    subst this
    have hs : argStep num {} (ofS "-c") = .ok { oneStep := true } := by
      unfold argStep
      rfl
    unfold argLoop at hp
    rw [hs] at hp
    have := Good1.loop (F := []) ⟨rfl, by simp, by simp⟩ hp
    simpa using this
  obtain ⟨k, h1, _⟩ := run_take o binExt st
  rw [h1]
  intro e he
  have he := List.mem_of_mem_take he
  simp only [plan, List.mem_append] at he
  rcases he with ((he | he) | he) | he
  · obtain ⟨q, hq, rfl⟩ := List.mem_map.1 he; trivial
  · obtain ⟨q, hq, rfl⟩ := List.mem_map.1 he
    exact (hg.asm q hq).1
  · unfold linkEvs at he
    split at he
    · cases he
    · rw [List.mem_singleton] at he
      subst he
      exact fun f hf => (hg.link f hf).1
  · unfold rmEvs temps at he
    simp [hg.one] at he

/-- An example of all the theorems: two sources. -/
example : demo ["main.bas", "-keep", "irq.s"] = some
    ([.compile (ofS "main.bas") (ofS "main.asm") none, .assemble (ofS "main.asm") (ofS "main.o") (some (ofS "main.lst")),
      .assemble (ofS "irq.s") (ofS "irq.o") (some (ofS "irq.lst")),
      .link [ofS "main.o", ofS "irq.o"] (ofS "main.xex") (some (ofS "main.lbl"))], 0) := by decide

example : demo ["-c", "main.bas"] = some ([.compile (ofS "main.bas") (ofS "main.asm") none], 0) := by decide

/-- `fastbasic main.bas -c`: the option after the file does not stop the compiler, the program is linked; and the temporary files
are not deleted. -/
theorem C55_late_option_refuted : demo ["main.bas", "-c"] = some
    ([.compile (ofS "main.bas") (ofS "main.asm") none, .assemble (ofS "main.asm") (ofS "main.o") none,
      .link [ofS "main.o"] (ofS "main.xex") none], 0) := by decide

end FB.Drv
