import Verif.Syn.Tables

/-!
# Lemmas on the merge of tables
-/

namespace FB.Syn

open FB.Parse (Str Act DCode PCode Table)

section
variable {X ρ : Type} {C : Conf X ρ}

/-- One function has at least the results of another. -/
def Le (tab tab' : Nat → St X ρ → Option (Out X ρ)) : Prop := ∀ t s r, tab t s = some r → tab' t s = some r

theorem Le.refl (tab : Nat → St X ρ → Option (Out X ρ)) : Le tab tab := fun _ _ _ h => h

theorem Le.trans {a b c : Nat → St X ρ → Option (Out X ρ)} (h : Le a b) (g : Le b c) : Le a c := fun t s r e => g t s r (h t s r e)

theorem line_mono {tab tab' : Nat → St X ρ → Option (Out X ρ)} (h : Le tab tab') (l : List PCode) : ∀ (b : Bool) (s : St X ρ) (r : Out X ρ),
    line C tab b l s = some r → line C tab' b l s = some r := by
  induction l with
  | nil => intro b s r e; cases b <;> exact e
  | cons c cs ih =>
    intro b s r e
    cases c with
    | lit l =>
      cases b with
      | true => exact ih true s r e
      | false =>
        simp only [line] at e ⊢
        cases hl : C.lit l s with
        | no s1 => rw [hl] at e; exact e
        | yes s1 => rw [hl] at e; exact ih _ _ _ e
        | dot s1 => rw [hl] at e; exact ih _ _ _ e
    | emit d =>
      simp only [line] at e ⊢
      cases hl : C.put (d.flatMap C.enc) s with
      | ok s1 => rw [hl] at e; exact ih _ _ _ e
      | fail s1 => rw [hl] at e; exact e
      | stop => rw [hl] at e; exact e
    | emitRet d => simp only [line] at e ⊢; exact e
    | ext a =>
      simp only [line] at e ⊢
      cases hl : C.act a s with
      | ok s1 => rw [hl] at e; exact ih _ _ _ e
      | fail s1 => rw [hl] at e; exact e
      | stop => rw [hl] at e; exact e
    | call t =>
      simp only [line] at e ⊢
      cases hl : tab t s with
      | none => rw [hl] at e; exact absurd e nofun
      | some q =>
        rw [h _ _ _ hl]
        rw [hl] at e
        cases q with
        | ok s1 => exact ih _ _ _ e
        | fail s1 => exact e
        | stop => exact e
    | ret => simp only [line] at e ⊢; exact e

theorem lines_mono {tab tab' : Nat → St X ρ → Option (Out X ρ)} (h : Le tab tab') (k : Nat × Nat) (ls : List (List PCode)) :
    ∀ (s : St X ρ) (r : Out X ρ), lines C tab k ls s = some r → lines C tab' k ls s = some r := by
  induction ls with
  | nil => intro s r e; exact e
  | cons l ls ih =>
    intro s r e
    simp only [lines] at e ⊢
    cases hl : line C tab false l s with
    | none => rw [hl] at e; exact absurd e nofun
    | some q =>
      rw [line_mono h _ _ _ _ hl]
      rw [hl] at e
      cases q with
      | ok s1 => exact e
      | fail s1 => exact ih _ _ e
      | stop => exact e

theorem table_le_succ (sl : SMs) (m : Nat) : Le (table C sl m) (table C sl (m + 1)) := by
  induction m with
  | zero => intro t s r e; exact absurd e nofun
  | succ m ih =>
    intro t s r e
    rw [table] at e ⊢
    cases hg : get sl t with
    | none => rw [hg] at e; exact e
    | some T => rw [hg] at e; exact lines_mono ih _ _ _ _ e

theorem table_le (sl : SMs) {m n : Nat} (h : m ≤ n) : Le (table C sl m) (table C sl n) := by
  induction h with
  | refl => exact Le.refl _
  | step _ ih => exact ih.trans (table_le_succ sl _)

/-- The state at the start of a line. -/
def Start (C : Conf X ρ) (k : Nat × Nat) (s : St X ρ) : Prop := s.mark = k ∧ blanks C.blank (C.txt.drop k.1) = 0

theorem blanks_drop (p : Nat → Bool) (t : Str) : blanks p (t.drop (blanks p t)) = 0 := by
  induction t with
  | nil => rfl
  | cons c cs ih =>
    rw [blanks]
    split
    · rw [List.drop_succ_cons]; exact ih
    · rename_i h; rw [List.drop_zero, blanks, if_neg h]

theorem skip_skip (s : St X ρ) : C.skip (C.skip s) = C.skip s := by
  rw [Conf.skip, Conf.skip]
  simp only [← List.drop_drop, blanks_drop, Nat.add_zero]

theorem start_skip (s : St X ρ) : Start C (C.skip s).mark (C.skip s) := by
  refine ⟨rfl, ?_⟩
  show blanks C.blank (C.txt.drop (s.pos + _)) = 0
  rw [← List.drop_drop, blanks_drop]

theorem Start.skip {k : Nat × Nat} {s : St X ρ} (h : Start C k s) : C.skip s = s := by
  have : s.pos = k.1 := congrArg Prod.fst h.1
  rw [Conf.skip, this, h.2, ← this]; rfl

theorem Start.back {k : Nat × Nat} {s : St X ρ} (h : Start C k s) : s.back k = s := by
  rw [← h.1]; rfl

theorem Start.next {k : Nat × Nat} {s : St X ρ} (h : Start C k s) (t : St X ρ) : Start C k (t.back k) := ⟨rfl, h.2⟩

theorem lines_fail {tab : Nat → St X ρ → Option (Out X ρ)} {k : Nat × Nat} (ls : List (List PCode)) : ∀ {s s1 : St X ρ}, Start C k s →
    lines C tab k ls s = some (.fail s1) → Start C k s1 := by
  induction ls with
  | nil => intro s s1 h e; injection e with e; injection e with e; rw [← e]; exact h
  | cons l ls ih =>
    intro s s1 h e
    rw [lines] at e
    split at e
    · exact ih (h.next _) e
    · rename_i q hq
      exact absurd e (hq _)

theorem lines_append (tab : Nat → St X ρ → Option (Out X ρ)) (k : Nat × Nat) (a b : List (List PCode)) : ∀ (s : St X ρ),
    lines C tab k (a ++ b) s = match lines C tab k a s with
      | some (.fail s1) => lines C tab k b s1
      | r => r := by
  induction a with
  | nil => intro s; rfl
  | cons l ls ih =>
    intro s
    rw [List.cons_append, lines, lines]
    cases hl : line C tab false l s with
    | none => rfl
    | some q =>
      cases q with
      | ok s1 => rfl
      | fail s1 => exact ih _
      | stop => rfl

/-- A line that only calls a table. -/
theorem line_call (tab : Nat → St X ρ → Option (Out X ρ)) (n : Nat) (s : St X ρ) : line C tab false [.call n, .ret] s = tab n s := by
  simp only [line]
  split <;> simp_all

/-- Some of the lines that only call `n` are replaced by the lines of `n`. -/
inductive Inl (n : Nat) (src : List (List PCode)) : List (List PCode) → List (List PCode) → Prop
  | nil : Inl n src [] []
  | keep (l) {a b} : Inl n src a b → Inl n src (l :: a) (l :: b)
  | subst {a b} : Inl n src a b → Inl n src ([.call n, .ret] :: a) (src ++ b)

theorem Inl.refl (n : Nat) (src a : List (List PCode)) : Inl n src a a := by
  induction a with
  | nil => exact .nil
  | cons l a ih => exact .keep l ih

theorem lines_inl {tab tab' : Nat → St X ρ → Option (Out X ρ)} {k : Nat × Nat} {n : Nat} {src a b : List (List PCode)} (hle : Le tab tab')
    (H : ∀ s r, Start C k s → tab n s = some r → lines C tab' k src s = some r) (h : Inl n src a b) :
    ∀ (s : St X ρ) (r : Out X ρ), Start C k s → lines C tab k a s = some r → lines C tab' k b s = some r := by
  induction h with
  | nil => intro s r _ e; exact e
  | @keep l a b _ ih =>
    intro s r hs e
    rw [lines] at e ⊢
    cases hl : line C tab false l s with
    | none => rw [hl] at e; exact absurd e nofun
    | some q =>
      rw [line_mono hle _ _ _ _ hl]
      rw [hl] at e
      cases q with
      | ok s1 => exact e
      | fail s1 => exact ih _ _ (hs.next _) e
      | stop => exact e
  | @subst a b _ ih =>
    intro s r hs e
    rw [lines, line_call] at e
    rw [lines_append]
    cases hl : tab n s with
    | none => rw [hl] at e; exact absurd e nofun
    | some q =>
      have hq := H s q hs hl
      rw [hq]
      rw [hl] at e
      cases q with
      | ok s1 => exact e
      | fail s1 =>
        have h1 := lines_fail _ hs hq
        have e' : lines C tab k a (s1.back k) = some r := e
        rw [h1.back] at e'
        exact ih _ _ h1 e'
      | stop => exact e

theorem lines_inl' {tab tab' : Nat → St X ρ → Option (Out X ρ)} {k : Nat × Nat} {n : Nat} {src a b : List (List PCode)} (hle : Le tab' tab)
    (H : ∀ s r, Start C k s → lines C tab' k src s = some r → tab n s = some r) (h : Inl n src a b) :
    ∀ (s : St X ρ) (r : Out X ρ), Start C k s → lines C tab' k b s = some r → lines C tab k a s = some r := by
  induction h with
  | nil => intro s r _ e; exact e
  | @keep l a b _ ih =>
    intro s r hs e
    rw [lines] at e ⊢
    cases hl : line C tab' false l s with
    | none => rw [hl] at e; exact absurd e nofun
    | some q =>
      rw [line_mono hle _ _ _ _ hl]
      rw [hl] at e
      cases q with
      | ok s1 => exact e
      | fail s1 => exact ih _ _ (hs.next _) e
      | stop => exact e
  | @subst a b _ ih =>
    intro s r hs e
    rw [lines, line_call]
    rw [lines_append] at e
    cases hl : lines C tab' k src s with
    | none => rw [hl] at e; exact absurd e nofun
    | some q =>
      rw [H s q hs hl]
      rw [hl] at e
      cases q with
      | ok s1 => exact e
      | fail s1 =>
        have h1 := lines_fail _ hs hl
        show lines C tab k a (s1.back k) = some r
        rw [h1.back]
        exact ih _ _ h1 e
      | stop => exact e

/-- The tables are the same but in one some lines that only call `n` are replaced by the lines of `n`. -/
structure Inlined (n : Nat) (sl sl' : SMs) : Prop where
  src : ∃ S, get sl n = some S ∧ ∀ t, (∃ T T', get sl t = some T ∧ get sl' t = some T' ∧ Inl n S.lines T.lines T'.lines) ∨ (get sl t = none ∧ get sl' t = none)

theorem Inlined.fwd {n : Nat} {sl sl' : SMs} (h : Inlined n sl sl') (m : Nat) : Le (table C sl m) (table C sl' m) := by
  obtain ⟨S, hS, h⟩ := h.src
  induction m with
  | zero => intro t s r e; exact absurd e nofun
  | succ m ih =>
    intro t s r e
    rw [table] at e ⊢
    rcases h t with ⟨T, T', g, g', hi⟩ | ⟨g, g'⟩
    · rw [g] at e; rw [g']
      refine lines_inl ih ?_ hi _ _ (start_skip s) e
      intro s1 r1 hs e1
      cases m with
      | zero => exact absurd e1 nofun
      | succ m =>
        rw [table, hS] at e1
        simp only [hs.skip, hs.1] at e1
        exact lines_mono ((table_le_succ sl m).trans ih) _ _ _ _ e1
    · rw [g] at e; rw [g']; exact e

theorem Inlined.bwd {n : Nat} {sl sl' : SMs} (h : Inlined n sl sl') (m : Nat) : Le (table C sl' m) (table C sl (2 * m)) := by
  obtain ⟨S, hS, h⟩ := h.src
  induction m with
  | zero => intro t s r e; exact absurd e nofun
  | succ m ih =>
    intro t s r e
    rw [show 2 * (m + 1) = (2 * m + 1) + 1 from by omega]
    rw [table] at e ⊢
    rcases h t with ⟨T, T', g, g', hi⟩ | ⟨g, g'⟩
    · rw [g'] at e; rw [g]
      refine lines_inl' (ih.trans (table_le_succ sl _)) ?_ hi _ _ (start_skip s) e
      intro s1 r1 hs e1
      rw [table, hS]
      simp only [hs.skip, hs.1]
      exact lines_mono ih _ _ _ _ e1
    · rw [g'] at e; rw [g]; exact e

theorem Inlined.parses {n : Nat} {sl sl' : SMs} (h : Inlined n sl sl') (t : Nat) (s : St X ρ) (r : Out X ρ) : Parses C sl' t s r ↔ Parses C sl t s r :=
  ⟨fun ⟨m, e⟩ => ⟨2 * m, h.bwd m _ _ _ e⟩, fun ⟨m, e⟩ => ⟨m, h.fwd m _ _ _ e⟩⟩

end

/-! ## Names and calls -/

theorem get_name {sl : SMs} {n : Nat} {s : SM} (h : get sl n = some s) : s.name = n := by
  have := List.find?_some h; simpa using this

theorem get_mem {sl : SMs} {n : Nat} {s : SM} (h : get sl n = some s) : s ∈ sl := List.mem_of_find?_eq_some h

theorem set_names (sl : SMs) (s : SM) : (set sl s).map SM.name = sl.map SM.name := by
  rw [set, List.map_map]
  refine List.map_congr_left fun x _ => ?_
  show (if _ then _ else _ : SM).name = _
  split
  · rename_i h; exact h.symm
  · rfl

theorem get_set {sl : SMs} {s : SM} (t : Nat) : get (set sl s) t = if t = s.name then (get sl t).map (fun _ => s) else get sl t := by
  induction sl with
  | nil => simp [get, set]
  | cons x xs ih =>
    have e : set (x :: xs) s = (if x.name = s.name then s else x) :: set xs s := rfl
    rw [get] at ih
    rw [e, get, get, List.find?_cons, List.find?_cons]
    by_cases h : x.name = s.name
    · rw [if_pos h]
      by_cases h1 : t = s.name
      · subst h1; simp [h]
      · have : ¬ (s.name == t) = true := by simp; exact fun q => h1 q.symm
        have h2 : ¬ (x.name == t) = true := by rw [h]; exact this
        simp only [this, h2]
        rw [ih]; rfl
    · rw [if_neg h]
      by_cases h1 : x.name = t
      · have : (x.name == t) = true := by simp [h1]
        simp only [this]
        rw [if_neg (by rw [← h1]; exact h)]
      · have : (x.name == t) = false := by simp [h1]
        simp only [this]
        rw [ih]; rfl

theorem inlineLines_inl (n : Nat) (src a : List (List PCode)) : Inl n src a (inlineLines n src a) := by
  induction a with
  | nil => exact .nil
  | cons l a ih =>
    rw [inlineLines]
    split
    · rename_i h; rw [h]; exact .subst ih
    · exact .keep l ih

theorem tail_inl {n : Nat} {src a : List (List PCode)} (h : a.getLast? = some [.call n, .ret]) : Inl n src a (a.dropLast ++ src) := by
  induction a with
  | nil => exact absurd h nofun
  | cons l a ih =>
    cases a with
    | nil =>
      have h : l = [.call n, .ret] := by injection h
      rw [h]
      have := Inl.subst (n := n) (src := src) .nil
      rw [List.append_nil] at this
      exact this
    | cons l' a =>
      exact .keep l (ih (by rw [List.getLast?_cons_cons] at h; exact h))

theorem set_inlined {n o : Nat} {sl : SMs} {S s s' : SM} (hS : get sl n = some S) (hs : get sl o = some s) (hn : s'.name = s.name) (hi : Inl n S.lines s.lines s'.lines) :
    Inlined n sl (set sl s') := by
  have ho := get_name hs
  refine ⟨S, hS, fun t => ?_⟩
  rw [get_set, hn, ho]
  by_cases h : t = o
  · subst h
    left
    exact ⟨s, s', hs, by rw [if_pos rfl, hs]; rfl, hi⟩
  · rw [if_neg h]
    cases hg : get sl t with
    | none => right; exact ⟨rfl, rfl⟩
    | some T => left; exact ⟨T, T, rfl, rfl, Inl.refl _ _ _⟩

theorem hasCall_append (n : Nat) (a b : List (List PCode)) : hasCall n (a ++ b) = hasCall n a + hasCall n b := by
  simp [hasCall]

theorem hasCall_cons (n : Nat) (l : List PCode) (b : List (List PCode)) : hasCall n (l :: b) = l.countP (isCall n) + hasCall n b := by
  simp [hasCall]

theorem Inl.hasCall {n t : Nat} {src a b : List (List PCode)} (h : Inl n src a b) (h0 : hasCall t src = 0) : Syn.hasCall t b ≤ Syn.hasCall t a := by
  induction h with
  | nil => exact Nat.le_refl _
  | keep l _ ih => rw [hasCall_cons, hasCall_cons]; omega
  | subst _ ih => rw [hasCall_append, hasCall_cons]; omega

theorem hasCall_self (n : Nat) : ([.call n, .ret] : List PCode).countP (isCall n) = 1 := by
  simp [isCall]

theorem inline_hasCall {n : Nat} {src a : List (List PCode)} (h0 : hasCall n src = 0) (hj : a.any (· == [.call n, .ret]) = true) :
    hasCall n (inlineLines n src a) + 1 ≤ hasCall n a := by
  induction a with
  | nil => exact absurd hj nofun
  | cons l a ih =>
    rw [inlineLines, hasCall_cons]
    have hle : hasCall n (inlineLines n src a) ≤ hasCall n a := (inlineLines_inl n src a).hasCall h0
    by_cases h : l = [.call n, .ret]
    · rw [if_pos h, hasCall_append, h, hasCall_self]; omega
    · rw [if_neg h, hasCall_append]
      have : a.any (· == [.call n, .ret]) = true := by
        rw [List.any_cons] at hj
        simpa [h] using hj
      have := ih this
      have e : hasCall n [l] = l.countP (isCall n) := by simp [hasCall]
      omega

theorem tail_hasCall {n : Nat} {src a : List (List PCode)} (h0 : hasCall n src = 0) (h : a.getLast? = some [.call n, .ret]) :
    hasCall n (a.dropLast ++ src) + 1 ≤ hasCall n a := by
  obtain ⟨b, rfl⟩ : ∃ b, a = b ++ [[.call n, .ret]] := by
    have hne : a ≠ [] := fun e => by rw [e] at h; exact absurd h nofun
    refine ⟨a.dropLast, ?_⟩
    have := List.dropLast_concat_getLast hne
    rw [List.getLast?_eq_some_getLast hne] at h
    injection h with h
    rw [h] at this
    exact this.symm
  rw [List.dropLast_concat, hasCall_append, hasCall_append, h0]
  have : hasCall n [[.call n, .ret]] = 1 := by simp [hasCall, isCall]
  omega

/-- No other table calls `n`. -/
def NoCalls (n : Nat) (sl : SMs) : Prop := ∀ s ∈ sl, s.name ≠ n → hasCall n s.lines = 0

theorem end_has {n : Nat} {s : SM} (h : endCall n s = true) : 0 < hasCall n s.lines := by
  have h' : s.lines.getLast? = some [.call n, .ret] := by simpa [endCall] using h
  have := tail_hasCall (n := n) (src := []) rfl h'
  omega

theorem just_has {n : Nat} {s : SM} (h : justCall n s = true) : 0 < hasCall n s.lines := by
  have := inline_hasCall (n := n) (src := []) rfl h
  omega

theorem set_noCalls {n : Nat} {sl : SMs} {s' : SM} (h : NoCalls n sl) (h' : s'.name ≠ n → hasCall n s'.lines = 0) : NoCalls n (set sl s') := by
  intro s hs hne
  rw [set, List.mem_map] at hs
  obtain ⟨x, hx, e⟩ := hs
  split at e
  · rw [← e] at hne ⊢; exact h' hne
  · rw [← e] at hne ⊢; exact h x hx hne

/-- How one step of `mergeInto` changes a table. -/
theorem step_inl {n : Nat} {s S s' : SM} (h : (endCall n s = true ∧ tailCall s S = some s') ∨ (justCall n s = true ∧ inlineCall n s S = some s')) :
    s'.name = s.name ∧ Inl n S.lines s.lines s'.lines ∧ (hasCall n S.lines = 0 → hasCall n s'.lines + 1 ≤ hasCall n s.lines) := by
  rcases h with ⟨h, e⟩ | ⟨h, e⟩
  · have h' : s.lines.getLast? = some [.call n, .ret] := by simpa [endCall] using h
    rw [tailCall] at e
    split at e
    · exact absurd e nofun
    split at e
    · exact absurd e nofun
    injection e with e
    rw [← e]
    exact ⟨rfl, tail_inl h', fun h0 => tail_hasCall h0 h'⟩
  · rw [inlineCall] at e
    split at e
    · exact absurd e nofun
    injection e with e
    rw [← e]
    exact ⟨rfl, inlineLines_inl _ _ _, fun h0 => inline_hasCall h0 h⟩

/-- The result of a loop of the merge: the tables have the same results, the names are the same and the deleted tables are not called by others. -/
def Kept (start : Nat) (sl0 : SMs) : Merge → Prop
  | .done sl del => (∀ {X ρ : Type} (C : Conf X ρ) t s r, Parses C sl t s r ↔ Parses C sl0 t s r) ∧ sl.map SM.name = sl0.map SM.name ∧ start ∉ del ∧ ∀ n ∈ del, NoCalls n sl
  | .error sl => (∀ {X ρ : Type} (C : Conf X ρ) t s r, Parses C sl t s r ↔ Parses C sl0 t s r) ∧ sl.map SM.name = sl0.map SM.name
  | .undefined => True

theorem get_mem_of {sl : SMs} (hd : (sl.map SM.name).Nodup) {s : SM} (h : s ∈ sl) : get sl s.name = some s := by
  induction sl with
  | nil => exact absurd h nofun
  | cons x xs ih =>
    rw [List.map_cons, List.nodup_cons] at hd
    rw [get, List.find?_cons]
    rcases List.mem_cons.mp h with e | h
    · rw [e]; simp
    · have : x.name ≠ s.name := fun e => hd.1 (by rw [e]; exact List.mem_map_of_mem h)
      have : (x.name == s.name) = false := by simp [this]
      simp only [this]
      exact ih hd.2 h

theorem calls_le {xs : SMs} {n : Nat} (y : SM) (hy : y ∈ xs) : hasCall n y.lines ≤ (xs.map fun s => hasCall n s.lines).sum := by
  induction xs with
  | nil => exact absurd hy nofun
  | cons x xs ih =>
    rw [List.map_cons, List.sum_cons]
    rcases List.mem_cons.mp hy with e | hy
    · rw [e]; omega
    · have := ih hy; omega

/-- The sum of the calls, with the part of one table. -/
theorem sum_split {sl : SMs} (hd : (sl.map SM.name).Nodup) (n : Nat) {s : SM} (h : s ∈ sl) :
    hasCall n s.lines ≤ (sl.map fun s => hasCall n s.lines).sum ∧
    ((sl.map fun s => hasCall n s.lines).sum ≤ hasCall n s.lines → ∀ x ∈ sl, x.name ≠ s.name → hasCall n x.lines = 0) := by
  induction sl with
  | nil => exact absurd h nofun
  | cons x xs ih =>
    rw [List.map_cons, List.nodup_cons] at hd
    rw [List.map_cons, List.sum_cons]
    have le : ∀ y ∈ xs, hasCall n y.lines ≤ (xs.map fun s => hasCall n s.lines).sum := by
      intro y hy
      exact calls_le y hy
    rcases List.mem_cons.mp h with e | h
    · subst e
      refine ⟨by omega, fun hs y hy hne => ?_⟩
      rcases List.mem_cons.mp hy with e | hy
      · rw [e] at hne; exact absurd rfl hne
      · have := le y hy; omega
    · obtain ⟨a, b⟩ := ih hd.2 h
      refine ⟨by omega, fun hs y hy hne => ?_⟩
      rcases List.mem_cons.mp hy with e | hy
      · rw [e]; omega
      · exact b (by omega) y hy hne

theorem mergeInto_kept {start n : Nat} {sl0 : SMs} (hd : (sl0.map SM.name).Nodup) (os : List Nat) : ∀ (sl : SMs) (del : List Nat),
    Kept start sl0 (.done sl del) → n ≠ start → (NoCalls n sl ∨ (sl.map fun s => hasCall n s.lines).sum = 1) → Kept start sl0 (mergeInto n os sl del) := by
  induction os with
  | nil => intro sl del h _ _; exact h
  | cons o os ih =>
    intro sl del h hst hc
    have hnd : (sl.map SM.name).Nodup := by rw [h.2.1]; exact hd
    rw [mergeInto]
    split
    · rename_i S s hS hs
      have key : ∀ s', s'.name = s.name ∧ Inl n S.lines s.lines s'.lines ∧ (hasCall n S.lines = 0 → hasCall n s'.lines + 1 ≤ hasCall n s.lines) → 0 < hasCall n s.lines →
          Kept start sl0 (mergeInto n os (set sl s') (del ++ [n])) := by
        intro s' ⟨hn, hi, hcount⟩ hpos
        have hin := set_inlined hS hs hn hi
        have hSn := get_name hS
        have hnc : NoCalls n (set sl s') := by
          rcases hc with hc | hc
          · refine set_noCalls hc fun hne => ?_
            have := hc s (get_mem hs) (by rw [← hn]; exact hne)
            omega
          · obtain ⟨a, b⟩ := sum_split hnd n (get_mem hs)
            have b := b (by omega)
            intro x hx hne
            rw [set, List.mem_map] at hx
            obtain ⟨y, hy, e⟩ := hx
            split at e
            · rw [← e] at hne ⊢
              have := b S (get_mem hS) (by rw [hSn, ← hn]; exact fun q => hne q.symm)
              have := hcount this
              omega
            · rename_i hy'
              rw [← e]
              exact b y hy (by rw [← hn]; exact hy')
        refine ih _ _ ⟨?_, ?_, ?_, ?_⟩ hst (.inl hnc)
        · intro X ρ C t q r
          exact (hin.parses t q r).trans (h.1 C t q r)
        · rw [set_names]; exact h.2.1
        · intro hm
          rcases List.mem_append.mp hm with hm | hm
          · exact h.2.2.1 hm
          · exact hst (List.mem_singleton.mp hm).symm
        · intro d hm
          rcases List.mem_append.mp hm with hm | hm
          · by_cases hdn : d = n
            · rw [hdn]; exact hnc
            · have hd0 := h.2.2.2 d hm
              refine set_noCalls hd0 fun hne => ?_
              have h1 := hd0 S (get_mem hS) (by rw [hSn]; exact fun q => hdn q.symm)
              have h2 := hd0 s (get_mem hs) (by rw [← hn]; exact hne)
              have := hi.hasCall h1
              omega
          · rw [List.mem_singleton.mp hm]; exact hnc
      split
      · rename_i he
        split
        · trivial
        · split
          · exact ⟨h.1, h.2.1⟩
          · rename_i s' hs'
            exact key s' (step_inl (.inl ⟨he, hs'⟩)) (end_has he)
      · split
        · rename_i hj
          split
          · exact ⟨h.1, h.2.1⟩
          · rename_i s' hs'
            exact key s' (step_inl (.inr ⟨hj, hs'⟩)) (just_has hj)
        · exact ih _ _ h hst hc
    · exact ih _ _ h hst hc

theorem mergeLoop_kept {start : Nat} {sl0 : SMs} (hd : (sl0.map SM.name).Nodup) (ns : List Nat) : ∀ (sl : SMs) (del : List Nat),
    Kept start sl0 (.done sl del) → Kept start sl0 (mergeLoop start ns sl del) := by
  induction ns with
  | nil => intro sl del h; exact h
  | cons n ns ih =>
    intro sl del h
    have hnd : (sl.map SM.name).Nodup := by rw [h.2.1]; exact hd
    rw [mergeLoop]
    split
    · exact ⟨h.1, h.2.1⟩
    split
    · rename_i h0 h1
      have hk : Kept start sl0 (mergeInto n (sl.map SM.name) sl del) := by
        by_cases hst : n = start
        · have e : (sl.map fun s => hasCall n s.lines).sum = 0 := by rw [uses, if_pos hst] at h1; omega
          have hno : ∀ s ∈ sl, hasCall n s.lines = 0 := fun s hs => by have := (sum_split hnd n hs).1; omega
          have : ∀ os, mergeInto n os sl del = .done sl del := by
            intro os
            induction os with
            | nil => rfl
            | cons o os ih =>
              rw [mergeInto]
              split
              · rename_i S s hS hs
                have h0 := hno s (get_mem hs)
                rw [if_neg (fun q => by have := end_has q; omega), if_neg (fun q => by have := just_has q; omega)]
                exact ih
              · exact ih
          rw [this]; exact h
        · have e : (sl.map fun s => hasCall n s.lines).sum = 1 := by rw [uses, if_neg hst] at h1; omega
          exact mergeInto_kept hd _ _ _ h hst (.inr e)
      cases hq : mergeInto n (sl.map SM.name) sl del with
      | done sl' del' => rw [hq] at hk; exact ih _ _ hk
      | error sl' => rw [hq] at hk; exact hk
      | undefined => trivial
    · exact ih _ _ h

end FB.Syn
