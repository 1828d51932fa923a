import Verif.Out.Full
import Verif.Props.C21

/-!
# C34: the labels of source lines are distinct

The compiler writes a label before the first item of each run of items from the same source line. A line can have many runs,
as procedures and loops are moved. All labels are different, for any sequence of line numbers; and the last label before an item
is one for its line.
-/

namespace FB.Out

open FB.Parse

/-- The `k`-th label for the line `n`. -/
def nthLabel (n k : Nat) : Str := lineLabel n ++ if k = 0 then [] else 95 :: PS.decDigits k

theorem digits_append {a b x y : Str} (ha : ∀ c ∈ a, isDigit 10 c = true) (hb : ∀ c ∈ b, isDigit 10 c = true)
    (hx : x = [] ∨ ∃ t, x = 95 :: t) (hy : y = [] ∨ ∃ t, y = 95 :: t) (h : a ++ x = b ++ y) : a = b ∧ x = y := by
  have n95 : isDigit 10 95 = false := by decide
  induction a generalizing b with
  | nil =>
    cases b with
    | nil => exact ⟨rfl, h⟩
    | cons d b =>
      rcases hx with rfl | ⟨t, rfl⟩
      · simp at h
      · simp only [List.nil_append, List.cons_append, List.cons.injEq] at h
        have := hb d (by simp)
        rw [← h.1, n95] at this
        cases this
  | cons c a ih =>
    cases b with
    | nil =>
      rcases hy with rfl | ⟨t, rfl⟩
      · simp at h
      · simp only [List.nil_append, List.cons_append, List.cons.injEq] at h
        have := ha c (by simp)
        rw [h.1, n95] at this
        cases this
    | cons d b =>
      simp only [List.cons_append, List.cons.injEq] at h
      obtain ⟨h1, h2⟩ := ih (fun c hc => ha c (by simp [hc])) (fun c hc => hb c (by simp [hc])) h.2
      exact ⟨by rw [h.1, h1], h2⟩

theorem nthLabel_inj {n k n' k' : Nat} (h : nthLabel n k = nthLabel n' k') : n = n' ∧ k = k' := by
  unfold nthLabel lineLabel at h
  rw [List.append_assoc, List.append_assoc] at h
  have h := List.append_cancel_left h
  have sfx : ∀ k, (if k = 0 then [] else 95 :: PS.decDigits k) = ([] : Str) ∨
      ∃ t, (if k = 0 then [] else 95 :: PS.decDigits k) = 95 :: t := by
    intro k
    split
    · exact .inl rfl
    · exact .inr ⟨_, rfl⟩
  obtain ⟨h1, h2⟩ := digits_append (decDigits_spec n).2.1 (decDigits_spec n').2.1 (sfx k) (sfx k') h
  refine ⟨by rw [← (decDigits_spec n).1, ← (decDigits_spec n').1, h1], ?_⟩
  split at h2 <;> split at h2
  · omega
  · cases h2
  · cases h2
  · simp only [List.cons.injEq, true_and] at h2
    rw [← (decDigits_spec k).1, ← (decDigits_spec k').1, h2]

theorem nthLabel_zero (n : Nat) : nthLabel n 0 = lineLabel n := by simp [nthLabel]
theorem nthLabel_succ (n k : Nat) : nthLabel n (k + 1) = lineLabel n ++ 95 :: PS.decDigits (k + 1) := by simp [nthLabel]

/-- Labels still to be written are different from those written before, and from each other. -/
theorem writeLines_labels (ln : Option Nat) (m : List (Nat × Nat)) (cs : List CW) :
    ((writeLines ln m cs).filterMap Sum.getLeft?).Nodup ∧
      ∀ l ∈ (writeLines ln m cs).filterMap Sum.getLeft?, ∃ n k, l = nthLabel n k ∧ ∀ j, m.lookup n = some j → j < k := by
  induction cs generalizing ln m with
  | nil => simp [writeLines]
  | cons c cs ih =>
    unfold writeLines
    split
    · split
      · next k hk =>
        obtain ⟨h1, h2⟩ := ih (some c.lnum) ((c.lnum, k + 1) :: m)
        refine ⟨?_, ?_⟩
        · simp only [List.filterMap_cons, Sum.getLeft?_inl, Sum.getLeft?_inr, List.nodup_cons]
          refine ⟨?_, h1⟩
          intro hm
          obtain ⟨n, j, e, hj⟩ := h2 _ hm
          rw [← nthLabel_succ] at e
          obtain ⟨rfl, rfl⟩ := nthLabel_inj e
          have := hj (k + 1) (by simp [List.lookup])
          omega
        · intro l hl
          simp only [List.filterMap_cons, Sum.getLeft?_inl, Sum.getLeft?_inr, List.mem_cons] at hl
          rcases hl with rfl | hl
          · refine ⟨c.lnum, k + 1, (nthLabel_succ _ _).symm, ?_⟩
            intro j hj
            rw [hk] at hj
            cases hj
            omega
          · obtain ⟨n, j, e, hj⟩ := h2 _ hl
            refine ⟨n, j, e, fun i hi => ?_⟩
            by_cases g : n = c.lnum
            · subst g
              have := hj (k + 1) (by simp [List.lookup])
              rw [hk] at hi
              cases hi
              omega
            · exact hj i (by rw [List.lookup, show (n == c.lnum) = false by simp [g]]; exact hi)
      · next hk =>
        obtain ⟨h1, h2⟩ := ih (some c.lnum) ((c.lnum, 0) :: m)
        refine ⟨?_, ?_⟩
        · simp only [List.filterMap_cons, Sum.getLeft?_inl, Sum.getLeft?_inr, List.nodup_cons]
          refine ⟨?_, h1⟩
          intro hm
          obtain ⟨n, j, e, hj⟩ := h2 _ hm
          rw [← nthLabel_zero] at e
          obtain ⟨rfl, rfl⟩ := nthLabel_inj e
          have := hj 0 (by simp [List.lookup])
          omega
        · intro l hl
          simp only [List.filterMap_cons, Sum.getLeft?_inl, Sum.getLeft?_inr, List.mem_cons] at hl
          rcases hl with rfl | hl
          · refine ⟨c.lnum, 0, (nthLabel_zero _).symm, ?_⟩
            intro j hj
            rw [hk] at hj
            cases hj
          · obtain ⟨n, j, e, hj⟩ := h2 _ hl
            refine ⟨n, j, e, fun i hi => ?_⟩
            by_cases g : n = c.lnum
            · subst g
              rw [hk] at hi
              cases hi
            · exact hj i (by rw [List.lookup, show (n == c.lnum) = false by simp [g]]; exact hi)
    · obtain ⟨h1, h2⟩ := ih ln m
      exact ⟨by simpa [List.filterMap_cons] using h1, fun l hl => h2 l (by simpa [List.filterMap_cons] using hl)⟩

/-- C34: all the labels of lines are different. -/
theorem C34_unique (code : List CW) : (lineLabels code).Nodup := (writeLines_labels none [] code).1

/-- A text names the line `n`: the prefix, the number, and perhaps a suffix that starts with `_`. -/
def NamesLine (n : Nat) (l : Str) : Prop :=
  ∃ x, l = ofS "@FastBasic_LINE_" ++ PS.decDigits n ++ x ∧ (x = [] ∨ ∃ t, x = 95 :: t)

/-- A label names one line only. -/
theorem NamesLine.uniq {n m : Nat} {l : Str} (h : NamesLine n l) (g : NamesLine m l) : n = m := by
  obtain ⟨x, rfl, hx⟩ := h
  obtain ⟨y, e, hy⟩ := g
  rw [List.append_assoc, List.append_assoc] at e
  obtain ⟨h1, -⟩ := digits_append (decDigits_spec n).2.1 (decDigits_spec m).2.1 hx hy (List.append_cancel_left e)
  rw [← (decDigits_spec n).1, ← (decDigits_spec m).1, h1]

theorem writeLines_line (cs : List CW) : ∀ (ln : Option Nat) (m : List (Nat × Nat)),
    (writeLines ln m cs).filterMap Sum.getRight? = cs ∧
    ∀ (pre : List (Str ⊕ CW)) (c : CW) (post : List (Str ⊕ CW)), writeLines ln m cs = pre ++ .inr c :: post →
      match (pre.filterMap Sum.getLeft?).getLast? with
      | some l => NamesLine c.lnum l
      | none => ln = some c.lnum := by
  induction cs with
  | nil => intro ln m; simp [writeLines]
  | cons d cs ih =>
    intro ln m
    have step : ∀ (l : Str) (hl : NamesLine d.lnum l) (m' : List (Nat × Nat)),
        (.inl l :: .inr d :: writeLines (some d.lnum) m' cs : List (Str ⊕ CW)).filterMap Sum.getRight? = d :: cs ∧
        ∀ (pre : List (Str ⊕ CW)) (c : CW) (post : List (Str ⊕ CW)),
          .inl l :: .inr d :: writeLines (some d.lnum) m' cs = pre ++ .inr c :: post →
          match (pre.filterMap Sum.getLeft?).getLast? with
          | some l => NamesLine c.lnum l
          | none => ln = some c.lnum := by
      intro l hl m'
      obtain ⟨h1, h2⟩ := ih (some d.lnum) m'
      refine ⟨by simp [List.filterMap_cons, h1], ?_⟩
      intro pre c post h
      cases pre with
      | nil => simp at h
      | cons p pre =>
        simp only [List.cons_append, List.cons.injEq] at h
        obtain ⟨rfl, h⟩ := h
        cases pre with
        | nil =>
          simp only [List.nil_append, List.cons.injEq, Sum.inr.injEq] at h
          obtain ⟨rfl, -⟩ := h
          simpa using hl
        | cons q pre =>
          simp only [List.cons_append, List.cons.injEq] at h
          obtain ⟨rfl, h⟩ := h
          have := h2 pre c post h
          simp only [List.filterMap_cons, Sum.getLeft?_inl, Sum.getLeft?_inr]
          revert this
          cases hp : pre.filterMap Sum.getLeft? with
          | nil =>
            simp only [List.getLast?_nil, Option.some.injEq, List.getLast?_singleton]
            intro e
            rw [← e]
            exact hl
          | cons a as =>
            rw [List.getLast?_cons_cons]
            cases hg : (a :: as).getLast? with
            | none => simp at hg
            | some z => exact id
    unfold writeLines
    split
    · split
      · exact step _ ⟨_, rfl, .inr ⟨_, rfl⟩⟩ _
      · exact step _ ⟨[], by simp [lineLabel], .inl rfl⟩ _
    · next hln =>
      obtain ⟨h1, h2⟩ := ih ln m
      refine ⟨by simp [List.filterMap_cons, h1], ?_⟩
      intro pre c post h
      cases pre with
      | nil =>
        simp only [List.nil_append, List.cons.injEq, Sum.inr.injEq] at h
        obtain ⟨rfl, -⟩ := h
        simpa using (Decidable.not_not.mp hln).symm
      | cons p pre =>
        simp only [List.cons_append, List.cons.injEq] at h
        obtain ⟨rfl, h⟩ := h
        simpa [List.filterMap_cons] using h2 pre c post h

/-- The items are written in order, and the last label of a line before an item is one for its line. -/
theorem C34_lines (code : List CW) : (writeLines none [] code).filterMap Sum.getRight? = code ∧
    ∀ (pre : List (Str ⊕ CW)) (c : CW) (post : List (Str ⊕ CW)), writeLines none [] code = pre ++ .inr c :: post →
      ∃ l, (pre.filterMap Sum.getLeft?).getLast? = some l ∧ NamesLine c.lnum l := by
  obtain ⟨h1, h2⟩ := writeLines_line code none []
  refine ⟨h1, fun pre c post h => ?_⟩
  have := h2 pre c post h
  cases hg : (pre.filterMap Sum.getLeft?).getLast? with
  | none => rw [hg] at this; cases this
  | some l => rw [hg] at this; exact ⟨l, rfl, this⟩

/-- Line 1 has three runs. -/
example : lineLabels [⟨.tok .ZERO, 1⟩, ⟨.tok .ONE, 1⟩, ⟨.tok .ZERO, 11⟩, ⟨.tok .ONE, 1⟩, ⟨.tok .ONE, 2⟩, ⟨.tok .ONE, 1⟩] =
    [ofS "@FastBasic_LINE_1", ofS "@FastBasic_LINE_11", ofS "@FastBasic_LINE_1_1", ofS "@FastBasic_LINE_2",
      ofS "@FastBasic_LINE_1_2"] := by decide +kernel

end FB.Out
