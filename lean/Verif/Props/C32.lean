import Verif.Syn.Preproc

/-!
# C32: conditional sections of the syntax files

A document is made of lines and of sections `#@if WORD` … `#@endif`, nested in any way (`Doc`). `keep` is the text that should be
kept: everything that is not inside of a section whose condition fails; of those parts, the ends of lines and the signs `#` that
start comments are kept, so that the lines keep their numbers.

`C32_sections_partial`: this is what `read_input` does, if the sections inside of a section that is not kept are also not
kept. `C32_nested_refuted`: it is not what it does otherwise: a section whose condition holds inside of one whose condition fails
ends both. `C32_unbalanced_refuted`: a missing `#@endif` is not reported (the function has no errors). -/

namespace FB.Syn

open FB.Parse (Str ofS)

/-- A text with conditional sections. -/
inductive Doc
  | nil
  | line (l : Str) (rest : Doc)
  | cond (neg : Bool) (word : Str) (body rest : Doc)

/-- `#@if WORD` or `#@if !WORD`. -/
def ifLine (neg : Bool) (word : Str) : Str := ofS "#@if " ++ (if neg then [33] else []) ++ word

/-- The text of a document. -/
def Doc.text : Doc → Str
  | .nil => []
  | .line l rest => l ++ 10 :: rest.text
  | .cond neg word body rest => ifLine neg word ++ 10 :: (body.text ++ ofS "#@endif" ++ 10 :: rest.text)

/-- Does the condition hold? -/
def holds (defs : List Str) (neg : Bool) (word : Str) : Bool := if neg then !defs.contains word else defs.contains word

/-- What is kept of the text of a line. -/
def mask (on : Bool) (l : Str) : Str := if on then l else l.filter (· = 35)

/-- What should be kept of a document. -/
def Doc.keep (defs : List Str) : Bool → Doc → Str
  | _, .nil => []
  | on, .line l rest => mask on l ++ 10 :: rest.keep defs on
  | on, .cond neg word body rest =>
    mask on (ifLine neg word) ++ 10 :: (body.keep defs (on && holds defs neg word) ++
      mask (on && holds defs neg word) (ofS "#@endif") ++ 10 :: rest.keep defs on)

/-- A line of text: not a directive. -/
def LineOk (l : Str) : Prop := 10 ∉ l ∧ ∀ a b, l ≠ a ++ 35 :: 64 :: b

/-- Words are made of capital letters and `_`. -/
def WordOk (w : Str) : Prop := w ≠ [] ∧ ∀ c ∈ w, (65 ≤ c ∧ c ≤ 90) ∨ c = 95

/-- Lines and words are as above. -/
def Doc.Ok : Doc → Prop
  | .nil => True
  | .line l rest => LineOk l ∧ rest.Ok
  | .cond _ word body rest => WordOk word ∧ body.Ok ∧ rest.Ok

/-- Inside of a section that is not kept there is no section whose condition holds. -/
def Doc.Fine (defs : List Str) : Bool → Doc → Prop
  | _, .nil => True
  | on, .line _ rest => rest.Fine defs on
  | on, .cond neg word body rest => (on = false → holds defs neg word = false) ∧
      body.Fine defs (on && holds defs neg word) ∧ rest.Fine defs on

/-- A character that is kept or not. -/
def kept (on : Bool) (c : Nat) : Str := if on ∨ c = 10 ∨ c = 35 then [c] else []

theorem readInput_cons (defs : List Str) (q : PP) (c : Nat) (cs : Str) : readInput defs q (c :: cs) =
    kept ((ppNext defs q c).skip = 0) c ++ readInput defs (ppNext defs q c) cs := by
  simp only [readInput, kept, decide_eq_true_eq]
  split <;> rfl

theorem mask_cons (on : Bool) (c : Nat) (l : Str) (h : c ≠ 10) : mask on (c :: l) = kept on c ++ mask on l := by
  unfold mask kept
  cases on
  · by_cases h' : c = 35 <;> simp [h, h']
  · simp

theorem readInput_line (defs : List Str) (k : Nat) (tail : Str) (l : Str) : ∀ st, (st = 0 ∨ st = 1 ∧ l.head? ≠ some 64) → LineOk l →
    readInput defs ⟨st, k, []⟩ (l ++ 10 :: tail) = mask (k = 0) l ++ 10 :: readInput defs ⟨0, k, []⟩ tail := by
  induction l with
  | nil =>
    intro st hst _
    rw [List.nil_append, readInput_cons]
    have : ppNext defs ⟨st, k, []⟩ 10 = ⟨0, k, []⟩ := by rcases hst with rfl | ⟨rfl, -⟩ <;> rfl
    rw [this]
    simp [kept, mask]
  | cons c l ih =>
    intro st hst hl
    have hl' : LineOk l := ⟨fun h => hl.1 (List.mem_cons_of_mem _ h), fun a b h => hl.2 (c :: a) b (by rw [h]; rfl)⟩
    have hc : c ≠ 10 := fun h => hl.1 (by simp [h])
    rw [List.cons_append, readInput_cons]
    obtain ⟨st', h1, h2⟩ : ∃ st', ppNext defs ⟨st, k, []⟩ c = ⟨st', k, []⟩ ∧ (st' = 0 ∨ st' = 1 ∧ l.head? ≠ some 64) := by
      rcases hst with rfl | ⟨rfl, h⟩
      · by_cases h35 : c = 35
        · subst h35
          refine ⟨1, rfl, .inr ⟨rfl, ?_⟩⟩
          intro h
          cases l with
          | nil => cases h
          | cons d l => simp only [List.head?_cons, Option.some.injEq] at h; subst h; exact hl.2 [] l rfl
        · exact ⟨0, by simp [ppNext, h35], .inl rfl⟩
      · have : c ≠ 64 := by simpa using h
        exact ⟨0, by simp [ppNext, this], .inl rfl⟩
    rw [h1, ih st' h2 hl', mask_cons _ _ _ hc, List.append_assoc]

theorem mask_false (on : Bool) (l r : Str) : mask on (l ++ r) = mask on l ++ mask on r := by
  unfold mask; cases on <;> simp

/-- The letters of a word. -/
theorem readInput_word (defs : List Str) (k : Nat) (tail : Str) (w : Str) : ∀ v : Str, (∀ c ∈ w, (65 ≤ c ∧ c ≤ 90) ∨ c = 95) →
    readInput defs ⟨5, k, v⟩ (w ++ 10 :: tail) = mask (k = 0) w ++ 10 ::
      readInput defs ⟨0, k + if skips defs (v ++ w) then 1 else 0, []⟩ tail := by
  induction w with
  | nil =>
    intro v _
    rw [List.nil_append, readInput_cons]
    simp [ppNext, kept, mask]
  | cons c w ih =>
    intro v h
    have hc := h c (List.mem_cons_self ..)
    have hn : ppNext defs ⟨5, k, v⟩ c = ⟨5, k, v ++ [c]⟩ := by
      simp only [ppNext]
      rw [if_neg (by omega), if_pos (by omega)]
    rw [List.cons_append, readInput_cons, hn, ih _ fun d hd => h d (List.mem_cons_of_mem _ hd), mask_cons _ _ _ (by omega)]
    simp

theorem skips_word {defs : List Str} {w : Str} (h : WordOk w) (neg : Bool) :
    skips defs ((if neg then [33] else []) ++ w) = !holds defs neg w := by
  obtain ⟨h1, h2⟩ := h
  cases w with
  | nil => exact absurd rfl h1
  | cons c w =>
    cases neg
    · have : c ≠ 33 := by have := h2 c (List.mem_cons_self ..); omega
      simp only [Bool.false_eq_true, if_false, List.nil_append, holds]
      unfold skips
      split
      · next h => cases h
      · next h => simp only [List.cons.injEq] at h; exact absurd h.1 this
      · rfl
    · simp [holds, skips]

/-- The line that starts a section. -/
theorem readInput_if (defs : List Str) (k : Nat) (tail : Str) {w : Str} (h : WordOk w) (neg : Bool) :
    readInput defs ⟨0, k, []⟩ (ifLine neg w ++ 10 :: tail) = mask (k = 0) (ifLine neg w) ++ 10 ::
      readInput defs ⟨0, k + if holds defs neg w then 0 else 1, []⟩ tail := by
  have e : ifLine neg w = 35 :: 64 :: 105 :: 102 :: 32 :: ((if neg then [33] else []) ++ w) := by
    unfold ifLine; rw [show ofS "#@if " = [35, 64, 105, 102, 32] by decide +kernel]; rfl
  have hs := skips_word (defs := defs) h neg
  have hw : readInput defs ⟨5, k, []⟩ (((if neg then [33] else []) ++ w) ++ 10 :: tail) =
      mask (k = 0) ((if neg then [33] else []) ++ w) ++ 10 ::
        readInput defs ⟨0, k + if holds defs neg w then 0 else 1, []⟩ tail := by
    have fin : (if (!holds defs neg w) = true then 1 else 0) = (if holds defs neg w = true then 0 else 1) := by
      cases holds defs neg w <;> rfl
    cases neg
    · have := readInput_word defs k tail w [] h.2
      rw [List.nil_append] at this
      simp only [Bool.false_eq_true, if_false, List.nil_append] at hs ⊢
      rw [this, hs, fin]
    · have := readInput_word defs k tail w [33] h.2
      have hs : skips defs ([33] ++ w) = !holds defs true w := hs
      rw [hs, fin] at this
      simp only [if_true, List.cons_append, List.nil_append]
      rw [readInput_cons, show ppNext defs ⟨5, k, []⟩ 33 = ⟨5, k, [33]⟩ from rfl, this,
        mask_cons _ _ _ (by decide), List.append_assoc]
  rw [e]
  simp only [List.cons_append]
  rw [readInput_cons, show ppNext defs ⟨0, k, []⟩ 35 = ⟨1, k, []⟩ from rfl,
    readInput_cons, show ppNext defs ⟨1, k, []⟩ 64 = ⟨2, k, []⟩ from rfl,
    readInput_cons, show ppNext defs ⟨2, k, []⟩ 105 = ⟨3, k, []⟩ from rfl,
    readInput_cons, show ppNext defs ⟨3, k, []⟩ 102 = ⟨4, k, []⟩ from rfl,
    readInput_cons, show ppNext defs ⟨4, k, []⟩ 32 = ⟨5, k, []⟩ from rfl, hw]
  rw [mask_cons _ _ _ (by decide), mask_cons _ _ _ (by decide), mask_cons _ _ _ (by decide), mask_cons _ _ _ (by decide),
    mask_cons _ _ _ (by decide)]
  simp only [List.append_assoc]

/-- The line that ends a section. -/
theorem readInput_endif (defs : List Str) (k : Nat) (tail : Str) :
    readInput defs ⟨0, k, []⟩ (ofS "#@endif" ++ 10 :: tail) = mask (k = 0) (ofS "#@endif") ++ 10 ::
      readInput defs ⟨0, k - 1, []⟩ tail := by
  rw [show ofS "#@endif" = [35, 64, 101, 110, 100, 105, 102] by decide +kernel]
  simp only [List.cons_append, List.nil_append]
  rw [readInput_cons, show ppNext defs ⟨0, k, []⟩ 35 = ⟨1, k, []⟩ from rfl,
    readInput_cons, show ppNext defs ⟨1, k, []⟩ 64 = ⟨2, k, []⟩ from rfl,
    readInput_cons, show ppNext defs ⟨2, k, []⟩ 101 = ⟨6, k, []⟩ from rfl,
    readInput_cons, show ppNext defs ⟨6, k, []⟩ 110 = ⟨7, k, []⟩ from rfl,
    readInput_cons, show ppNext defs ⟨7, k, []⟩ 100 = ⟨8, k, []⟩ from rfl,
    readInput_cons, show ppNext defs ⟨8, k, []⟩ 105 = ⟨9, k, []⟩ from rfl,
    readInput_cons, show ppNext defs ⟨9, k, []⟩ 102 = ⟨10, k, []⟩ from rfl,
    readInput_cons, show ppNext defs ⟨10, k, []⟩ 10 = ⟨0, k - 1, []⟩ from rfl]
  rw [mask_cons _ _ _ (by decide), mask_cons _ _ _ (by decide), mask_cons _ _ _ (by decide), mask_cons _ _ _ (by decide),
    mask_cons _ _ _ (by decide), mask_cons _ _ _ (by decide), mask_cons _ _ _ (by decide)]
  simp [kept, mask]

theorem readInput_doc (defs : List Str) (d : Doc) : ∀ (k : Nat) (tail : Str), d.Ok → d.Fine defs (k = 0) →
    readInput defs ⟨0, k, []⟩ (d.text ++ tail) = d.keep defs (k = 0) ++ readInput defs ⟨0, k, []⟩ tail := by
  induction d with
  | nil => intro k tail _ _; rfl
  | line l rest ih =>
    intro k tail h1 h2
    have := readInput_line defs k (rest.text ++ tail) l 0 (.inl rfl) h1.1
    simp only [Doc.text, Doc.keep, List.append_assoc, List.cons_append]
    rw [this, ih k tail h1.2 h2]
  | cond neg word body rest ih1 ih2 =>
    intro k tail h1 h2
    obtain ⟨w1, w2, w3⟩ := h1
    obtain ⟨f1, f2, f3⟩ := h2
    have e : decide (k + (if holds defs neg word then 0 else 1) = 0) = (decide (k = 0) && holds defs neg word) := by
      cases holds defs neg word <;> simp
    have r1 := readInput_if defs k (body.text ++ (ofS "#@endif" ++ 10 :: (rest.text ++ tail))) w1 neg
    have r2 := ih1 (k + if holds defs neg word then 0 else 1) (ofS "#@endif" ++ 10 :: (rest.text ++ tail)) w2 (by rw [e]; exact f2)
    have r3 := readInput_endif defs (k + if holds defs neg word then 0 else 1) (rest.text ++ tail)
    have r4 := ih2 k tail w3 f3
    have ek : k + (if holds defs neg word then 0 else 1) - 1 = k := by
      cases hh : holds defs neg word with
      | false => simp
      | true =>
        by_cases hk : k = 0
        · subst hk; rfl
        · have := f1 (by simpa using hk)
          rw [hh] at this; cases this
    simp only [Doc.text, Doc.keep, List.append_assoc, List.cons_append]
    rw [r1, r2, r3, ek, r4, e]

/-- The preprocessor keeps what it should. Missing for the full claim: a section whose condition holds inside of one whose
condition fails (`Fine`), where it does not. -/
theorem C32_sections_partial (defs : List Str) (d : Doc) (h : d.Ok) (hf : d.Fine defs true) :
    readInput defs {} d.text = d.keep defs true := by
  have := readInput_doc defs d 0 [] h hf
  simpa [readInput] using this

/-- Texts without directives are not changed, whatever is defined. -/
theorem C32_plain (defs : List Str) (t : Str) (h : 35 ∉ t) : readInput defs {} t = t := by
  have : ∀ t : Str, 35 ∉ t → readInput defs ⟨0, 0, []⟩ t = t := by
    intro t
    induction t with
    | nil => intro _; rfl
    | cons c t ih =>
      intro h
      have hc : c ≠ 35 := fun e => h (by simp [e])
      rw [readInput_cons, show ppNext defs ⟨0, 0, []⟩ c = ⟨0, 0, []⟩ by simp [ppNext, hc], ih fun g => h (List.mem_cons_of_mem _ g)]
      simp [kept]
  exact this t h

/-! ## Examples -/

/-- A document with nested sections. -/
def sampleDoc : Doc :=
  .line (ofS "a") (.cond false (ofS "FP") (.line (ofS "b") (.cond true (ofS "A") (.line (ofS "c # x") .nil) (.line (ofS "d") .nil)))
    (.line (ofS "e") .nil))

/-- The hypotheses are met, with the outer condition true and the inner one false. -/
example : sampleDoc.Fine [ofS "FP", ofS "A"] true ∧
    readInput [ofS "FP", ofS "A"] {} sampleDoc.text = ofS "a\n#@if FP\nb\n#@if !A\n#\n#\nd\n#@endif\ne\n" := by
  refine ⟨?_, by decide +kernel⟩
  simp only [sampleDoc, Doc.Fine]
  decide +kernel

example : sampleDoc.Ok := by
  have l : ∀ c : Nat, c ≠ 10 → LineOk [c] := fun c h => ⟨by simpa using h.symm, fun a b h => by
    have := congrArg List.length h; simp at this; omega⟩
  refine ⟨l _ (by decide), ⟨by decide +kernel, by decide +kernel⟩, ⟨l _ (by decide), ⟨by decide +kernel, by decide +kernel⟩,
    ⟨⟨by decide +kernel, ?_⟩, trivial⟩, l _ (by decide), trivial⟩, l _ (by decide), trivial⟩
  intro a b h
  have h64 : 64 ∈ ofS "c # x" := by rw [h]; simp
  exact absurd h64 (by decide +kernel)

/-- The claim is false for nested sections: with `A` defined and `B` not, the line `y` is inside of a section whose condition
fails, and it is kept. -/
theorem C32_nested_refuted :
    let d : Doc := .cond false (ofS "B") (.cond false (ofS "A") (.line (ofS "x") .nil) (.line (ofS "y") .nil)) .nil
    readInput [ofS "A"] {} d.text = ofS "#@if B\n#\n\n#\ny\n#@endif\n" ∧ d.keep [ofS "A"] true = ofS "#@if B\n#\n\n#\n\n#\n" := by
  decide +kernel

/-- A section that is not closed: the rest of the file is dropped, without an error. -/
theorem C32_unbalanced_refuted : readInput [] {} (ofS "#@if A\nx\ny\n") = ofS "#@if A\n\n\n" := by decide +kernel

end FB.Syn
