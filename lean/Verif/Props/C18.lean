import Verif.Parse.Lift
import Verif.Parse.GrammarFp

/-!
# C18: keywords and their abbreviations
-/

namespace FB.Parse

open Frame

/-! ## Specification -/

/-- Letters compare without case. -/
def sameLetters (a b : Str) : Prop := a.map PS.up = b.map PS.up

/-- Input `r` starts with keyword `lit`, written in the grammar as `lit`, using up `n` characters: either
the full keyword in any letter case, or a proper prefix of it, in any letter case, followed by a dot that
stands in place of a letter that the grammar writes in lower case. -/
def KeywordAt (lit r : Str) (n : Nat) : Prop :=
  (n = lit.length ∧ n ≤ r.length ∧ sameLetters (r.take n) lit) ∨
  (∃ k c, n = k + 1 ∧ lit[k]? = some c ∧ 97 ≤ c ∧ c ≤ 122 ∧ r[k]? = some 46 ∧
    sameLetters (r.take k) (lit.take k))

/-- A keyword whose letters in upper case are all before its letters in lower case, and with nothing else
after (as `PRInt`). `u` is the number of characters that can not be omitted. -/
def UpperLower (lit : Str) (u : Nat) : Prop :=
  u ≤ lit.length ∧ (∀ c ∈ lit.take u, ¬ (97 ≤ c ∧ c ≤ 122)) ∧ (∀ c ∈ lit.drop u, 97 ≤ c ∧ c ≤ 122)

/-! ## Proofs -/

theorem up_up (c : Nat) : PS.up (PS.up c) = PS.up c := by
  unfold PS.up
  split
  · split <;> omega
  · rfl

theorem expect_fst (s : PS) (c : Nat) :
    (s.expect c).1 = decide ((s.str[s.pos]?).map PS.up = some (PS.up c)) := by
  unfold PS.expect PS.cur
  split
  · simp_all
  · split
    · simp_all
    · split <;> simp_all

theorem expect_pos_true {s : PS} {c : Nat} (h : (s.expect c).1 = true) : (s.expect c).2.pos = s.pos + 1 := by
  unfold PS.expect at h ⊢
  split
  · rfl
  · simp_all; split at h <;> (try split at h) <;> simp_all

theorem expect_pos_false {s : PS} {c : Nat} (h : (s.expect c).1 = false) : (s.expect c).2.pos = s.pos := by
  unfold PS.expect at h ⊢
  split
  · simp_all
  · split
    · simp
    · split <;> simp

theorem expect_pos_ge (s : PS) (c : Nat) : ∃ m, (s.expect c).2.pos = s.pos + m := by
  cases h : (s.expect c).1
  · exact ⟨0, expect_pos_false h⟩
  · exact ⟨1, expect_pos_true h⟩

theorem matchLit_pos_ge (l : Str) (s : PS) : ∃ m, (matchLit l s).2.pos = s.pos + m := by
  induction l generalizing s with
  | nil => exact ⟨0, rfl⟩
  | cons a l ihl =>
    simp only [matchLit]
    split
    · split
      · obtain ⟨m, hm⟩ := ihl (s.expect (PS.up a)).2
        obtain ⟨m', hm'⟩ := expect_pos_ge s (PS.up a)
        exact ⟨m' + m, by rw [hm, hm']; omega⟩
      · obtain ⟨m, hm⟩ := expect_pos_ge (s.expect (PS.up a)).2 46
        obtain ⟨m', hm'⟩ := expect_pos_ge s (PS.up a)
        exact ⟨m' + m, by rw [hm, hm']; omega⟩
    · split
      · obtain ⟨m, hm⟩ := ihl (s.expect a).2
        obtain ⟨m', hm'⟩ := expect_pos_ge s a
        exact ⟨m' + m, by rw [hm, hm']; omega⟩
      · exact expect_pos_ge s a

/-- A character of the input, compared without case. -/
theorem expect_iff (s : PS) (c : Nat) :
    (s.expect c).1 = true ↔ ∃ d, (s.str.drop s.pos)[0]? = some d ∧ PS.up d = PS.up c := by
  rw [expect_fst]; simp

theorem KeywordAt_nil (r : Str) (n : Nat) : KeywordAt [] r n ↔ n = 0 := by
  constructor
  · rintro (⟨h, -⟩ | ⟨k, c, -, h, -⟩)
    · exact h
    · simp at h
  · rintro rfl; exact .inl ⟨rfl, by simp, by simp [sameLetters]⟩

theorem KeywordAt_cons (ch : Nat) (cs r : Str) (n : Nat) :
    KeywordAt (ch :: cs) r n ↔
      (∃ d m, r[0]? = some d ∧ PS.up d = PS.up ch ∧ n = m + 1 ∧ KeywordAt cs (r.drop 1) m) ∨
      (97 ≤ ch ∧ ch ≤ 122 ∧ r[0]? = some 46 ∧ n = 1) := by
  constructor
  · rintro (⟨rfl, h2, h3⟩ | ⟨k, c, rfl, h2, h3, h4, h5, h6⟩)
    · cases r with
      | nil => simp at h2
      | cons d r =>
        simp only [sameLetters, List.length_cons, List.take_succ_cons, List.map_cons, List.cons.injEq]
          at h3
        exact .inl ⟨d, cs.length, rfl, h3.1, rfl, .inl ⟨rfl, by simpa using h2, h3.2⟩⟩
    · cases k with
      | zero => simp at h2; subst h2; exact .inr ⟨h3, h4, h5, rfl⟩
      | succ k =>
        cases r with
        | nil => simp at h5
        | cons d r =>
          simp only [sameLetters, List.take_succ_cons, List.map_cons, List.cons.injEq] at h6
          exact .inl ⟨d, k + 1, rfl, h6.1, rfl, .inr ⟨k, c, rfl, by simpa using h2, h3, h4,
            by simpa using h5, h6.2⟩⟩
  · rintro (⟨d, m, h1, h2, rfl, h⟩ | ⟨h1, h2, h3, rfl⟩)
    · cases r with
      | nil => simp at h1
      | cons d' r =>
        simp at h1; subst h1
        rcases h with ⟨rfl, h4, h5⟩ | ⟨k, c, rfl, h4, h5, h6, h7, h8⟩
        · refine .inl ⟨rfl, by simpa using h4, ?_⟩
          simp [sameLetters, h2] at h5 ⊢
          exact h5
        · refine .inr ⟨k + 1, c, rfl, by simpa using h4, h5, h6, by simpa using h7, ?_⟩
          simp [sameLetters, h2] at h8 ⊢
          exact h8
    · exact .inr ⟨0, ch, rfl, rfl, h1, h2, h3, by simp [sameLetters]⟩

theorem matchLit_spec (lit : Str) (s : PS) (n : Nat) :
    ((matchLit lit s).1 = true ∧ (matchLit lit s).2.pos = s.pos + n) ↔
      KeywordAt lit (s.str.drop s.pos) n := by
  induction lit generalizing s n with
  | nil => simp [matchLit, KeywordAt_nil, eq_comm]
  | cons ch cs ih =>
    have next : ∀ c, PS.up c = PS.up ch → (s.expect c).1 = true →
        ∀ n, ((matchLit cs (s.expect c).2).1 = true ∧ (matchLit cs (s.expect c).2).2.pos = s.pos + n) ↔
          ∃ m, n = m + 1 ∧ KeywordAt cs ((s.str.drop s.pos).drop 1) m := by
      intro c hc h n
      have hp := expect_pos_true h
      constructor
      · rintro ⟨h1, h2⟩
        obtain ⟨m, hm⟩ := matchLit_pos_ge cs (s.expect c).2
        refine ⟨m, by rw [hm, hp] at h2; omega, ?_⟩
        have := (ih (s.expect c).2 m).1 ⟨h1, hm⟩
        simpa [hp] using this
      · rintro ⟨m, rfl, h3⟩
        have := (ih (s.expect c).2 m).2 (by simpa [hp] using h3)
        exact ⟨this.1, by rw [this.2, hp]; omega⟩
    rw [KeywordAt_cons]
    simp only [matchLit]
    split
    · next hlow =>
      split
      · next h =>
        rw [next _ (up_up ch) h]
        obtain ⟨d, hd1, hd2⟩ := (expect_iff s _).1 h
        rw [up_up] at hd2
        constructor
        · rintro ⟨m, rfl, hm⟩; exact .inl ⟨d, m, hd1, hd2, rfl, hm⟩
        · rintro (⟨d', m, -, -, rfl, hm⟩ | ⟨-, -, h46, -⟩)
          · exact ⟨m, rfl, hm⟩
          · rw [hd1] at h46; cases h46
            exfalso
            unfold PS.up at hd2; simp at hd2; rw [if_pos hlow] at hd2; omega
      · next h =>
        have h' : (s.expect (PS.up ch)).1 = false := by simpa using h
        have hp := expect_pos_false h'
        constructor
        · rintro ⟨h1, h2⟩
          have hp2 := expect_pos_true h1
          obtain ⟨d, hd1, hd2⟩ := (expect_iff _ _).1 h1
          refine .inr ⟨hlow.1, hlow.2, ?_, by rw [hp2, hp] at h2; omega⟩
          simp only [expect_str, hp] at hd1
          rw [hd1]; congr 1
          unfold PS.up at hd2; split at hd2 <;> simp at hd2 <;> omega
        · rintro (⟨d, m, hd1, hd2, -, -⟩ | ⟨-, -, h46, rfl⟩)
          · exact absurd ((expect_iff s (PS.up ch)).2 ⟨d, hd1, by rw [up_up]; exact hd2⟩) h
          · have h1 : ((s.expect (PS.up ch)).2.expect 46).1 = true :=
              (expect_iff _ _).2 ⟨46, by simpa [hp] using h46, rfl⟩
            exact ⟨h1, by rw [expect_pos_true h1, hp]⟩
    · next hlow =>
      split
      · next h =>
        rw [next _ rfl h]
        obtain ⟨d, hd1, hd2⟩ := (expect_iff s _).1 h
        constructor
        · rintro ⟨m, rfl, hm⟩; exact .inl ⟨d, m, hd1, hd2, rfl, hm⟩
        · rintro (⟨d', m, -, -, rfl, hm⟩ | ⟨h1, h2, -, -⟩)
          · exact ⟨m, rfl, hm⟩
          · exact absurd ⟨h1, h2⟩ hlow
      · next h =>
        constructor
        · rintro ⟨h1, -⟩; cases h1
        · rintro (⟨d, m, hd1, hd2, -, -⟩ | ⟨h1, h2, -, -⟩)
          · exact absurd ((expect_iff s ch).2 ⟨d, hd1, hd2⟩) h
          · exact absurd ⟨h1, h2⟩ hlow

/-- **C18**. For every keyword of a grammar and every state: `parse_literal` succeeds and consumes `n`
characters exactly when the rest of the line starts with the keyword, in full or abbreviated, using up
`n` characters. -/
theorem C18_keyword (lit : Str) (s : PS) (n : Nat) :
    (∃ s', parseLiteral lit s = .ok s' ∧ s'.pos = s.pos + n) ↔ KeywordAt lit (s.str.drop s.pos) n := by
  have h := matchLit_spec lit (s.error ([39] ++ ucase lit ++ [39])) n
  simp only [error_pos, error_str] at h
  rw [← h]
  unfold parseLiteral
  dsimp only
  constructor
  · rintro ⟨s', h1, h2⟩
    split at h1
    · cases h1; next h3 => exact ⟨h3, by simpa using h2⟩
    · cases h1
  · rintro ⟨h1, h2⟩
    refine ⟨_, if_pos h1, by simpa using h2⟩

/-- **C18 (otherwise rejected)**. If the rest of the line does not start with the keyword the literal is
refused (not an exception), and nothing is emitted or added to the listing. -/
theorem C18_rejected (lit : Str) (s : PS) (h : ∀ n, ¬ KeywordAt lit (s.str.drop s.pos) n) :
    ∃ s', parseLiteral lit s = .fail s' ∧ s'.procs = s.procs ∧ s'.expand = s.expand := by
  have h0 := fun n => mt (matchLit_spec lit (s.error ([39] ++ ucase lit ++ [39])) n).1
    (by simpa only [error_pos, error_str] using h n)
  have hr := C18_keyword lit s
  unfold parseLiteral at hr ⊢
  dsimp only at hr ⊢
  by_cases h1 : (matchLit lit (s.error ([39] ++ ucase lit ++ [39]))).1 = true
  · exfalso
    obtain ⟨m, hm⟩ := matchLit_pos_ge lit (s.error ([39] ++ ucase lit ++ [39]))
    exact h0 m ⟨h1, hm⟩
  · exact ⟨_, if_neg h1, by simp, by simp⟩

/-- **C18 (abbreviations)**. For a keyword written with upper case letters followed by lower case letters,
the accepted abbreviations are exactly the proper prefixes with all the upper case letters, and a dot. -/
theorem C18_abbreviation (lit : Str) (u : Nat) (hu : UpperLower lit u) (r : Str) (n : Nat) :
    KeywordAt lit r n ↔
      (n = lit.length ∧ n ≤ r.length ∧ sameLetters (r.take n) lit) ∨
      (∃ k, u ≤ k ∧ k < lit.length ∧ n = k + 1 ∧ r[k]? = some 46 ∧ sameLetters (r.take k) (lit.take k)) := by
  unfold KeywordAt
  refine or_congr_right ⟨?_, ?_⟩
  · rintro ⟨k, c, rfl, h1, h2, h3, h4, h5⟩
    obtain ⟨hk, hc⟩ := List.getElem?_eq_some_iff.1 h1
    refine ⟨k, ?_, hk, rfl, h4, h5⟩
    refine Nat.le_of_not_lt fun hlt => hu.2.1 c ?_ ⟨h2, h3⟩
    rw [← hc]
    exact List.mem_take_iff_getElem.2 ⟨k, by omega, rfl⟩
  · rintro ⟨k, h1, h2, rfl, h4, h5⟩
    have hc := hu.2.2 lit[k] (List.mem_drop_iff_getElem.2 ⟨k - u, by omega, by congr 1; omega⟩)
    exact ⟨k, lit[k], rfl, by simp [h2], hc.1, hc.2, h4, h5⟩

/-! ## Concrete cases -/

/-- `PRInt` is of that form, with 3 characters that can not be omitted. -/
example : UpperLower (ofS "PRInt") 3 := by
  refine ⟨by decide, by decide, by decide⟩

/-- `pri.` is accepted for `PRInt`, and so is `Print`; `pr.` and `PRINS` are not. -/
example : KeywordAt (ofS "PRInt") (ofS "pri.X") 4 := .inr ⟨3, 110, by unfold sameLetters; decide⟩
example : KeywordAt (ofS "PRInt") (ofS "PrintX") 5 := .inl (by unfold sameLetters; decide)
example : ¬ ∃ n, KeywordAt (ofS "PRInt") (ofS "pr.X") n := by
  rintro ⟨n, h⟩
  have := (C18_keyword (ofS "PRInt") { str := ofS "pr.X" } n).2 h
  obtain ⟨s', h1, -⟩ := this
  have : (match parseLiteral (ofS "PRInt") { str := ofS "pr.X" } with | .ok _ => true | _ => false) = false := by
    decide +kernel
  rw [h1] at this; cases this

/-- In a keyword with something after the lower case letters a dot is not accepted there: the grammar has
`RNd()`, and `RND.` is not an abbreviation of it though `RN.` is. This is why the statement of C18 is about
the character that the dot replaces. -/
example : ¬ KeywordAt (ofS "RNd()") (ofS "RND.") 4 := by
  rintro (⟨h, -⟩ | ⟨k, c, hk, h1, h2, h3, -⟩)
  · exact absurd h (by decide)
  · obtain rfl : k = 3 := by omega
    simp [ofS] at h1
    omega

/-- The keywords of the real grammar. -/
def literals (ts : List Table) : List Str :=
  ts.flatMap fun t => t.lines.flatMap fun l => l.filterMap fun | .lit s => some s | _ => none

/-- Number of characters before the first lower case letter. -/
def upperLen : Str → Nat
  | [] => 0
  | c :: cs => if 97 ≤ c ∧ c ≤ 122 then 0 else upperLen cs + 1

theorem upperLen_spec (l : Str) (h : ∀ c ∈ l.drop (upperLen l), 97 ≤ c ∧ c ≤ 122) :
    UpperLower l (upperLen l) := by
  refine ⟨?_, ?_, h⟩
  · clear h
    induction l with
    | nil => simp [upperLen]
    | cons c cs ih => simp only [upperLen]; split <;> simp <;> omega
  · clear h
    induction l with
    | nil => simp
    | cons c cs ih =>
      simp only [upperLen]
      split
      · simp
      · next h =>
        intro d hd
        simp only [List.take_succ_cons, List.mem_cons] at hd
        rcases hd with rfl | hd
        · exact h
        · exact ih d hd

/-- In the real grammar every keyword has the form of `C18_abbreviation`, except for seven that have
something after the lower case letters. -/
theorem C18_real_keywords : ∀ l ∈ literals AtariFp.tables,
    UpperLower l (upperLen l) ∨
      l ∈ [ofS "Fre()", ofS "Err()", ofS "Key()", ofS "SErr()", ofS "EXp10", ofS "LOg10", ofS "RNd()"] := by
  have h : ∀ l ∈ literals AtariFp.tables, (∀ c ∈ l.drop (upperLen l), 97 ≤ c ∧ c ≤ 122) ∨
      l ∈ [ofS "Fre()", ofS "Err()", ofS "Key()", ofS "SErr()", ofS "EXp10", ofS "LOg10", ofS "RNd()"] := by
    decide +kernel
  exact fun l hl => (h l hl).imp_left (upperLen_spec l)

end FB.Parse
