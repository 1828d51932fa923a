import Verif.Parse.Compile

/-!
# C31: lines of the source file

A line is described without the scanner: `Body` is the text of a line, without its end: characters, strings (anything between
two quotes, even ends of lines) and comments. `C31_line` says that `readLine` returns exactly this text, whatever the end of
line is; `C31_same_lines` extends it to files; `C31_lossless` says, for all byte strings, that no character is lost, added or
moved, other than the CR of a CR LF. -/

namespace FB.Parse

/-- The ends of lines: LF, CR LF and the ATASCII end of line. -/
inductive Eol
  | lf | crlf | atascii
deriving DecidableEq

/-- The characters of an end of line. -/
def Eol.text : Eol → Str
  | .lf => [10]
  | .crlf => [13, 10]
  | .atascii => [155]

/-- Text of a line. The flag is true at the start of a statement, where a dot starts a comment. -/
inductive Body : Bool → Str → Prop
  | nil {st} : Body st []
  | quote {st b} : (∀ c ∈ b, c ≠ 10 ∧ c ≠ 155) → Body st (39 :: b)
  | dot {b} : (∀ c ∈ b, c ≠ 10 ∧ c ≠ 155) → Body true (46 :: b)
  | string {st a b} : 34 ∉ a → Body false b → Body st (34 :: (a ++ 34 :: b))
  | char {st c b} : c ≠ 10 → c ≠ 155 → c ≠ 39 → c ≠ 34 → (st = true → c ≠ 46) → Body (c = 58 ∨ st = true ∧ c = 32) b →
      Body st (c :: b)

/-- The character that ends the line that is read. -/
def Eol.last : Eol → Nat
  | .lf => 10
  | .crlf => 10
  | .atascii => 155

theorem track_inStart (q : RL) (c : Nat) (hq : q.inComment = false) (h1 : c ≠ 39) (h2 : c ≠ 34) (h3 : q.inStart = true → c ≠ 46) :
    q.track c = { q with inStart := decide (c = 58 ∨ q.inStart = true ∧ c = 32) } := by
  obtain ⟨a, b, d, n⟩ := q
  simp only at hq h3
  subst hq
  unfold RL.track
  cases d
  · by_cases h : c = 58 <;> simp [h, h1, h2]
  · have h4 := h3 rfl
    by_cases h : c = 58 <;> simp [h, h1, h2, h4]
    by_cases h' : c = 32 <;> simp [h']

theorem readLine_eol (q : RL) (hq : q.inString = false) (e : Eol) (rest : Str) :
    readLine q (e.text ++ rest) = ([e.last], q.numLines + 1, rest) := by
  cases e <;> simp [readLine, Eol.text, Eol.last, hq]

/-- A character outside of strings that does not end the line. -/
theorem readLine_char (q : RL) (hq : q.inString = false) (c : Nat) (cs : Str) (h1 : c ≠ 10) (h2 : c ≠ 155)
    (h3 : c = 13 → cs.head? ≠ some 10) :
    readLine q (c :: cs) = (c :: (readLine (q.track c) cs).1, (readLine (q.track c) cs).2) := by
  rw [readLine.eq_def]
  simp only [hq, Bool.false_eq_true, if_false]
  split
  · next d cs' => exact absurd rfl (h3 rfl)
  · next d cs' h => rw [if_neg (by simp [h1, h2])]

theorem track_comment (q : RL) (c : Nat) (h : q.inComment = true) : (q.track c).inComment = true ∧
    (q.track c).inString = q.inString ∧ (q.track c).numLines = q.numLines := by
  obtain ⟨a, b, d, n⟩ := q
  simp only at h
  subst h
  unfold RL.track
  cases d <;> simp

theorem head_append_last {b tail : Str} {c : Nat} (h : tail.head? = some 10 → (c :: b).getLast? ≠ some 13)
    (hb : ∀ d ∈ b, d ≠ 10) : c = 13 → (b ++ tail).head? ≠ some 10 := by
  rintro rfl
  cases b with
  | nil => intro h'; exact h h' rfl
  | cons d b => simpa using hb d (List.mem_cons_self ..)

theorem last_tail {b tail : Str} {c : Nat} (h : tail.head? = some 10 → (c :: b).getLast? ≠ some 13) :
    tail.head? = some 10 → b.getLast? ≠ some 13 := by
  intro h' h2
  refine h h' ?_
  cases b with
  | nil => cases h2
  | cons d b => simpa using h2

/-- Comments go to the end of the line. -/
theorem readLine_comment (b tail : Str) : ∀ (q : RL), q.inString = false → q.inComment = true → (∀ c ∈ b, c ≠ 10 ∧ c ≠ 155) →
    (tail.head? = some 10 → b.getLast? ≠ some 13) →
    ∃ q' : RL, q'.inString = false ∧ q'.numLines = q.numLines ∧
      readLine q (b ++ tail) = (b ++ (readLine q' tail).1, (readLine q' tail).2) := by
  induction b with
  | nil => intro q h1 _ _ _; exact ⟨q, h1, rfl, rfl⟩
  | cons c b ih =>
    intro q h1 h2 h3 h4
    obtain ⟨k1, k2, k3⟩ := track_comment q c h2
    obtain ⟨q', g1, g2, g3⟩ := ih (q.track c) (by rw [k2, h1]) k1 (fun d hd => h3 d (List.mem_cons_of_mem _ hd)) (last_tail h4)
    refine ⟨q', g1, by rw [g2, k3], ?_⟩
    have hc := h3 c (List.mem_cons_self ..)
    rw [List.cons_append, readLine_char q h1 c _ hc.1 hc.2
      (head_append_last h4 fun d hd => (h3 d (List.mem_cons_of_mem _ hd)).1), g3]
    rfl

/-- Strings go to the next quote. -/
theorem readLine_string (a tail : Str) : ∀ (q : RL), q.inString = true → 34 ∉ a →
    readLine q (a ++ 34 :: tail) =
      (a ++ 34 :: (readLine { q with inString := false, numLines := q.numLines + a.count 10 } tail).1,
        (readLine { q with inString := false, numLines := q.numLines + a.count 10 } tail).2) := by
  induction a with
  | nil =>
    intro q h _
    obtain ⟨s, b, d, n⟩ := q
    simp only at h
    subst h
    simp [readLine]
  | cons c a ih =>
    intro q h hn
    obtain ⟨s, b, d, n⟩ := q
    simp only at h
    subst h
    have hc : c ≠ 34 := fun e => hn (by simp [e])
    have := ih ⟨true, b, d, if c = 10 then n + 1 else n⟩ rfl (fun h => hn (List.mem_cons_of_mem _ h))
    rw [List.cons_append, readLine.eq_def]
    simp only [if_true]
    rw [show (c != 34) = true by simp [hc], this]
    have e : (if c = 10 then n + 1 else n) + a.count 10 = n + (c :: a).count 10 := by
      rw [List.count_cons]
      by_cases h : c = 10 <;> simp [h] <;> omega
    simp only [e, List.cons_append]

theorem Body.no_lf_head {st : Bool} {b : Str} (h : Body st b) : b.head? ≠ some 10 := by
  cases h <;> simp_all

/-- `readLine` goes over the text of a line without changing it. -/
theorem readLine_body {st : Bool} {b : Str} (hb : Body st b) (tail : Str) : ∀ (q : RL), q.inString = false →
    q.inComment = false → q.inStart = st → (tail.head? = some 10 → b.getLast? ≠ some 13) →
    ∃ q' : RL, q'.inString = false ∧ q'.numLines = q.numLines + b.count 10 ∧
      readLine q (b ++ tail) = (b ++ (readLine q' tail).1, (readLine q' tail).2) := by
  induction hb with
  | nil => intro q h1 _ _ _; exact ⟨q, h1, rfl, rfl⟩
  | @quote st b hb =>
    intro q h1 h2 h3 h4
    have ht : (q.track 39).inComment = true ∧ (q.track 39).inString = false ∧ (q.track 39).numLines = q.numLines := by
      obtain ⟨a, c, d, n⟩ := q
      simp only at h1 h2
      subst h1 h2
      cases d <;> simp [RL.track]
    obtain ⟨q', g1, g2, g3⟩ := readLine_comment b tail (q.track 39) ht.2.1 ht.1 hb (last_tail h4)
    refine ⟨q', g1, ?_, ?_⟩
    · rw [g2, ht.2.2, List.count_eq_zero.mpr]
      · rfl
      · intro h
        rcases List.mem_cons.mp h with h | h
        · cases h
        · exact (hb _ h).1 rfl
    · rw [List.cons_append, readLine_char q h1 39 _ (by decide) (by decide) (by intro h; cases h), g3]
      rfl
  | @dot b hb =>
    intro q h1 h2 h3 h4
    have ht : (q.track 46).inComment = true ∧ (q.track 46).inString = false ∧ (q.track 46).numLines = q.numLines := by
      obtain ⟨a, c, d, n⟩ := q
      simp only at h1 h2 h3
      subst h1 h2 h3
      simp [RL.track]
    obtain ⟨q', g1, g2, g3⟩ := readLine_comment b tail (q.track 46) ht.2.1 ht.1 hb (last_tail h4)
    refine ⟨q', g1, ?_, ?_⟩
    · rw [g2, ht.2.2, List.count_eq_zero.mpr]
      · rfl
      · intro h
        rcases List.mem_cons.mp h with h | h
        · cases h
        · exact (hb _ h).1 rfl
    · rw [List.cons_append, readLine_char q h1 46 _ (by decide) (by decide) (by intro h; cases h), g3]
      rfl
  | @string st a b ha hb ih =>
    intro q h1 h2 h3 h4
    have ht : q.track 34 = { q with inString := true, inStart := false } := by
      obtain ⟨a, c, d, n⟩ := q
      simp only at h1 h2
      subst h1 h2
      cases d <;> simp [RL.track]
    have h5 : tail.head? = some 10 → b.getLast? ≠ some 13 := by
      intro h' h2
      refine h4 h' ?_
      cases b with
      | nil => cases h2
      | cons d b =>
        rw [show 34 :: (a ++ 34 :: d :: b) = (34 :: a ++ [34]) ++ d :: b by simp, List.getLast?_append, h2]
        rfl
    obtain ⟨q', g1, g2, g3⟩ := ih { q with inString := false, inStart := false, numLines := q.numLines + a.count 10 } rfl h2 rfl h5
    refine ⟨q', g1, ?_, ?_⟩
    · rw [g2]
      simp only [List.count_cons, List.count_append]
      simp
      omega
    · rw [List.cons_append, readLine_char q h1 34 _ (by decide) (by decide) (by intro h; cases h), ht, List.append_assoc,
        List.cons_append, readLine_string _ _ _ rfl ha, g3]
      simp
  | @char st c b h1 h2 h3 h4 h5 hb ih =>
    intro q k1 k2 k3 k4
    have ht := track_inStart q c k2 h3 h4 (by rw [k3]; exact h5)
    obtain ⟨q', g1, g2, g3⟩ := ih (q.track c) (by rw [ht]; exact k1) (by rw [ht]; exact k2) (by rw [ht, k3]) (last_tail k4)
    refine ⟨q', g1, ?_, ?_⟩
    · rw [g2, ht, List.count_cons_of_ne h1]
    · rw [List.cons_append, readLine_char q k1 c _ h1 h2 ?_, g3]
      · rfl
      · rintro rfl
        cases b with
        | nil => intro h'; exact k4 h' rfl
        | cons d b => simpa using hb.no_lf_head

/-- A line is read exactly, whatever its end: its text, a mark for the end of line, the number of lines (more than one if a
string contains ends of lines), and the rest of the file. -/
theorem C31_line {b : Str} (hb : Body true b) (hcr : b.getLast? ≠ some 13) (e : Eol) (rest : Str) :
    readLine {} (b ++ e.text ++ rest) = (b ++ [e.last], b.count 10 + 1, rest) := by
  obtain ⟨q', h1, h2, h3⟩ := readLine_body hb (e.text ++ rest) {} rfl rfl rfl (fun _ => hcr)
  rw [List.append_assoc, h3, readLine_eol q' h1, h2]
  simp

/-- The last line of a file does not need an end. -/
theorem C31_last_line {b : Str} (hb : Body true b) : readLine {} b = (b, 0, []) := by
  obtain ⟨q', h1, h2, h3⟩ := readLine_body hb [] {} rfl rfl rfl (by simp)
  rw [List.append_nil] at h3
  rw [h3]
  simp [readLine]

/-- The lines of a file, as the loop of `compile_file` gets them (`/repo/src/compiler/compile.cc:205-219`). The first argument is a
bound; the length of the file plus one is enough. -/
def fileLines : Nat → Str → List Str
  | 0, _ => []
  | n + 1, src =>
    if (readLine {} src).2.1 = 0 ∧ (readLine {} src).1 = [] then []
    else (readLine {} src).1 :: fileLines n (readLine {} src).2.2

/-- A file: lines with their ends, and a last line without one. -/
def fileText (ls : List (Str × Eol)) (last : Str) : Str := (ls.map fun l => l.1 ++ l.2.text).flatten ++ last

/-- Whatever ends of lines a file uses, its lines are the same: the texts that were written, each followed by one character. -/
theorem C31_same_lines (ls : List (Str × Eol)) (last : Str) (hl : ∀ l ∈ ls, Body true l.1 ∧ l.1.getLast? ≠ some 13)
    (hlast : Body true last) : ∀ n, (fileText ls last).length < n →
    fileLines n (fileText ls last) = (ls.map fun l => l.1 ++ [l.2.last]) ++ (if last = [] then [] else [last]) := by
  induction ls with
  | nil =>
    intro n hn
    cases n with
    | zero => omega
    | succ n =>
      simp only [fileText, List.map_nil, List.flatten_nil, List.nil_append, fileLines, C31_last_line hlast]
      by_cases h : last = []
      · simp [h]
      · simp only [h, and_false, if_false]
        cases n with
        | zero => rfl
        | succ n => simp [fileLines, readLine]
  | cons l ls ih =>
    intro n hn
    cases n with
    | zero => omega
    | succ n =>
      have hb := hl l (List.mem_cons_self ..)
      have e : fileText (l :: ls) last = l.1 ++ l.2.text ++ fileText ls last := by simp [fileText]
      have hlen : (fileText (l :: ls) last).length = l.1.length + l.2.text.length + (fileText ls last).length := by
        rw [e]; simp [Nat.add_assoc]
      have h1 : 1 ≤ l.2.text.length := by cases l.2 <;> decide
      simp only [fileLines]
      rw [e, C31_line hb.1 hb.2]
      simp only [Nat.add_one_ne_zero, false_and, if_false]
      rw [ih (fun l h => hl l (List.mem_cons_of_mem _ h)) n (by omega)]
      rfl

/-- A line as it is in the file: the same characters, or with a CR before the LF that ends it. -/
def Raw (line raw : Str) : Prop := raw = line ∨ ∃ b, line = b ++ [10] ∧ raw = b ++ [13, 10]

theorem readLine_raw (src : Str) : ∀ q : RL, ∃ raw, src = raw ++ (readLine q src).2.2 ∧ Raw (readLine q src).1 raw := by
  have cons : ∀ {line raw : Str} (c : Nat), Raw line raw → Raw (c :: line) (c :: raw) := by
    intro line raw c h
    rcases h with rfl | ⟨b, rfl, rfl⟩
    · exact .inl rfl
    · exact .inr ⟨c :: b, rfl, rfl⟩
  induction src with
  | nil => intro q; exact ⟨[], rfl, .inl rfl⟩
  | cons c cs ih =>
    intro q
    rw [readLine.eq_def]
    dsimp only
    split
    · obtain ⟨raw, h1, h2⟩ := ih { q with numLines := if c = 10 then q.numLines + 1 else q.numLines, inString := c != 34 }
      exact ⟨c :: raw, by rw [List.cons_append, ← h1], cons c h2⟩
    · split
      · next d cs' _ => exact ⟨[13, 10], rfl, .inr ⟨[], rfl, rfl⟩⟩
      · split
        · exact ⟨[c], rfl, .inl rfl⟩
        · obtain ⟨raw, h1, h2⟩ := ih (q.track c)
          exact ⟨c :: raw, by rw [List.cons_append, ← h1], cons c h2⟩

theorem readLine_nil {q : RL} {src : Str} (h : (readLine q src).1 = []) : src = [] := by
  cases src with
  | nil => rfl
  | cons c cs =>
    rw [readLine.eq_def] at h
    dsimp only at h
    split at h
    · cases h
    · split at h
      · cases h
      · split at h <;> cases h

/-- No character is lost, added or moved, in any file: the file is the sequence of its lines, up to the CRs before the LF that
ends a line. -/
theorem C31_lossless : ∀ (n : Nat) (src : Str), src.length < n →
    ∃ raws : List Str, src = raws.flatten ∧ raws.length = (fileLines n src).length ∧
      ∀ p ∈ (fileLines n src).zip raws, Raw p.1 p.2 := by
  intro n
  induction n with
  | zero => intro src h; omega
  | succ n ih =>
    intro src h
    obtain ⟨raw, h1, h2⟩ := readLine_raw src {}
    simp only [fileLines]
    split
    · next he => exact ⟨[], by rw [readLine_nil he.2]; rfl, rfl, by simp⟩
    · next he =>
      cases src with
      | nil => simp [readLine] at he
      | cons c cs =>
        have hraw : raw ≠ [] := by
          rintro rfl
          rcases h2 with h | ⟨b, -, h⟩
          · have := readLine_nil h.symm; cases this
          · simp at h
        have hpos : 1 ≤ raw.length := by cases raw with | nil => exact absurd rfl hraw | cons => simp
        have hlen := congrArg List.length h1
        rw [List.length_append] at hlen
        obtain ⟨raws, g1, g2, g3⟩ := ih (readLine {} (c :: cs)).2.2 (by omega)
        refine ⟨raw :: raws, ?_, by simp [g2], ?_⟩
        · rw [List.flatten_cons, ← g1]; exact h1
        · intro p hp
          rw [List.zip_cons_cons] at hp
          rcases List.mem_cons.mp hp with rfl | hp
          · exact h2
          · exact g3 p hp

/-- Compilation of a list of lines, one after the other, each with its number. -/
def compileAll (start : PS → Res) : List (Str × Nat) → PS → CRes
  | [], s => .ok s
  | (l, ln) :: ls, s =>
    match compileLine start l ln s with
    | .err e => .err e
    | .ok s => compileAll start ls s

/-- The compiler compiles the lines of the file in their order. -/
theorem C31_compiled (start : PS → Res) : ∀ (n : Nat) (src : Str) (ln : Nat) (s : PS), src.length < n →
    ∃ ls : List (Str × Nat), ls.map Prod.fst = fileLines n src ∧ compileLines start n src ln s = compileAll start ls s ∧
      ∀ l ∈ ls, ln ≤ l.2 := by
  intro n
  induction n with
  | zero => intro src ln s h; omega
  | succ n ih =>
    intro src ln s h
    simp only [fileLines, compileLines]
    split
    · exact ⟨[], rfl, rfl, by simp⟩
    · next he =>
      have hlen : (readLine {} src).2.2.length < n := by
        obtain ⟨raw, h1, h2⟩ := readLine_raw src {}
        have hraw : raw ≠ [] := by
          rintro rfl
          rcases h2 with h | ⟨b, -, h⟩
          · have := readLine_nil h.symm
            subst this
            simp [readLine] at he
          · simp at h
        have hpos : 1 ≤ raw.length := by cases raw with | nil => exact absurd rfl hraw | cons => simp
        have hlen := congrArg List.length h1
        rw [List.length_append] at hlen
        omega
      cases hc : compileLine start (readLine {} src).1 ln s with
      | err e =>
        obtain ⟨ls, g1, -, g3⟩ := ih (readLine {} src).2.2 (ln + (readLine {} src).2.1) s hlen
        refine ⟨((readLine {} src).1, ln) :: ls, by simp [g1], by simp [compileAll, hc], ?_⟩
        intro l hl
        rcases List.mem_cons.mp hl with rfl | hl
        · exact Nat.le_refl _
        · have := g3 l hl; omega
      | ok s1 =>
        obtain ⟨ls, g1, g2, g3⟩ := ih (readLine {} src).2.2 (ln + (readLine {} src).2.1) s1 hlen
        refine ⟨((readLine {} src).1, ln) :: ls, by simp [g1], by simp [compileAll, hc, g2], ?_⟩
        intro l hl
        rcases List.mem_cons.mp hl with rfl | hl
        · exact Nat.le_refl _
        · have := g3 l hl; omega

/-! ## Examples -/

/-- A line with a string that has a quote sign and a CR LF in it, and a comment. -/
example : Body true (ofS "A$=\"it's\r\n\":. say \"hi") ∧ (ofS "A$=\"it's\r\n\":. say \"hi").getLast? ≠ some 13 := by
  refine ⟨?_, by decide +kernel⟩
  rw [show ofS "A$=\"it's\r\n\":. say \"hi" =
    65 :: 36 :: 61 :: 34 :: ([105, 116, 39, 115, 13, 10] ++ 34 :: 58 :: 46 :: [32, 115, 97, 121, 32, 34, 104, 105]) by decide +kernel]
  refine .char (by decide) (by decide) (by decide) (by decide) (by decide) ?_
  refine .char (by decide) (by decide) (by decide) (by decide) (by decide) ?_
  refine .char (by decide) (by decide) (by decide) (by decide) (by decide) ?_
  refine .string (by decide) ?_
  refine .char (by decide) (by decide) (by decide) (by decide) (by decide) ?_
  exact .dot (by decide)

/-- The three kinds of ends in one file. -/
example : fileLines 100 (fileText [(ofS "A=1", .lf), (ofS "B=2", .crlf), (ofS "C=3", .atascii)] (ofS "D=4")) =
    [ofS "A=1\n", ofS "B=2\n", ofS "C=3" ++ [155], ofS "D=4"] := by decide +kernel

/-- What is a comment here is not what is one for the parser in one case: after `THEN` a dot starts a comment for the parser, but
not for `readLine`. A quote in such a comment joins the next line. -/
theorem C31_then_comment : fileLines 100 (ofS "IF 1 THEN .\"\nA=1\n") = [ofS "IF 1 THEN .\"\nA=1\n"] := by decide +kernel

end FB.Parse
