import Verif.Props.C16

/-!
# C42: no source text breaks the parser

The actions of the parser take elements from the vector of code and look for the text in them; they do not
check that the vector is not empty, and throw an internal error if the element is of another kind. Whether
this can happen depends on the order of the actions in the grammar. It is proved here that it does not
with the shipped grammar, using the discipline of `Verif/Parse/Discipline.lean`. It is also proved that all
the loops of the parser end.
-/

namespace FB.Parse

open Frame

/-- An error that is reported to the user. Specification. -/
def Err.proper : Err → Prop
  | .parseErr _ _ => True
  | .internal | .ub | .fuel => False

theorem Err.proper_of {e : Err} (h1 : e ≠ .ub ∧ e ≠ .internal) (h2 : e ≠ .fuel) : e.proper := by
  cases e <;> simp_all [Err.proper]

/-- What holds between statements of a line. -/
structure Between (line : Str) (s : PS) : Prop where
  pos : PosErrIn line s
  level : s.lvl = 0
  procs : ProcJ s

theorem posErrIn_action (env : Env) (line : Str) (a : Act) (s : PS) (h : PosErrIn line s) :
    (action env a s).All (PosErrIn line) := by
  have h1 := PosErr.action env a h.1
  have h2 := action_frame env a s
  revert h1 h2
  cases action env a s with
  | ok s' => exact fun h1 h2 => ⟨h1, h2.2.1.trans h.2⟩
  | fail s' => exact fun h1 h2 => ⟨h1, h2.2.1.trans h.2⟩
  | err e => exact fun _ _ => trivial

/-- **C42** for a statement: parsing a statement of the shipped grammar does not take an element from an
empty vector or raise an internal error, and ends. -/
theorem C42_statement (env : Env) {line : Str} {s : PS} (h : Between line s) :
    match fpStart env s with
    | .ok s' => Between line s' ∧ s.pos ≤ s'.pos
    | .fail s' => Between line s'
    | .err e => e.proper := by
  obtain ⟨b, hb, hn⟩ : ∃ b, AtariFp.ann AtariFp.n_PARSE_START = some b ∧ b.need = [] := ⟨_, rfl, rfl⟩
  obtain ⟨h1, h2⟩ := table_sound env AtariFp.fpDisciplined (maxLevel + 2) AtariFp.n_PARSE_START b hb s [] s.code rfl
    (by rw [hn]; exact .nil) h.procs
  obtain ⟨h3, h4⟩ := C17_parser env AtariFp.grammar AtariFp.n_PARSE_START s h.level
  have h5 := parseTable_posErr (act := action env) (str := line)
    (posErrIn_action env line) AtariFp.grammar (maxLevel + 2) AtariFp.n_PARSE_START s h.pos
  have h6 := parseTable_mono (act := action env) (action_mono env) AtariFp.grammar (maxLevel + 2)
    AtariFp.n_PARSE_START s
  unfold fpStart parseStart at *
  revert h1 h2 h3 h4 h5 h6
  cases parseTable (action env) AtariFp.grammar (maxLevel + 2) AtariFp.n_PARSE_START s with
  | ok s' => exact fun _ h2 _ h4 h5 h6 => ⟨⟨h5, h4, h2⟩, h6⟩
  | fail s' => exact fun _ h2 _ h4 h5 _ => ⟨h5, h4, h2⟩
  | err e => exact fun h1 _ h3 _ _ _ => Err.proper_of h1 fun he => h3 (by rw [he])

/-- A line or program that was accepted leaves the stacks in order, else there is a proper error. -/
def CRes.Good : CRes → Prop
  | .ok s => s.lvl = 0 ∧ ProcJ s
  | .err e => e.proper

theorem peek_colon {s : PS} (h : s.peek 58 = true) : (s.expect 58).2.pos = s.pos + 1 := by
  unfold PS.peek at h
  unfold PS.expect
  split at h
  · cases h
  · next p hp =>
    have : p = 58 := by
      split at h
      · next hh =>
        have : p - 32 = 58 := by simpa [PS.up] using h
        omega
      · simpa [PS.up] using h
    subst this
    rw [hp]
    rfl

theorem lineLoop_ok (env : Env) {line : Str} (n : Nat) {s : PS} (h : Between line s)
    (hn : line.length - s.pos < n) :
    (lineLoop (fpStart env) expandGet n s).Good := by
  induction n generalizing s with
  | zero => omega
  | succ n ih =>
    unfold lineLoop
    split
    · exact ⟨h.level, h.procs⟩
    · next hne =>
      have h1 := C42_statement env h
      revert h1
      cases fpStart env s with
      | err e => exact id
      | fail s' => exact fun _ => trivial
      | ok s' =>
        rintro ⟨h1, h2⟩
        dsimp only
        split
        · trivial
        · next hc =>
          have hstr : s'.str = line := h1.pos.2
          have hstr0 : s.str = line := h.pos.2
          have hle := h.pos.1.1
          have hle' := h1.pos.1.1
          refine ih ⟨?_, ?_, ?_⟩ ?_
          · refine ⟨?_, by simpa using hstr⟩
            exact PosErr.expect (s := { s' with expand := expandGet s'.expand }) (by posErr_same h1.pos.1) 58
          · simpa using h1.level
          · exact h1.procs.same (by simp) (by simp)
          · rw [hstr] at hc hle'
            rw [hstr0] at hle hne
            by_cases he : s'.pos = line.length
            · have := expect_mono { s' with expand := expandGet s'.expand } 58
              have h3 : s'.pos ≤ (PS.expect { s' with expand := expandGet s'.expand } 58).2.pos := this
              omega
            · have hp : s'.peek 58 = true := by
                by_cases hp : s'.peek 58 = true
                · exact hp
                · exact absurd ⟨he, hp⟩ hc
              have := peek_colon (s := { s' with expand := expandGet s'.expand }) hp
              have h3 : (PS.expect { s' with expand := expandGet s'.expand } 58).2.pos = s'.pos + 1 := this
              omega

theorem readLine_length (q : RL) (src : Str) (h : src ≠ []) : (readLine q src).2.2.length < src.length := by
  induction src generalizing q with
  | nil => exact absurd rfl h
  | cons c cs ih =>
    have hr : ∀ q, (readLine q cs).2.2.length < (c :: cs).length := by
      intro q
      by_cases hc : cs = []
      · subst hc; simp [readLine]
      · exact Nat.lt_trans (ih q hc) (Nat.lt_succ_self _)
    unfold readLine
    split
    · exact hr _
    · split
      · simp only [List.length_cons]; omega
      · split
        · simp
        · exact hr _

theorem compileLines_ok (env : Env) (n : Nat) (src : Str) (ln : Nat) {s : PS} (hl : s.lvl = 0) (hj : ProcJ s)
    (hn : src.length < n) :
    (compileLines (fpStart env) n src ln s).Good := by
  induction n generalizing src ln s with
  | zero => omega
  | succ n ih =>
    unfold compileLines
    split
    next line lines rest heq =>
    split
    · exact ⟨hl, hj⟩
    · next hne =>
      have hb : Between line (s.newLine line ln) := ⟨⟨PosErr.newLine s line ln, rfl⟩, hl, hj.same rfl rfl⟩
      have h1 := lineLoop_ok env (line.length + 1) hb (by have : (s.newLine line ln).pos = 0 := rfl; omega)
      unfold compileLine
      revert h1
      cases lineLoop (fpStart env) expandGet (line.length + 1) (s.newLine line ln) with
      | err e => exact id
      | ok s' =>
        rintro ⟨h1, h2⟩
        refine ih rest (ln + lines) h1 h2 ?_
        have hsrc : src ≠ [] := by
          rintro rfl
          simp only [readLine, Prod.mk.injEq] at heq
          exact hne ⟨heq.2.1.symm, heq.1.symm⟩
        have := readLine_length {} src hsrc
        rw [heq] at this
        simp only at this
        omega

/-- **C42**: compiling any text with the shipped grammar (whatever the files it includes, and whatever the
floating point conversion answers) ends with a program or with an error reported to the user. -/
theorem C42_no_internal_error (env : Env) (src : Str) (e : Err) (h : compile (fpStart env) src = .err e) :
    e.proper := by
  unfold compile at h
  have h1 := compileLines_ok env (src.length + 1) src 1 (s := initPS) rfl rfl (Nat.lt_succ_self _)
  revert h1 h
  cases compileLines (fpStart env) (src.length + 1) src 1 initPS with
  | err e' => rintro h h1; cases h; exact h1
  | ok s =>
    rintro h -
    dsimp only at h
    split at h
    · cases h
    · cases h; trivial

/-- The error of a compilation. For the examples. -/
def errOf : CRes → Option Err
  | .ok _ => none
  | .err e => some e

/-- A text that is accepted (elements are taken from the code by `PROC`). -/
example : errOf (compile (fpStart noEnv) (ofS "PROC A\nEXIT\nENDPROC\n")) = none := by decide +kernel

/-- A text that is not. -/
example : errOf (compile (fpStart noEnv) (ofS "NEXT\n")) = some (.parseErr (ofS "parse error") 5) := by
  decide +kernel

end FB.Parse
