import Verif.Parse.Sound
import Verif.Parse.AnnFp
import Verif.Parse.Mono
import Verif.Props.C40

/-!
# C16: a failed alternative leaves no trace; C42: the parser does not break

`parse_table` tries the lines of a table in order; when one fails it calls `restore`. C16 says that after
that the code emitted, the position and the listing are as before. This is false in general, because
`restore` truncates the code of the procedure that is current *after* the failure, and a line that had
already opened or closed a procedure has changed that (`C16_refuted`). It is proved for the lines that do
neither; a checker (`Verif/Parse/Discipline.lean`) finds which ones, and it is proved sound here.

The same discipline shows that no source text makes the parser take an element from an empty vector or
raise an internal error (C42).
-/

namespace FB.Parse

open Frame

/-- The code of all procedures, the current procedure, the position and the listing are the same. This is
the specification of "no trace" (the stacks of jumps and variables and the tables of names are not part of
it, the program does not try to restore them). -/
structure NoTrace (s s' : PS) : Prop where
  code : ∀ k, codeOf s' k = codeOf s k
  current : s'.procStack = s.procStack
  pos : s'.pos = s.pos
  listing : s'.expand = s.expand

/-- Every table that follows the discipline does what its effect says. -/
theorem table_sound (env : Env) {ann : Nat → Option TEff} {G : Grammar} (hd : Disciplined ann G) (n t : Nat)
    (b : TEff) (hb : ann t = some b) : TabSound b (parseTable (action env) G n t) := by
  induction n generalizing t b with
  | zero => intro s need base _ _ _; exact ⟨⟨by simp, by simp⟩, trivial⟩
  | succ n ih =>
    intro s need base hc hm hj
    obtain ⟨T, hT, hck⟩ := hd t b hb
    simp only [checkTable, Bool.and_eq_true, Bool.or_eq_true, List.isEmpty_iff, decide_eq_true_eq,
      List.all_eq_true] at hck
    unfold parseTable
    rw [hT]
    dsimp only
    split
    · exact ⟨⟨by simp, by simp⟩, trivial⟩
    · have hE1 : (enterTable T s).procStack = s.procStack := by simp [enterTable]
      have hE2 : (enterTable T s).procs = s.procs := by simp [enterTable]
      have hE3 : (enterTable T s).jumps = s.jumps := by simp [enterTable]
      have hcode : (enterTable T s).code = need ++ base := by rw [code_congr hE1 hE2, hc]
      obtain ⟨h1, h2⟩ := lines_sound env (ann := ann) (tab := parseTable (action env) G n)
        (fun t b hb => ih t b hb) T.lines hck.1
        (fun l hl => by
          have := hck.2 l hl
          split at this
          · cases this
          · next a ha => exact ⟨a, ha, this⟩)
        hcode hm (hj.same hE3 hE1) (sp := (enterTable T s).save)
        (by show (enterTable T s).code.length = _; rw [hcode, List.length_append])
      refine ⟨?_, h2⟩
      revert h1
      cases parseLines (action env) (parseTable (action env) G n) (enterTable T s).save T.lines (enterTable T s) with
      | ok s2 =>
        rintro ⟨t, r, k1, k2, k3⟩
        refine ⟨t, r, k1, k2, fun hcl => ?_⟩
        obtain ⟨m1, m2, m3⟩ := k3 hcl
        exact ⟨m1.trans hE1, fun k hk => (m2 k (by rw [curProc_eq hE1]; exact hk)).trans (codeOf_eq hE2 k), m3⟩
      | fail s2 =>
        intro hh hcl
        obtain ⟨m1, m2, m3⟩ := hh hcl
        exact ⟨m1.trans hE1, fun k hk => (m2 k (by rw [curProc_eq hE1]; exact hk)).trans (codeOf_eq hE2 k), m3⟩
      | err e => exact id

/-- **C16** for one alternative: if a line that neither opens nor closes a procedure fails, `restore`
brings back the state at the start of the line. -/
theorem C16_alternative_partial (env : Env) {ann : Nat → Option TEff} {G : Grammar} (hd : Disciplined ann G)
    (n : Nat) (l : List PCode) {a : ASt} (hl : checkLine ann l ⟨[], true, true⟩ = some a)
    (hcl : a.clean = true) (s : PS) (hj : ProcJ s) {s' : PS}
    (hf : parseLine (action env) (parseTable (action env) G n) l s = .fail s') :
    NoTrace s (s'.restore s.save) := by
  have h0 : ASt.Holds ⟨[], true, true⟩ s.code s s :=
    ⟨[], s.code, rfl, .nil, fun _ => ⟨rfl, fun _ _ => rfl, [], rfl, fun _ => rfl⟩⟩
  obtain ⟨h3, -⟩ := line_sound env (fun t b hb => table_sound env hd n t b hb) hl h0 hj
  rw [hf] at h3
  obtain ⟨p1, p2, e, p3⟩ := h3 hcl
  have hr : Code s s.code (s'.restore s.save) := Code.andRestore ⟨p1, p3, p2⟩ s.save rfl rfl
  refine ⟨fun k => ?_, hr.stack, rfl, rfl⟩
  by_cases hk : k = s.curProc
  · subst hk
    rw [← code_eq, ← curProc_eq hr.stack, ← code_eq]
    exact hr.code
  · exact hr.other k hk

theorem lines_fail (env : Env) {ann : Nat → Option TEff} {G : Grammar} (hd : Disciplined ann G) (n : Nat)
    (ls : List (List PCode))
    (hl : ∀ l ∈ ls, ∃ a, checkLine ann l ⟨[], true, true⟩ = some a ∧ a.clean = true)
    (s : PS) (hj : ProcJ s) {s' : PS}
    (hf : parseLines (action env) (parseTable (action env) G n) s.save ls s = .fail s') : NoTrace s s' := by
  suffices H : ∀ s1, NoTrace s s1 → ProcJ s1 →
      parseLines (action env) (parseTable (action env) G n) s.save ls s1 = .fail s' → NoTrace s s' from
    H s ⟨fun _ => rfl, rfl, rfl, rfl⟩ hj hf
  clear hf
  intro s1 h1 hj1 hf
  induction ls generalizing s1 with
  | nil =>
    unfold parseLines at hf
    cases hf
    exact ⟨h1.code, h1.current, h1.pos, h1.listing⟩
  | cons l ls ih =>
    obtain ⟨a, ha, hcl⟩ := hl l List.mem_cons_self
    unfold parseLines at hf
    split at hf
    · cases hf
    · next s2 heq =>
      have hcode : s1.code = s.code := by
        rw [code_eq, code_eq, curProc_eq h1.current, h1.code]
      have hsv : s.save = s1.save := by
        unfold PS.save; rw [hcode, h1.pos, h1.listing]
      have h2 := C16_alternative_partial env hd n l ha hcl s1 hj1 heq
      have h0 : ASt.Holds ⟨[], true, true⟩ s1.code s1 s1 :=
        ⟨[], s1.code, rfl, .nil, fun _ => ⟨rfl, fun _ _ => rfl, [], rfl, fun _ => rfl⟩⟩
      have hj2 := (line_sound env (fun t b hb => table_sound env hd n t b hb) ha h0 hj1).2
      rw [heq] at hj2
      rw [← hsv] at h2
      refine ih (fun l hl' => hl l (List.mem_cons_of_mem _ hl')) (s2.restore s.save) ?_ (hj2.same (by simp) (by simp)) hf
      exact ⟨fun k => (h2.code k).trans (h1.code k), h2.current.trans h1.current, h2.pos.trans h1.pos,
        h2.listing.trans h1.listing⟩
    · cases hf

/-- **C16** for a table: if no line of the table opens or closes a procedure and the table fails, nothing
has changed but for the blanks skipped. -/
theorem C16_table_partial (env : Env) {ann : Nat → Option TEff} {G : Grammar} (hd : Disciplined ann G)
    (n t : Nat) {b : TEff} (hb : ann t = some b) (hcl : b.out.clean = true) (hn : b.need = []) (s : PS)
    (hj : ProcJ s) {s' : PS} (hf : parseTable (action env) G n t s = .fail s') : NoTrace s.skipws s' := by
  cases n with
  | zero => cases hf
  | succ n =>
    obtain ⟨T, hT, hck⟩ := hd t b hb
    simp only [checkTable, Bool.and_eq_true, List.all_eq_true] at hck
    unfold parseTable at hf
    rw [hT] at hf
    dsimp only at hf
    split at hf
    · cases hf
    · have hE1 : (enterTable T s).procStack = s.procStack := by simp [enterTable]
      have hE2 : (enterTable T s).procs = s.procs := by simp [enterTable]
      have hE3 : (enterTable T s).jumps = s.jumps := by simp [enterTable]
      have h := lines_fail env hd n T.lines (fun l hl => by
          have := hck.2 l hl
          rw [hn] at this
          split at this
          · cases this
          · next a ha => exact ⟨a, ha, ASt.sub_clean this hcl⟩)
        (enterTable T s) (hj.same hE3 hE1) hf
      refine ⟨fun k => (h.code k).trans (codeOf_eq hE2 k), h.current.trans hE1, h.pos.trans ?_, h.listing.trans ?_⟩
      · simp [enterTable, PS.skipws]
      · simp [enterTable]

/-- The numbers of the tables of the shipped grammar that can open or close a procedure (or take an element
from their caller, the last one). -/
def dirtyTables : List Nat := [32, 64, 65, 71, 73, 74, 75, 84]

/-- **C16** for the shipped grammar: 86 of its 94 tables leave no trace when they fail. -/
theorem C16_shipped_grammar_partial (env : Env) (n t : Nat) (ht : t < 94) (hd : t ∉ dirtyTables) (s : PS)
    (hj : ProcJ s) {s' : PS} (hf : parseTable (action env) AtariFp.grammar n t s = .fail s') :
    NoTrace s.skipws s' := by
  have H : (List.range 94).all (fun t => decide (t ∈ dirtyTables) ||
      ((AtariFp.ann t).any fun b => b.out.clean && b.need.isEmpty)) = true := by decide +kernel
  have := List.all_eq_true.1 H t (List.mem_range.2 ht)
  simp only [hd, decide_false, Bool.false_or, Option.any_eq_true, Bool.and_eq_true, List.isEmpty_iff] at this
  obtain ⟨b, hb, h1, h2⟩ := this
  exact C16_table_partial env AtariFp.fpDisciplined n t hb h1 h2 s hj hf

/-- Parsing of a statement with the shipped grammar. -/
abbrev fpStart (env : Env) : PS → Res := parseStart (action env) AtariFp.grammar AtariFp.n_PARSE_START

/-- The state of the parser at the start of the line after a source text. For examples. -/
def stateAt (before line : Str) (ln : Nat) : Option PS :=
  match compileLines (fpStart noEnv) (before.length + 1) before 1 initPS with
  | .ok s => some (s.newLine line ln)
  | .err _ => none

/-- The state after `CLR`, `CLR`, `PROC X`, at the start of the line `ENDPROCESS=5`. -/
def lostState : PS :=
  { str := ofS "ENDPROCESS=5\n"
    linenum := 4
    expand := { indent := 2, nextIndent := 2 }
    procs := [([],
      [⟨.tok (.other "USR_CALL"), 2⟩, ⟨.tok (.other "USR_ADDR"), 2⟩, ⟨.wordStr (ofS "CLEAR_DATA"), 2⟩, ⟨.tok .NUM, 2⟩,
       ⟨.tok (.other "USR_CALL"), 1⟩, ⟨.tok (.other "USR_ADDR"), 1⟩, ⟨.wordStr (ofS "CLEAR_DATA"), 1⟩, ⟨.tok .NUM, 1⟩]),
      (ofS "jump_lbl_1", [⟨.label (ofS "fb_lbl_X"), 3⟩])]
    procStack := [ofS "jump_lbl_1"]
    labels := [([88], { type := 65 })]
    jumps := [⟨.PROC_2, ofS "jump_lbl_2", 3⟩, ⟨.PROC_DATA, ofS "jump_lbl_1", 3⟩]
    labelNum := 2
    lastLabel := [88]
    curParams := 1 }

/-- The condition checked by evaluation in `C16_refuted`. -/
def lostCode (l : List PCode) (s : PS) : Bool :=
  match parseLine (action noEnv) (parseTable (action noEnv) AtariFp.grammar 200) l s with
  | .fail s' => decide ((codeOf (s'.restore s.save) []).length ≠ (codeOf s []).length)
  | _ => false

theorem lostCode_spec {s : PS} {l : List PCode} (h : lostCode l s = true) : ∃ s',
    parseLine (action noEnv) (parseTable (action noEnv) AtariFp.grammar 200) l s = .fail s' ∧
    ¬ NoTrace s (s'.restore s.save) := by
  unfold lostCode at h
  split at h
  · next s' hf => exact ⟨s', hf, fun hn => (of_decide_eq_true h) (by rw [hn.code [], ])⟩
  · cases h

/-- A line of the table `PARSE_START`: a statement and the end of the line. -/
def statementLine : List PCode := [.call 71, .ext .EOL, .ret]

/-- **C16 is false** for the shipped grammar: in a state reached by a program, a line of the table
`PARSE_START` fails, and after `restore` the code of the main program has changed. (The text is the
statement `ENDPROCESS=5` inside a procedure, taken at first as `ENDPROC`.) -/
theorem C16_refuted : ∃ before line s l s', stateAt before line 4 = some s ∧ ProcJ s ∧
    l ∈ AtariFp.t73.lines ∧
    parseLine (action noEnv) (parseTable (action noEnv) AtariFp.grammar 200) l s = .fail s' ∧
    ¬ NoTrace s (s'.restore s.save) := by
  have h1 : stateAt (ofS "CLR\nCLR\nPROC X\n") (ofS "ENDPROCESS=5\n") 4 = some lostState := by decide +kernel
  have h2 : ProcJ lostState := by unfold ProcJ; decide
  have h3 : lostCode statementLine lostState = true := by decide +kernel
  have h4 : statementLine ∈ AtariFp.t73.lines := by decide +kernel
  obtain ⟨s', h5, h6⟩ := lostCode_spec h3
  exact ⟨_, _, _, _, s', h1, h2, h4, h5, h6⟩

/-- Number of `PRINT_STR` instructions in the main program. For the example below. -/
def prints (r : CRes) : Option Nat :=
  match r with
  | .ok s => some ((codeOf s []).filter (fun c => c.k == .tok .PRINT_STR)).length
  | .err _ => none

/-- What this means for a user: this program is accepted, and of its three `PRINT`s only the last one is in
the code. -/
example : prints (compile (fpStart noEnv) (ofS "?1\n?2\nPROC X\nENDPROCESS=5\n?6\n")) = some 1 := by
  decide +kernel

/-- With another name of the variable (and closing the procedure) all three are. -/
example : prints (compile (fpStart noEnv) (ofS "?1\n?2\nPROC X\nEND_PROCESS=5\nENDPROC\n?6\n")) =
    some 3 := by decide +kernel

/-- Fails as expected. For the example below. -/
def exprFails (s : PS) : Bool :=
  match parseTable (action noEnv) AtariFp.grammar 200 AtariFp.n_EXPR s with
  | .fail _ => true
  | _ => false

theorem exprFails_spec {s : PS} (h : exprFails s = true) :
    ∃ s', parseTable (action noEnv) AtariFp.grammar 200 AtariFp.n_EXPR s = .fail s' := by
  unfold exprFails at h
  split at h
  · next s' hf => exact ⟨s', hf⟩
  · cases h

/-- The table of expressions fails on `(1+)`, after having emitted code: no trace is left. -/
example : ∃ s', parseTable (action noEnv) AtariFp.grammar 200 AtariFp.n_EXPR (initPS.newLine (ofS "(1+)") 1) =
    .fail s' ∧ NoTrace (initPS.newLine (ofS "(1+)") 1).skipws s' := by
  have H : exprFails (initPS.newLine (ofS "(1+)") 1) = true := by decide +kernel
  obtain ⟨s', hf⟩ := exprFails_spec H
  exact ⟨s', hf, C16_shipped_grammar_partial noEnv 200 _ (by decide) (by decide) _ (by unfold ProcJ; rfl) hf⟩

end FB.Parse
