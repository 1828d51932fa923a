import Verif.Parse.Calls
import Verif.Parse.Lift

/-!
# The order of the calls

For a relation between states that every step of the parser satisfies: it holds from the start of a parse to every call
of an action, from the end of every call to the end of the parse, and of two calls one comes first. Auxiliary, models
nothing.
-/

namespace FB.Parse

open Frame

/-- Of two calls, either they are the same, or one starts after the other ends. -/
def Trich (act : Act → PS → Res) (R : PS → PS → Prop) (a : Act) (x : PS) (b : Act) (y : PS) : Prop :=
  (a = b ∧ x = y) ∨ (act a x).All (fun s => R s y) ∨ (act b y).All (fun s => R s x)

/-- A relation that all the steps satisfy. -/
structure StepRel (act : Act → PS → Res) (R : PS → PS → Prop) : Prop where
  refl : ∀ s, R s s
  trans : ∀ {a b c}, R a b → R b c → R a c
  data : ∀ {a b}, SameData a b → R a b
  act : ∀ a s, (act a s).All (R s)

/-- The call ends, and from there the relation holds to the states in `r`. -/
def EndRel (act : Act → PS → Res) (R : PS → PS → Prop) (a : Act) (x : PS) (r : Res) : Prop :=
  (act a x).All fun s => r.All (R s)

section
variable {act : Act → PS → Res} {R : PS → PS → Prop} {tab : Nat → PS → Res} {tc : Nat → PS → Act → PS → Prop}
  {a b : Act} {x y : PS}

theorem Trich.symm (h : Trich act R a x b y) : Trich act R b y a x := by
  rcases h with ⟨h1, h2⟩ | h | h
  · exact .inl ⟨h1.symm, h2.symm⟩
  · exact .inr (.inr h)
  · exact .inr (.inl h)

theorem parseLiteral_ok_data {l : Str} {s s1 : PS} (h : parseLiteral l s = .ok s1) : SameData s s1 := by
  unfold parseLiteral at h
  dsimp only at h
  split at h
  · cases h; constructor <;> simp
  · cases h

theorem line_rel (hR : StepRel act R) (htab : ∀ t s, (tab t s).All (R s)) (l : List PCode) (s : PS) :
    (parseLine act tab l s).All (R s) :=
  parseLine_rel hR.refl (fun _ _ _ => hR.trans) (fun _ _ => hR.data) hR.act htab l s

theorem lines_rel (hR : StepRel act R) (htab : ∀ t s, (tab t s).All (R s)) (sp : PS.Saved) (ls : List (List PCode)) (s : PS) :
    (parseLines act tab sp ls s).All (R s) :=
  parseLines_rel hR.refl (fun _ _ _ => hR.trans) (fun _ _ => hR.data) hR.act htab sp ls s

theorem table_rel (hR : StepRel act R) (G : Grammar) (n t : Nat) (s : PS) : (parseTable act G n t s).All (R s) :=
  parseTable_rel hR.refl (fun _ _ _ => hR.trans) (fun _ _ => hR.data) hR.act G n t s

/-- From the start to a call. -/
theorem lineCalls_from (hR : StepRel act R) (htab : ∀ t s, (tab t s).All (R s)) (htc : ∀ t s, tc t s a x → R s x)
    {l : List PCode} {s : PS} (h : LineCalls act tab tc l s a x) : R s x := by
  induction h with
  | lit hr _ ih => exact hR.trans (hR.data (parseLiteral_ok_data hr)) (ih htc)
  | emit _ ih => exact hR.trans (hR.data (by constructor <;> simp)) (ih htc)
  | here => exact hR.refl _
  | @ext b cs s s1 a x hr _ ih =>
    have := hR.act b s
    rw [hr] at this
    exact hR.trans this (ih htc)
  | inside h => exact htc _ _ h
  | @call t cs s s1 a x hr _ ih =>
    have := htab t s
    rw [hr] at this
    exact hR.trans this (ih htc)

/-- From a call to the end. -/
theorem lineCalls_end (hR : StepRel act R) (htab : ∀ t s, (tab t s).All (R s))
    (htc : ∀ t s, tc t s a x → EndRel act R a x (tab t s))
    {l : List PCode} {s : PS} (h : LineCalls act tab tc l s a x) : EndRel act R a x (parseLine act tab l s) := by
  induction h with
  | lit hr _ ih => rw [parseLine, hr]; exact ih htc
  | emit _ ih => exact ih htc
  | @here a cs s =>
    unfold EndRel
    rw [parseLine]
    cases hr : act a s with
    | ok s1 => exact line_rel hR htab cs s1
    | fail s1 => exact hR.refl s1
    | err e => trivial
  | ext hr _ ih => rw [parseLine, hr]; exact ih htc
  | @inside t cs s a x h =>
    have h1 := htc _ _ h
    unfold EndRel at h1 ⊢
    rw [parseLine]
    refine h1.mono fun s2 h2 => ?_
    cases hr : tab t s with
    | ok s1 =>
      rw [hr] at h2
      exact (line_rel hR htab cs s1).mono fun s3 h3 => hR.trans h2 h3
    | fail s1 => rw [hr] at h2; exact h2
    | err e => trivial
  | call hr _ ih => rw [parseLine, hr]; exact ih htc

/-- From the end of a call inside a called table to a later call. -/
theorem end_to {r : Res} {s1 : PS} (hR : StepRel act R) (h : EndRel act R a x r) (hr : r = .ok s1) (hy : R s1 y) :
    (act a x).All (fun s => R s y) := by
  subst hr
  exact h.mono fun s h => hR.trans h hy

theorem lineCalls_trich (hR : StepRel act R) (htab : ∀ t s, (tab t s).All (R s))
    (hfx : ∀ t s, tc t s a x → R s x) (hfy : ∀ t s, tc t s b y → R s y)
    (hex : ∀ t s, tc t s a x → EndRel act R a x (tab t s)) (hey : ∀ t s, tc t s b y → EndRel act R b y (tab t s))
    (ht : ∀ t s, tc t s a x → tc t s b y → Trich act R a x b y)
    {l : List PCode} {s : PS} (h1 : LineCalls act tab tc l s a x) (h2 : LineCalls act tab tc l s b y) :
    Trich act R a x b y := by
  induction h1 with
  | lit hr _ ih =>
    cases h2 with
    | lit hr2 h2 => rw [hr] at hr2; cases hr2; exact ih hfx hex ht h2
  | emit _ ih => cases h2 with | emit h2 => exact ih hfx hex ht h2
  | @here a cs s =>
    cases h2 with
    | here => exact .inl ⟨rfl, rfl⟩
    | ext hr2 h2 =>
      refine .inr (.inl ?_)
      rw [hr2]
      exact lineCalls_from hR htab hfy h2
  | ext hr h1 ih =>
    cases h2 with
    | here =>
      refine .inr (.inr ?_)
      rw [hr]
      exact lineCalls_from hR htab hfx h1
    | ext hr2 h2 => rw [hr] at hr2; cases hr2; exact ih hfx hex ht h2
  | inside h1 =>
    cases h2 with
    | inside h2 => exact ht _ _ h1 h2
    | call hr2 h2 => exact .inr (.inl (end_to hR (hex _ _ h1) hr2 (lineCalls_from hR htab hfy h2)))
  | call hr h1 ih =>
    cases h2 with
    | inside h2 => exact .inr (.inr (end_to hR (hey _ _ h2) hr (lineCalls_from hR htab hfx h1)))
    | call hr2 h2 => rw [hr] at hr2; cases hr2; exact ih hfx hex ht h2

theorem restore_data (s : PS) (sp : PS.Saved) : SameData s (s.restore sp) := by constructor <;> simp

theorem linesCalls_from (hR : StepRel act R) (htab : ∀ t s, (tab t s).All (R s)) (htc : ∀ t s, tc t s a x → R s x)
    {sp : PS.Saved} {ls : List (List PCode)} {s : PS} (h : LinesCalls act tab tc sp ls s a x) : R s x := by
  induction h with
  | here h => exact lineCalls_from hR htab htc h
  | @next l ls s s1 a x hr _ ih =>
    have := line_rel hR htab l s
    rw [hr] at this
    exact hR.trans (hR.trans this (hR.data (restore_data _ _))) (ih htc)

theorem linesCalls_end (hR : StepRel act R) (htab : ∀ t s, (tab t s).All (R s))
    (htc : ∀ t s, tc t s a x → EndRel act R a x (tab t s))
    {sp : PS.Saved} {ls : List (List PCode)} {s : PS} (h : LinesCalls act tab tc sp ls s a x) :
    EndRel act R a x (parseLines act tab sp ls s) := by
  induction h with
  | @here l ls s a x h =>
    have h1 := lineCalls_end hR htab htc h
    unfold EndRel at h1 ⊢
    refine h1.mono fun s2 h2 => ?_
    unfold parseLines
    split
    · next s1 hr => rw [hr] at h2; exact hR.trans h2 (hR.data (by constructor <;> simp))
    · next s1 hr =>
      rw [hr] at h2
      exact (lines_rel hR htab sp ls _).mono fun s3 h3 => hR.trans (hR.trans h2 (hR.data (restore_data _ _))) h3
    · trivial
  | @next l ls s s1 a x hr _ ih => rw [parseLines, hr]; exact ih htc

theorem linesCalls_trich (hR : StepRel act R) (htab : ∀ t s, (tab t s).All (R s))
    (hfx : ∀ t s, tc t s a x → R s x) (hfy : ∀ t s, tc t s b y → R s y)
    (hex : ∀ t s, tc t s a x → EndRel act R a x (tab t s)) (hey : ∀ t s, tc t s b y → EndRel act R b y (tab t s))
    (ht : ∀ t s, tc t s a x → tc t s b y → Trich act R a x b y) {sp : PS.Saved}
    {ls : List (List PCode)} {s : PS} (h1 : LinesCalls act tab tc sp ls s a x) (h2 : LinesCalls act tab tc sp ls s b y) :
    Trich act R a x b y := by
  induction h1 with
  | here h1 =>
    cases h2 with
    | here h2 => exact lineCalls_trich hR htab hfx hfy hex hey ht h1 h2
    | next hr2 h2 =>
      refine .inr (.inl ?_)
      have e := lineCalls_end hR htab hex h1
      unfold EndRel at e
      rw [hr2] at e
      exact e.mono fun s3 h3 => hR.trans h3 (hR.trans (hR.data (restore_data _ _)) (linesCalls_from hR htab hfy h2))
  | next hr h1 ih =>
    cases h2 with
    | here h2 =>
      refine .inr (.inr ?_)
      have e := lineCalls_end hR htab hey h2
      unfold EndRel at e
      rw [hr] at e
      exact e.mono fun s3 h3 => hR.trans h3 (hR.trans (hR.data (restore_data _ _)) (linesCalls_from hR htab hfx h1))
    | next hr2 h2 => rw [hr] at hr2; cases hr2; exact ih hfx hex ht h2

theorem enter_data (tb : Table) (s : PS) : SameData s (enterTable tb s) := by constructor <;> simp [enterTable]

theorem tableCalls_from (hR : StepRel act R) (G : Grammar) (n : Nat) :
    ∀ t s a x, TableCalls act G n t s a x → R s x := by
  induction n with
  | zero => intro t s a x h; exact h.elim
  | succ n ih =>
    rintro t s a x ⟨tb, htb, hl, h⟩
    exact hR.trans (hR.data (enter_data _ _)) (linesCalls_from hR (table_rel hR G n) (fun t s => ih t s a x) h)

theorem tableCalls_end (hR : StepRel act R) (G : Grammar) (n : Nat) :
    ∀ t s a x, TableCalls act G n t s a x → EndRel act R a x (parseTable act G n t s) := by
  induction n with
  | zero => intro t s a x h; exact h.elim
  | succ n ih =>
    rintro t s a x ⟨tb, htb, hl, h⟩
    have := linesCalls_end hR (table_rel hR G n) (fun t s => ih t s a x) h
    unfold parseTable
    rw [htb]
    dsimp only
    rw [if_neg (by omega)]
    exact this

theorem tableCalls_trich (hR : StepRel act R) (G : Grammar) (n : Nat) :
    ∀ t s a x b y, TableCalls act G n t s a x → TableCalls act G n t s b y → Trich act R a x b y := by
  induction n with
  | zero => intro t s a x b y h; exact h.elim
  | succ n ih =>
    rintro t s a x b y ⟨tb, htb, -, h1⟩ ⟨tb', htb', -, h2⟩
    rw [htb] at htb'
    cases htb'
    exact linesCalls_trich hR (table_rel hR G n) (fun t s => tableCalls_from hR G n t s a x)
      (fun t s => tableCalls_from hR G n t s b y) (fun t s => tableCalls_end hR G n t s a x)
      (fun t s => tableCalls_end hR G n t s b y) (fun t s => ih t s a x b y) h1 h2

/-! ## Files -/

variable {start : PS → Res} {sc : PS → Act → PS → Prop}

/-- A relation that also holds for the changes between statements and lines. -/
structure FileRel (act : Act → PS → Res) (R : PS → PS → Prop) : Prop extends StepRel act R where
  line : ∀ s l ln, R s (PS.newLine s l ln)

theorem expect_expand_data (s : PS) (e : Expand) (c : Nat) : SameData s (PS.expect { s with expand := e } c).2 := by
  constructor <;> simp

theorem loop_rel (hR : StepRel act R) (hst : ∀ s, (start s).All (R s)) (ne : Expand → Expand) (n : Nat) :
    ∀ s s' : PS, lineLoop start ne n s = .ok s' → R s s' := by
  induction n with
  | zero => intro s s' h; simp [lineLoop] at h
  | succ n ih =>
    intro s s' h
    unfold lineLoop at h
    split at h
    · cases h; exact hR.refl _
    · have h0 := hst s
      split at h
      · cases h
      · cases h
      · next s1 heq =>
        rw [heq] at h0
        split at h
        · cases h
        · exact hR.trans h0 (hR.trans (hR.data (expect_expand_data _ _ _)) (ih _ _ h))

theorem compileLine_rel (hR : FileRel act R) (hst : ∀ s, (start s).All (R s)) {line : Str} {ln : Nat} {s s' : PS}
    (h : compileLine start line ln s = .ok s') : R s s' :=
  hR.trans (hR.line s line ln) (loop_rel hR.toStepRel hst _ _ _ _ h)

theorem compileLines_rel (hR : FileRel act R) (hst : ∀ s, (start s).All (R s)) (n : Nat) :
    ∀ (src : Str) (ln : Nat) (s s' : PS), compileLines start n src ln s = .ok s' → R s s' := by
  induction n with
  | zero => intro src ln s s' h; simp [compileLines] at h
  | succ n ih =>
    intro src ln s s' h
    unfold compileLines at h
    dsimp only at h
    split at h
    · cases h; exact hR.refl _
    · split at h
      · cases h
      · next s1 heq => exact hR.trans (compileLine_rel hR hst heq) (ih _ _ _ _ h)

theorem loopCalls_from (hR : StepRel act R) (hst : ∀ s, (start s).All (R s)) (hsc : ∀ s, sc s a x → R s x)
    {ne : Expand → Expand} {n : Nat} {s : PS} (h : LoopCalls start sc ne n s a x) : R s x := by
  induction h with
  | here _ h => exact hsc _ h
  | @next n s s1 a x _ hs _ _ ih =>
    have := hst s
    rw [hs] at this
    exact hR.trans this (hR.trans (hR.data (expect_expand_data _ _ _)) (ih hsc))

theorem loopCalls_end (hR : StepRel act R) (hst : ∀ s, (start s).All (R s)) (hsc : ∀ s, sc s a x → EndRel act R a x (start s))
    {ne : Expand → Expand} {n : Nat} {s s' : PS} (h : LoopCalls start sc ne n s a x) (hr : lineLoop start ne n s = .ok s') :
    (act a x).All (fun s => R s s') := by
  induction h with
  | @here n s a x hp h =>
    unfold lineLoop at hr
    rw [if_neg hp] at hr
    have e := hsc s h
    unfold EndRel at e
    split at hr
    · cases hr
    · cases hr
    · next s1 heq =>
      rw [heq] at e
      split at hr
      · cases hr
      · exact e.mono fun s2 h2 => hR.trans h2 (hR.trans (hR.data (expect_expand_data _ _ _)) (loop_rel hR hst _ _ _ _ hr))
  | @next n s s1 a x hp hs hc _ ih =>
    unfold lineLoop at hr
    rw [if_neg hp, hs] at hr
    dsimp only at hr
    rw [if_neg hc] at hr
    exact ih hsc hr

theorem loopCalls_trich (hR : StepRel act R) (hst : ∀ s, (start s).All (R s)) (hfx : ∀ s, sc s a x → R s x)
    (hfy : ∀ s, sc s b y → R s y) (hex : ∀ s, sc s a x → EndRel act R a x (start s))
    (hey : ∀ s, sc s b y → EndRel act R b y (start s)) (ht : ∀ s, sc s a x → sc s b y → Trich act R a x b y)
    {ne : Expand → Expand} {n : Nat} {s : PS} (h1 : LoopCalls start sc ne n s a x) (h2 : LoopCalls start sc ne n s b y) :
    Trich act R a x b y := by
  induction h1 with
  | here hp h1 =>
    cases h2 with
    | here _ h2 => exact ht _ h1 h2
    | next _ hs2 _ h2 =>
      exact .inr (.inl (end_to hR (hex _ h1) hs2 (hR.trans (hR.data (expect_expand_data _ _ _)) (loopCalls_from hR hst hfy h2))))
  | next hp hs hc h1 ih =>
    cases h2 with
    | here _ h2 =>
      exact .inr (.inr (end_to hR (hey _ h2) hs (hR.trans (hR.data (expect_expand_data _ _ _)) (loopCalls_from hR hst hfx h1))))
    | next _ hs2 _ h2 => rw [hs] at hs2; cases hs2; exact ih hfx hex ht h2

theorem fileCalls_from (hR : FileRel act R) (hst : ∀ s, (start s).All (R s)) (hsc : ∀ s, sc s a x → R s x)
    {n : Nat} {src : Str} {ln : Nat} {s : PS} (h : FileCalls start sc n src ln s a x) : R s x := by
  induction h with
  | here _ h => exact hR.trans (hR.line _ _ _) (loopCalls_from hR.toStepRel hst hsc h)
  | next _ hs _ ih => exact hR.trans (compileLine_rel hR hst hs) (ih hsc)

theorem fileCalls_end (hR : FileRel act R) (hst : ∀ s, (start s).All (R s)) (hsc : ∀ s, sc s a x → EndRel act R a x (start s))
    {n : Nat} {src : Str} {ln : Nat} {s s' : PS} (h : FileCalls start sc n src ln s a x)
    (hr : compileLines start n src ln s = .ok s') : (act a x).All (fun s => R s s') := by
  induction h with
  | @here n src ln s a x hp h =>
    unfold compileLines at hr
    dsimp only at hr
    rw [if_neg hp] at hr
    split at hr
    · cases hr
    · next s1 heq =>
      exact (loopCalls_end hR.toStepRel hst hsc h heq).mono fun s2 h2 => hR.trans h2 (compileLines_rel hR hst _ _ _ _ _ hr)
  | @next n src ln s s1 a x hp hs _ ih =>
    unfold compileLines at hr
    dsimp only at hr
    rw [if_neg hp, hs] at hr
    exact ih hsc hr

theorem fileCalls_trich (hR : FileRel act R) (hst : ∀ s, (start s).All (R s)) (hfx : ∀ s, sc s a x → R s x)
    (hfy : ∀ s, sc s b y → R s y) (hex : ∀ s, sc s a x → EndRel act R a x (start s))
    (hey : ∀ s, sc s b y → EndRel act R b y (start s)) (ht : ∀ s, sc s a x → sc s b y → Trich act R a x b y)
    {n : Nat} {src : Str} {ln : Nat} {s : PS} (h1 : FileCalls start sc n src ln s a x) (h2 : FileCalls start sc n src ln s b y) :
    Trich act R a x b y := by
  induction h1 with
  | @here n src ln s a x hp h1 =>
    cases h2 with
    | here _ h2 => exact loopCalls_trich hR.toStepRel hst hfx hfy hex hey ht h1 h2
    | next _ hs2 h2 =>
      exact .inr (.inl ((loopCalls_end hR.toStepRel hst hex h1 hs2).mono fun s2 h3 =>
        hR.trans h3 (fileCalls_from hR hst hfy h2)))
  | @next n src ln s s1 a x hp hs h1 ih =>
    cases h2 with
    | here _ h2 =>
      exact .inr (.inr ((loopCalls_end hR.toStepRel hst hey h2 hs).mono fun s2 h3 =>
        hR.trans h3 (fileCalls_from hR hst hfx h1)))
    | next _ hs2 h2 => rw [hs] at hs2; cases hs2; exact ih hfx hex ht h2

end

section
variable {act : Act → PS → Res} {R : PS → PS → Prop} {G : Grammar} {start : Nat} {src : Str} {a b : Act} {x y : PS}

/-- Of two calls during a compilation one ends before the other starts. -/
theorem compileCalls_trich (hR : FileRel act R) (h1 : CompileCalls act G start src a x)
    (h2 : CompileCalls act G start src b y) : Trich act R a x b y :=
  fileCalls_trich hR (table_rel hR.toStepRel G _ _) (fun s => tableCalls_from hR.toStepRel G _ _ s a x)
    (fun s => tableCalls_from hR.toStepRel G _ _ s b y) (fun s => tableCalls_end hR.toStepRel G _ _ s a x)
    (fun s => tableCalls_end hR.toStepRel G _ _ s b y) (fun s => tableCalls_trich hR.toStepRel G _ _ s a x b y) h1 h2

theorem compileCalls_from (hR : FileRel act R) (h : CompileCalls act G start src a x) : R initPS x :=
  fileCalls_from hR (table_rel hR.toStepRel G _ _) (fun s => tableCalls_from hR.toStepRel G _ _ s a x) h

/-- From the end of a call to the end of the compilation. -/
theorem compileCalls_end (hR : FileRel act R) (h : CompileCalls act G start src a x) {s : PS}
    (hs : compileLines (parseStart act G start) (src.length + 1) src 1 initPS = .ok s) : (act a x).All (fun s' => R s' s) :=
  fileCalls_end hR (table_rel hR.toStepRel G _ _) (fun s => tableCalls_end hR.toStepRel G _ _ s a x) h hs

end

/-! ## Exceptions

An exception in a call ends the compilation. -/

section
variable {act : Act → PS → Res} {tab : Nat → PS → Res} {tc : Nat → PS → Act → PS → Prop} {a : Act} {x : PS} {e : Err}

theorem lineCalls_err (he : act a x = .err e) (htc : ∀ t s, tc t s a x → tab t s = .err e) {l : List PCode} {s : PS}
    (h : LineCalls act tab tc l s a x) : parseLine act tab l s = .err e := by
  induction h with
  | lit hr _ ih => rw [parseLine, hr]; exact ih he htc
  | emit _ ih => exact ih he htc
  | here => rw [parseLine, he]; rfl
  | ext hr _ ih => rw [parseLine, hr]; exact ih he htc
  | inside h => rw [parseLine, htc _ _ h]; rfl
  | call hr _ ih => rw [parseLine, hr]; exact ih he htc

theorem linesCalls_err (he : act a x = .err e) (htc : ∀ t s, tc t s a x → tab t s = .err e) {sp : PS.Saved}
    {ls : List (List PCode)} {s : PS} (h : LinesCalls act tab tc sp ls s a x) : parseLines act tab sp ls s = .err e := by
  induction h with
  | here h => rw [parseLines, lineCalls_err he htc h]
  | next hr _ ih => rw [parseLines, hr]; exact ih he htc

theorem tableCalls_err (he : act a x = .err e) (G : Grammar) (n : Nat) :
    ∀ t s, TableCalls act G n t s a x → parseTable act G n t s = .err e := by
  induction n with
  | zero => intro t s h; exact h.elim
  | succ n ih =>
    rintro t s ⟨tb, htb, hl, h⟩
    unfold parseTable
    rw [htb]
    dsimp only
    rw [if_neg (by omega)]
    exact linesCalls_err he ih h

theorem loopCalls_err {start : PS → Res} {sc : PS → Act → PS → Prop} (hsc : ∀ s, sc s a x → ∃ e, start s = .err e)
    {ne : Expand → Expand} {n : Nat} {s : PS} (h : LoopCalls start sc ne n s a x) (s' : PS) :
    lineLoop start ne n s ≠ .ok s' := by
  induction h with
  | here hp h =>
    obtain ⟨e, he⟩ := hsc _ h
    unfold lineLoop
    rw [if_neg hp, he]
    simp
  | next hp hs hc _ ih =>
    unfold lineLoop
    rw [if_neg hp, hs]
    dsimp only
    rw [if_neg hc]
    exact ih hsc

theorem fileCalls_err {start : PS → Res} {sc : PS → Act → PS → Prop} (hsc : ∀ s, sc s a x → ∃ e, start s = .err e)
    {n : Nat} {src : Str} {ln : Nat} {s : PS} (h : FileCalls start sc n src ln s a x) (s' : PS) :
    compileLines start n src ln s ≠ .ok s' := by
  induction h with
  | @here n src ln s a x hp h =>
    unfold compileLines
    dsimp only
    rw [if_neg hp]
    split
    · simp
    · next s1 heq => exact absurd heq (loopCalls_err hsc h s1)
  | next hp hs _ ih =>
    unfold compileLines
    dsimp only
    rw [if_neg hp, hs]
    exact ih hsc

/-- In an accepted program no call ends in an exception. -/
theorem compileCalls_noErr {G : Grammar} {start : Nat} {src : Str} {s : PS}
    (hs : compile (parseStart act G start) src = .ok s) (h : CompileCalls act G start src a x) (e : Err) : act a x ≠ .err e := by
  intro he
  have : ∀ s0, compileLines (parseStart act G start) (src.length + 1) src 1 initPS ≠ .ok s0 :=
    fileCalls_err (fun s h => ⟨e, tableCalls_err he G _ _ s h⟩) h
  unfold compile at hs
  split at hs
  · cases hs
  · next s0 h0 => exact this s0 h0

end

/-! ## Tables that only use some actions -/

/-- Lines that only use actions of `A` and call tables of `K`. -/
def onlyLine (A : Act → Bool) (K : List Nat) (l : List PCode) : Bool :=
  l.all fun c => match c with | .ext a => A a | .call t => K.contains t | _ => true

/-- All the tables of `K` are like that. -/
def checkOnly (A : Act → Bool) (G : Grammar) (K : List Nat) : Bool :=
  K.all fun t => match G t with | some tb => tb.lines.all (onlyLine A K) | none => true

section
variable {act : Act → PS → Res} {R : PS → PS → Prop} {A : Act → Bool} {K : List Nat} {tab : Nat → PS → Res}

/-- A relation that the steps with those actions satisfy. -/
structure OnlyRel (act : Act → PS → Res) (A : Act → Bool) (R : PS → PS → Prop) : Prop where
  refl : ∀ s, R s s
  trans : ∀ {a b c}, R a b → R b c → R a c
  data : ∀ {a b}, SameData a b → R a b
  act : ∀ a, A a = true → ∀ s, (act a s).All (R s)

theorem onlyLine_rel (hR : OnlyRel act A R) (htab : ∀ t ∈ K, ∀ s, (tab t s).All (R s)) (l : List PCode)
    (hl : onlyLine A K l = true) (s : PS) : (parseLine act tab l s).All (R s) := by
  induction l generalizing s with
  | nil => exact hR.refl s
  | cons c cs ih =>
    simp only [onlyLine, List.all_cons, Bool.and_eq_true] at hl
    have step : ∀ {r : Res}, r.All (R s) → (r.andThen (parseLine act tab cs)).All (R s) := fun h =>
      h.andThen (fun s1 h1 => (ih hl.2 s1).mono fun s2 h2 => hR.trans h1 h2) (fun _ h => h)
    cases c with
    | lit l =>
      refine step ?_
      unfold parseLiteral
      dsimp only
      split <;> exact hR.data (by constructor <;> simp)
    | emit d => exact (ih hl.2 _).mono fun s2 h2 => hR.trans (hR.data (by constructor <;> simp)) h2
    | emitRet d => exact hR.data (by constructor <;> simp)
    | ext a => exact step (hR.act a hl.1 s)
    | call t => exact step (htab t (by simpa using hl.1) s)
    | ret => exact hR.refl s

theorem onlyLines_rel (hR : OnlyRel act A R) (htab : ∀ t ∈ K, ∀ s, (tab t s).All (R s)) (sp : PS.Saved)
    (ls : List (List PCode)) (hl : ls.all (onlyLine A K) = true) (s : PS) : (parseLines act tab sp ls s).All (R s) := by
  induction ls generalizing s with
  | nil => exact hR.data (by constructor <;> simp)
  | cons l ls ih =>
    simp only [List.all_cons, Bool.and_eq_true] at hl
    have h := onlyLine_rel hR htab l hl.1 s
    unfold parseLines
    split
    · next s1 heq => rw [heq] at h; exact hR.trans h (hR.data (by constructor <;> simp))
    · next s1 heq =>
      rw [heq] at h
      exact (ih hl.2 _).mono fun s2 h2 => hR.trans (hR.trans h (hR.data (restore_data _ _))) h2
    · trivial

theorem onlyTable_rel (hR : OnlyRel act A R) {G : Grammar} (hK : checkOnly A G K = true) (n : Nat) :
    ∀ t ∈ K, ∀ s, (parseTable act G n t s).All (R s) := by
  induction n with
  | zero => intro t _ s; trivial
  | succ n ih =>
    intro t ht s
    have hl := List.all_eq_true.mp hK t ht
    unfold parseTable
    split
    · trivial
    · next tb htb =>
      rw [htb] at hl
      split
      · trivial
      · exact (onlyLines_rel hR ih _ _ hl _).mono fun s2 h2 => hR.trans (hR.data (enter_data _ _)) h2

end

end FB.Parse
