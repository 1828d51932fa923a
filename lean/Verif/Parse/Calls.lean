import Verif.Parse.Compile

/-!
# The calls of actions during a parse

`TableCalls act G n t s a x`: while `parseTable act G n t` runs from the state `s` the action `a` is called in the state `x`.
These relations follow the definitions of `Verif/Parse/Engine.lean` and `Verif/Parse/Compile.lean`; they model nothing by
themselves, they give names to the states that the parser goes through.
-/

namespace FB.Parse

section
variable (act : Act → PS → Res)

/-- Calls made by `parseLine` (`/repo/src/compiler/parser.cc:116-146`). -/
inductive LineCalls (tab : Nat → PS → Res) (tc : Nat → PS → Act → PS → Prop) : List PCode → PS → Act → PS → Prop
  | lit {l cs s s1 a x} : parseLiteral l s = .ok s1 → LineCalls tab tc cs s1 a x → LineCalls tab tc (.lit l :: cs) s a x
  | emit {d cs s a x} : LineCalls tab tc cs (emitBytes d s) a x → LineCalls tab tc (.emit d :: cs) s a x
  | here {a cs s} : LineCalls tab tc (.ext a :: cs) s a s
  | ext {b cs s s1 a x} : act b s = .ok s1 → LineCalls tab tc cs s1 a x → LineCalls tab tc (.ext b :: cs) s a x
  | inside {t cs s a x} : tc t s a x → LineCalls tab tc (.call t :: cs) s a x
  | call {t cs s s1 a x} : tab t s = .ok s1 → LineCalls tab tc cs s1 a x → LineCalls tab tc (.call t :: cs) s a x

/-- Calls made by `parseLines` (`/repo/src/compiler/parser.cc:158-171`). -/
inductive LinesCalls (tab : Nat → PS → Res) (tc : Nat → PS → Act → PS → Prop) (sp : PS.Saved) :
    List (List PCode) → PS → Act → PS → Prop
  | here {l ls s a x} : LineCalls act tab tc l s a x → LinesCalls tab tc sp (l :: ls) s a x
  | next {l ls s s1 a x} : parseLine act tab l s = .fail s1 → LinesCalls tab tc sp ls (s1.restore sp) a x →
      LinesCalls tab tc sp (l :: ls) s a x

/-- Calls made by `parseTable` (`/repo/src/compiler/parser.cc:148-172`). -/
def TableCalls (G : Grammar) : Nat → Nat → PS → Act → PS → Prop
  | 0, _, _, _, _ => False
  | n + 1, t, s, a, x => ∃ tb, G t = some tb ∧ s.lvl ≤ maxLevel ∧
      LinesCalls act (parseTable act G n) (TableCalls G n) (enterTable tb s).save tb.lines (enterTable tb s) a x

/-- Calls made by `lineLoop` (`/repo/src/compiler/compile.cc:93-144`). -/
inductive LoopCalls {ε : Type} (start : PS → Res) (sc : PS → ε → PS → Prop) (ne : Expand → Expand) : Nat → PS → ε → PS → Prop
  | here {n s a x} : s.pos ≠ s.str.length → sc s a x → LoopCalls start sc ne (n + 1) s a x
  | next {n s s1 a x} : s.pos ≠ s.str.length → start s = .ok s1 → ¬ (s1.pos ≠ s1.str.length ∧ ¬ s1.peek 58) →
      LoopCalls start sc ne n (PS.expect { s1 with expand := ne s1.expand } 58).2 a x → LoopCalls start sc ne (n + 1) s a x

/-- Calls made by `compileLines` (`/repo/src/compiler/compile.cc:205-219`). -/
inductive FileCalls {ε : Type} (start : PS → Res) (sc : PS → ε → PS → Prop) : Nat → Str → Nat → PS → ε → PS → Prop
  | here {n src ln s a x} : ¬ ((readLine {} src).2.1 = 0 ∧ (readLine {} src).1 = []) →
      LoopCalls start sc expandGet ((readLine {} src).1.length + 1) (s.newLine (readLine {} src).1 ln) a x →
      FileCalls start sc (n + 1) src ln s a x
  | next {n src ln s s1 a x} : ¬ ((readLine {} src).2.1 = 0 ∧ (readLine {} src).1 = []) →
      compileLine start (readLine {} src).1 ln s = .ok s1 →
      FileCalls start sc n (readLine {} src).2.2 (ln + (readLine {} src).2.1) s1 a x → FileCalls start sc (n + 1) src ln s a x

end

/-- The action `a` is called in the state `x` while the program is compiled. -/
def CompileCalls (act : Act → PS → Res) (G : Grammar) (start : Nat) (src : Str) (a : Act) (x : PS) : Prop :=
  FileCalls (parseStart act G start) (TableCalls act G (maxLevel + 2) start) (src.length + 1) src 1 initPS a x


/-! ## Alternatives

`TableRuns act G n t s (m, l) x`: while `parseTable act G n t` runs from the state `s` the alternative `l` of some table is
tried in the state `x`, calling the other tables with `parseTable act G m`. -/

section
variable (act : Act → PS → Res)

/-- Alternatives tried inside `parseLine`. -/
inductive LineRuns (tab : Nat → PS → Res) (tr : Nat → PS → Nat × List PCode → PS → Prop) :
    List PCode → PS → Nat × List PCode → PS → Prop
  | lit {l cs s s1 e x} : parseLiteral l s = .ok s1 → LineRuns tab tr cs s1 e x → LineRuns tab tr (.lit l :: cs) s e x
  | emit {d cs s e x} : LineRuns tab tr cs (emitBytes d s) e x → LineRuns tab tr (.emit d :: cs) s e x
  | ext {b cs s s1 e x} : act b s = .ok s1 → LineRuns tab tr cs s1 e x → LineRuns tab tr (.ext b :: cs) s e x
  | inside {t cs s e x} : tr t s e x → LineRuns tab tr (.call t :: cs) s e x
  | call {t cs s s1 e x} : tab t s = .ok s1 → LineRuns tab tr cs s1 e x → LineRuns tab tr (.call t :: cs) s e x

/-- Alternatives tried by `parseLines`. -/
inductive LinesRuns (n : Nat) (tab : Nat → PS → Res) (tr : Nat → PS → Nat × List PCode → PS → Prop) (sp : PS.Saved) :
    List (List PCode) → PS → Nat × List PCode → PS → Prop
  | here {l ls s} : LinesRuns n tab tr sp (l :: ls) s (n, l) s
  | inside {l ls s e x} : LineRuns act tab tr l s e x → LinesRuns n tab tr sp (l :: ls) s e x
  | next {l ls s s1 e x} : parseLine act tab l s = .fail s1 → LinesRuns n tab tr sp ls (s1.restore sp) e x →
      LinesRuns n tab tr sp (l :: ls) s e x

/-- Alternatives tried by `parseTable`. -/
def TableRuns (G : Grammar) : Nat → Nat → PS → Nat × List PCode → PS → Prop
  | 0, _, _, _, _ => False
  | n + 1, t, s, e, x => ∃ tb, G t = some tb ∧ s.lvl ≤ maxLevel ∧
      LinesRuns act n (parseTable act G n) (TableRuns G n) (enterTable tb s).save tb.lines (enterTable tb s) e x

/-- The alternative `l` is tried in the state `x` while the program is compiled, calling the tables with `parseTable act G m`. -/
def CompileRuns (G : Grammar) (start : Nat) (src : Str) (m : Nat) (l : List PCode) (x : PS) : Prop :=
  FileCalls (parseStart act G start) (TableRuns act G (maxLevel + 2) start) (src.length + 1) src 1 initPS (m, l) x

variable {act}

theorem lineRuns_calls {tab : Nat → PS → Res} {tr : Nat → PS → Nat × List PCode → PS → Prop}
    {tc : Nat → PS → Act → PS → Prop} {e : Nat × List PCode} {x : PS} {a : Act} {y : PS}
    (h : ∀ t s, tr t s e x → tc t s a y) {l : List PCode} {s : PS} (hr : LineRuns act tab tr l s e x) :
    LineCalls act tab tc l s a y := by
  induction hr with
  | lit hr _ ih => exact .lit hr (ih h)
  | emit _ ih => exact .emit (ih h)
  | ext hr _ ih => exact .ext hr (ih h)
  | inside hr => exact .inside (h _ _ hr)
  | call hr _ ih => exact .call hr (ih h)

theorem linesRuns_calls {n : Nat} {tab : Nat → PS → Res} {tr : Nat → PS → Nat × List PCode → PS → Prop}
    {tc : Nat → PS → Act → PS → Prop} {sp : PS.Saved} {e : Nat × List PCode} {x : PS} {a : Act} {y : PS}
    (h : ∀ t s, tr t s e x → tc t s a y) (hh : e.1 = n → LineCalls act tab tc e.2 x a y)
    {ls : List (List PCode)} {s : PS} (hr : LinesRuns act n tab tr sp ls s e x) : LinesCalls act tab tc sp ls s a y := by
  induction hr with
  | here => exact .here (hh rfl)
  | inside hr => exact .here (lineRuns_calls h hr)
  | next hr _ ih => exact .next hr (ih h hh)

theorem tableRuns_calls {G : Grammar} {m : Nat} {l : List PCode} {x : PS} {a : Act} {y : PS}
    (hc : LineCalls act (parseTable act G m) (TableCalls act G m) l x a y) (n : Nat) :
    ∀ t s, TableRuns act G n t s (m, l) x → TableCalls act G n t s a y := by
  induction n with
  | zero => intro t s h; exact h.elim
  | succ n ih =>
    rintro t s ⟨tb, htb, hl, h⟩
    refine ⟨tb, htb, hl, linesRuns_calls ih (fun e => ?_) h⟩
    dsimp only at e
    subst e
    exact hc

theorem loopCalls_map {ε δ : Type} {start : PS → Res} {sc : PS → ε → PS → Prop} {sd : PS → δ → PS → Prop} {e : ε} {x : PS}
    {d : δ} {y : PS} (h : ∀ s, sc s e x → sd s d y) {ne : Expand → Expand} {n : Nat} {s : PS}
    (hl : LoopCalls start sc ne n s e x) : LoopCalls start sd ne n s d y := by
  induction hl with
  | here hp hx => exact .here hp (h _ hx)
  | next hp hs hc _ ih => exact .next hp hs hc (ih h)

theorem fileCalls_map {ε δ : Type} {start : PS → Res} {sc : PS → ε → PS → Prop} {sd : PS → δ → PS → Prop} {e : ε} {x : PS}
    {d : δ} {y : PS} (h : ∀ s, sc s e x → sd s d y) {n : Nat} {src : Str} {ln : Nat} {s : PS}
    (hl : FileCalls start sc n src ln s e x) : FileCalls start sd n src ln s d y := by
  induction hl with
  | here hp hx => exact .here hp (loopCalls_map h hx)
  | next hp hs _ ih => exact .next hp hs (ih h)

/-- Calls made by an alternative that is tried. -/
theorem compileRuns_calls {G : Grammar} {start : Nat} {src : Str} {m : Nat} {l : List PCode} {x : PS} {a : Act} {y : PS}
    (h : CompileRuns act G start src m l x)
    (hc : LineCalls act (parseTable act G m) (TableCalls act G m) l x a y) : CompileCalls act G start src a y :=
  fileCalls_map (tableRuns_calls hc _ start) h

end

/-! ## Computing the calls

To show examples. -/

section
variable (act : Act → PS → Res)

/-- The list of the calls made by `parseLine`. -/
def lineTrace (tab : Nat → PS → Res) (tt : Nat → PS → List (Act × PS)) : List PCode → PS → List (Act × PS)
  | [], _ => []
  | .lit l :: cs, s => match parseLiteral l s with | .ok s1 => lineTrace tab tt cs s1 | _ => []
  | .emit d :: cs, s => lineTrace tab tt cs (emitBytes d s)
  | .emitRet _ :: _, _ => []
  | .ext a :: cs, s => (a, s) :: match act a s with | .ok s1 => lineTrace tab tt cs s1 | _ => []
  | .call t :: cs, s => tt t s ++ match tab t s with | .ok s1 => lineTrace tab tt cs s1 | _ => []
  | .ret :: _, _ => []

/-- The list of the calls made by `parseLines`. -/
def linesTrace (tab : Nat → PS → Res) (tt : Nat → PS → List (Act × PS)) (sp : PS.Saved) :
    List (List PCode) → PS → List (Act × PS)
  | [], _ => []
  | l :: ls, s => lineTrace act tab tt l s ++
      match parseLine act tab l s with | .fail s1 => linesTrace tab tt sp ls (s1.restore sp) | _ => []

/-- The list of the calls made by `parseTable`. -/
def tableTrace (G : Grammar) : Nat → Nat → PS → List (Act × PS)
  | 0, _, _ => []
  | n + 1, t, s => match G t with
    | none => []
    | some tb => if s.lvl ≤ maxLevel then
        linesTrace act (parseTable act G n) (tableTrace G n) (enterTable tb s).save tb.lines (enterTable tb s) else []

/-- The list of the calls made by `lineLoop`. -/
def loopTrace {ε : Type} (start : PS → Res) (st : PS → List (ε × PS)) (ne : Expand → Expand) : Nat → PS → List (ε × PS)
  | 0, _ => []
  | n + 1, s => if s.pos ≠ s.str.length then st s ++ match start s with
      | .ok s1 => if ¬ (s1.pos ≠ s1.str.length ∧ ¬ s1.peek 58) then
          loopTrace start st ne n (PS.expect { s1 with expand := ne s1.expand } 58).2 else []
      | _ => []
    else []

/-- The list of the calls made by `compileLines`. -/
def fileTrace {ε : Type} (start : PS → Res) (st : PS → List (ε × PS)) : Nat → Str → Nat → PS → List (ε × PS)
  | 0, _, _, _ => []
  | n + 1, src, ln, s => if ¬ ((readLine {} src).2.1 = 0 ∧ (readLine {} src).1 = []) then
      loopTrace start st expandGet ((readLine {} src).1.length + 1) (s.newLine (readLine {} src).1 ln) ++
      match compileLine start (readLine {} src).1 ln s with
      | .ok s1 => fileTrace start st n (readLine {} src).2.2 (ln + (readLine {} src).2.1) s1
      | .err _ => []
    else []

variable {act}

theorem lineTrace_calls {tab : Nat → PS → Res} {tt : Nat → PS → List (Act × PS)} {tc : Nat → PS → Act → PS → Prop}
    (h : ∀ t s a x, (a, x) ∈ tt t s → tc t s a x) (l : List PCode) (s : PS) (a : Act) (x : PS)
    (hx : (a, x) ∈ lineTrace act tab tt l s) : LineCalls act tab tc l s a x := by
  induction l generalizing s with
  | nil => simp [lineTrace] at hx
  | cons c cs ih =>
    cases c with
    | lit l =>
      simp only [lineTrace] at hx
      split at hx
      · next s1 hr => exact .lit hr (ih _ hx)
      · cases hx
    | emit d => exact .emit (ih _ hx)
    | emitRet d => simp [lineTrace] at hx
    | ext b =>
      simp only [lineTrace, List.mem_cons] at hx
      rcases hx with hx | hx
      · cases hx; exact .here
      · split at hx
        · next s1 hr => exact .ext hr (ih _ hx)
        · cases hx
    | call t =>
      simp only [lineTrace, List.mem_append] at hx
      rcases hx with hx | hx
      · exact .inside (h _ _ _ _ hx)
      · split at hx
        · next s1 hr => exact .call hr (ih _ hx)
        · cases hx
    | ret => simp [lineTrace] at hx

theorem linesTrace_calls {tab : Nat → PS → Res} {tt : Nat → PS → List (Act × PS)} {tc : Nat → PS → Act → PS → Prop}
    (h : ∀ t s a x, (a, x) ∈ tt t s → tc t s a x) (sp : PS.Saved) (ls : List (List PCode)) (s : PS) (a : Act) (x : PS)
    (hx : (a, x) ∈ linesTrace act tab tt sp ls s) : LinesCalls act tab tc sp ls s a x := by
  induction ls generalizing s with
  | nil => simp [linesTrace] at hx
  | cons l ls ih =>
    simp only [linesTrace, List.mem_append] at hx
    rcases hx with hx | hx
    · exact .here (lineTrace_calls h _ _ _ _ hx)
    · split at hx
      · next s1 hr => exact .next hr (ih _ hx)
      · cases hx

theorem tableTrace_calls (G : Grammar) (n : Nat) : ∀ t s a x, (a, x) ∈ tableTrace act G n t s → TableCalls act G n t s a x := by
  induction n with
  | zero => intro t s a x h; simp [tableTrace] at h
  | succ n ih =>
    intro t s a x h
    simp only [tableTrace] at h
    split at h
    · cases h
    · next tb htb =>
      split at h
      · next hl => exact ⟨tb, htb, hl, linesTrace_calls ih _ _ _ _ _ h⟩
      · cases h

theorem loopTrace_calls {ε : Type} {start : PS → Res} {st : PS → List (ε × PS)} {sc : PS → ε → PS → Prop}
    (h : ∀ s a x, (a, x) ∈ st s → sc s a x) (ne : Expand → Expand) (n : Nat) (s : PS) (a : ε) (x : PS)
    (hx : (a, x) ∈ loopTrace start st ne n s) : LoopCalls start sc ne n s a x := by
  induction n generalizing s with
  | zero => simp [loopTrace] at hx
  | succ n ih =>
    simp only [loopTrace] at hx
    split at hx
    · next hp =>
      rcases List.mem_append.mp hx with hx | hx
      · exact .here hp (h _ _ _ hx)
      · split at hx
        · next s1 hr =>
          split at hx
          · next hc => exact .next hp hr hc (ih _ hx)
          · cases hx
        · cases hx
    · cases hx

theorem fileTrace_calls {ε : Type} {start : PS → Res} {st : PS → List (ε × PS)} {sc : PS → ε → PS → Prop}
    (h : ∀ s a x, (a, x) ∈ st s → sc s a x) (n : Nat) (src : Str) (ln : Nat) (s : PS) (a : ε) (x : PS)
    (hx : (a, x) ∈ fileTrace start st n src ln s) : FileCalls start sc n src ln s a x := by
  induction n generalizing src ln s with
  | zero => simp [fileTrace] at hx
  | succ n ih =>
    simp only [fileTrace] at hx
    split at hx
    · next hp =>
      rcases List.mem_append.mp hx with hx | hx
      · exact .here hp (loopTrace_calls h _ _ _ _ _ hx)
      · split at hx
        · next s1 hr => exact .next hp hr (ih _ _ _ hx)
        · cases hx
    · cases hx

/-- The list of the calls made during a compilation. -/
def compileTrace (act : Act → PS → Res) (G : Grammar) (start : Nat) (src : Str) : List (Act × PS) :=
  fileTrace (parseStart act G start) (tableTrace act G (maxLevel + 2) start) (src.length + 1) src 1 initPS

theorem compileTrace_calls {G : Grammar} {start : Nat} {src : Str} {a : Act} {x : PS}
    (h : (a, x) ∈ compileTrace act G start src) : CompileCalls act G start src a x :=
  fileTrace_calls (fun s a x h => tableTrace_calls G _ _ s a x h) _ _ _ _ _ _ h

/-- The list of the alternatives tried inside `parseLine`. -/
def lineRunTrace (act : Act → PS → Res) (tab : Nat → PS → Res) (tt : Nat → PS → List ((Nat × List PCode) × PS)) :
    List PCode → PS → List ((Nat × List PCode) × PS)
  | [], _ => []
  | .lit l :: cs, s => match parseLiteral l s with | .ok s1 => lineRunTrace act tab tt cs s1 | _ => []
  | .emit d :: cs, s => lineRunTrace act tab tt cs (emitBytes d s)
  | .emitRet _ :: _, _ => []
  | .ext a :: cs, s => match act a s with | .ok s1 => lineRunTrace act tab tt cs s1 | _ => []
  | .call t :: cs, s => tt t s ++ match tab t s with | .ok s1 => lineRunTrace act tab tt cs s1 | _ => []
  | .ret :: _, _ => []

/-- The list of the alternatives tried by `parseLines`. -/
def linesRunTrace (act : Act → PS → Res) (n : Nat) (tab : Nat → PS → Res) (tt : Nat → PS → List ((Nat × List PCode) × PS))
    (sp : PS.Saved) : List (List PCode) → PS → List ((Nat × List PCode) × PS)
  | [], _ => []
  | l :: ls, s => ((n, l), s) :: (lineRunTrace act tab tt l s ++
      match parseLine act tab l s with | .fail s1 => linesRunTrace act n tab tt sp ls (s1.restore sp) | _ => [])

/-- The list of the alternatives tried by `parseTable`. -/
def tableRunTrace (act : Act → PS → Res) (G : Grammar) : Nat → Nat → PS → List ((Nat × List PCode) × PS)
  | 0, _, _ => []
  | n + 1, t, s => match G t with
    | none => []
    | some tb => if s.lvl ≤ maxLevel then
        linesRunTrace act n (parseTable act G n) (tableRunTrace act G n) (enterTable tb s).save tb.lines (enterTable tb s) else []

theorem lineRunTrace_runs {tab : Nat → PS → Res} {tt : Nat → PS → List ((Nat × List PCode) × PS)}
    {tc : Nat → PS → Nat × List PCode → PS → Prop}
    (h : ∀ t s a x, (a, x) ∈ tt t s → tc t s a x) (l : List PCode) (s : PS) (a : Nat × List PCode) (x : PS)
    (hx : (a, x) ∈ lineRunTrace act tab tt l s) : LineRuns act tab tc l s a x := by
  induction l generalizing s with
  | nil => simp [lineRunTrace] at hx
  | cons c cs ih =>
    cases c with
    | lit l =>
      simp only [lineRunTrace] at hx
      split at hx
      · next s1 hr => exact .lit hr (ih _ hx)
      · cases hx
    | emit d => exact .emit (ih _ hx)
    | emitRet d => simp [lineRunTrace] at hx
    | ext b =>
      simp only [lineRunTrace] at hx
      split at hx
      · next s1 hr => exact .ext hr (ih _ hx)
      · cases hx
    | call t =>
      simp only [lineRunTrace, List.mem_append] at hx
      rcases hx with hx | hx
      · exact .inside (h _ _ _ _ hx)
      · split at hx
        · next s1 hr => exact .call hr (ih _ hx)
        · cases hx
    | ret => simp [lineRunTrace] at hx

theorem linesRunTrace_runs {n : Nat} {tab : Nat → PS → Res} {tt : Nat → PS → List ((Nat × List PCode) × PS)}
    {tc : Nat → PS → Nat × List PCode → PS → Prop}
    (h : ∀ t s a x, (a, x) ∈ tt t s → tc t s a x) (sp : PS.Saved) (ls : List (List PCode)) (s : PS) (a : Nat × List PCode) (x : PS)
    (hx : (a, x) ∈ linesRunTrace act n tab tt sp ls s) : LinesRuns act n tab tc sp ls s a x := by
  induction ls generalizing s with
  | nil => simp [linesRunTrace] at hx
  | cons l ls ih =>
    simp only [linesRunTrace, List.mem_cons, List.mem_append] at hx
    rcases hx with hx | hx | hx
    · cases hx; exact .here
    · exact .inside (lineRunTrace_runs h _ _ _ _ hx)
    · split at hx
      · next s1 hr => exact .next hr (ih _ hx)
      · cases hx

theorem tableRunTrace_runs (G : Grammar) (n : Nat) :
    ∀ t s a x, (a, x) ∈ tableRunTrace act G n t s → TableRuns act G n t s a x := by
  induction n with
  | zero => intro t s a x h; simp [tableRunTrace] at h
  | succ n ih =>
    intro t s a x h
    simp only [tableRunTrace] at h
    split at h
    · cases h
    · next tb htb =>
      split at h
      · next hl => exact ⟨tb, htb, hl, linesRunTrace_runs ih _ _ _ _ _ h⟩
      · cases h

/-- The list of the alternatives tried during a compilation. -/
def compileRunTrace (act : Act → PS → Res) (G : Grammar) (start : Nat) (src : Str) : List ((Nat × List PCode) × PS) :=
  fileTrace (parseStart act G start) (tableRunTrace act G (maxLevel + 2) start) (src.length + 1) src 1 initPS

theorem compileRunTrace_runs {G : Grammar} {start : Nat} {src : Str} {m : Nat} {l : List PCode} {x : PS}
    (h : ((m, l), x) ∈ compileRunTrace act G start src) : CompileRuns act G start src m l x :=
  fileTrace_calls (fun s a x h => tableRunTrace_runs G _ _ s a x h) _ _ _ _ _ _ h

end

end FB.Parse
