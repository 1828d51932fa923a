import Verif.Parse.Lift
import Verif.Parse.GrammarFp

/-!
# C17: bounded recursion, balanced level
-/

namespace FB.Parse

open Frame

section
variable {act : Act → PS → Res}

theorem parseLine_lvl (ha : ∀ a s, (act a s).All fun s' => s'.lvl = s.lvl)
    {tab : Nat → PS → Res} (htab : ∀ t s, (tab t s).All fun s' => s'.lvl = s.lvl)
    (l : List PCode) (s : PS) : (parseLine act tab l s).All fun s' => s'.lvl = s.lvl := by
  induction l generalizing s with
  | nil => rfl
  | cons c cs ih =>
    have step : ∀ {r : Res}, (r.All fun s' => s'.lvl = s.lvl) →
        (r.andThen (parseLine act tab cs)).All fun s' => s'.lvl = s.lvl := fun h =>
      h.andThen (fun s1 h1 => (ih s1).mono fun s2 h2 => h2.trans h1) (fun _ h => h)
    cases c with
    | lit l => refine step ?_; unfold parseLiteral; dsimp only; split <;> simp
    | emit d => exact (ih (emitBytes d s)).mono fun s2 h2 => by rw [h2]; simp
    | emitRet d => simp [parseLine]
    | call t => exact step (htab t s)
    | ext a => exact step (ha a s)
    | ret => rfl

theorem parseLines_lvl (ha : ∀ a s, (act a s).All fun s' => s'.lvl = s.lvl)
    {tab : Nat → PS → Res} (htab : ∀ t s, (tab t s).All fun s' => s'.lvl = s.lvl) (sp : PS.Saved)
    (ls : List (List PCode)) (s : PS) :
    (parseLines act tab sp ls s).All fun s' => s'.lvl = s.lvl - 1 := by
  induction ls generalizing s with
  | nil => rfl
  | cons l ls ih =>
    have h := parseLine_lvl ha htab l s
    unfold parseLines
    split
    · next heq => rw [heq] at h; simpa using congrArg (· - 1) h
    · next heq => rw [heq] at h; refine (ih _).mono fun s2 h2 => ?_; rw [h2]; simpa using congrArg (· - 1) h
    · trivial

/-- **C17 (level)**. Whatever the grammar, the actions (as long as they leave the level alone), the table
and the input, if `parse_table` returns, successfully or not, the level is what it was at entry. -/
theorem C17_level_balanced (ha : ∀ a s, (act a s).All fun s' => s'.lvl = s.lvl) (G : Grammar) (n t : Nat)
    (s : PS) : (parseTable act G n t s).All fun s' => s'.lvl = s.lvl := by
  induction n generalizing t s with
  | zero => trivial
  | succ n ih =>
    unfold parseTable
    split
    · trivial
    · split
      · trivial
      · refine (parseLines_lvl ha (fun t s => ih t s) _ _ _).mono fun s2 h2 => ?_
        rw [h2]; simp [enterTable]

theorem parseLine_fuel (ha : ∀ a s, (act a s).All fun s' => s'.lvl = s.lvl)
    (hf : ∀ a s, act a s ≠ .err .fuel) {tab : Nat → PS → Res} {k : Nat}
    (hl : ∀ t s, (tab t s).All fun s' => s'.lvl = s.lvl)
    (htab : ∀ t s, s.lvl = k → tab t s ≠ .err .fuel) (l : List PCode) (s : PS) (hk : s.lvl = k) :
    parseLine act tab l s ≠ .err .fuel := by
  induction l generalizing s with
  | nil => simp [parseLine]
  | cons c cs ih =>
    have step : ∀ {r : Res}, (r.All fun s' => s'.lvl = s.lvl) → r ≠ .err .fuel →
        (r.andThen (parseLine act tab cs)) ≠ .err .fuel := by
      intro r h hr
      cases r with
      | ok s1 => exact ih s1 (h.trans hk)
      | fail s1 => simp [Res.andThen]
      | err e => simpa [Res.andThen] using hr
    cases c with
    | lit l =>
      refine step ?_ ?_ <;> unfold parseLiteral <;> dsimp only <;> split <;> simp
    | emit d => exact ih (emitBytes d s) (by simpa using hk)
    | emitRet d => simp [parseLine]
    | call t => exact step (hl t s) (htab t s hk)
    | ext a => exact step (ha a s) (hf a s)
    | ret => simp [parseLine]

theorem parseLines_fuel (ha : ∀ a s, (act a s).All fun s' => s'.lvl = s.lvl)
    (hf : ∀ a s, act a s ≠ .err .fuel) {tab : Nat → PS → Res} {k : Nat}
    (hl : ∀ t s, (tab t s).All fun s' => s'.lvl = s.lvl)
    (htab : ∀ t s, s.lvl = k → tab t s ≠ .err .fuel) (sp : PS.Saved)
    (ls : List (List PCode)) (s : PS) (hk : s.lvl = k) :
    parseLines act tab sp ls s ≠ .err .fuel := by
  induction ls generalizing s with
  | nil => simp [parseLines]
  | cons l ls ih =>
    have h := parseLine_fuel ha hf hl htab l s hk
    have h2 := parseLine_lvl ha hl l s
    unfold parseLines
    split
    · simp
    · next heq => rw [heq] at h2; exact ih _ (by simpa using h2.trans hk)
    · next heq => rw [heq] at h; simpa using h

/-- **C17 (recursion)**. Whatever the grammar (also left recursive), the actions, the table and the input:
from a state at level `lvl`, following `202 - lvl` nested activations of `parse_table` is enough; the
model never gives up. The last of these activations can only be the one that reports "expression too
complex", so at most 201 nested activations run. -/
theorem C17_never_out_of_fuel (ha : ∀ a s, (act a s).All fun s' => s'.lvl = s.lvl)
    (hf : ∀ a s, act a s ≠ .err .fuel) (G : Grammar) (n t : Nat) (s : PS) (hn : 0 < n)
    (h : 202 ≤ n + s.lvl) : parseTable act G n t s ≠ .err .fuel := by
  induction n generalizing t s with
  | zero => omega
  | succ n ih =>
    unfold parseTable
    split
    · simp
    · split
      · simp
      · next hlv =>
        refine parseLines_fuel (k := s.lvl + 1) ha hf (fun t s => C17_level_balanced ha G n t s) ?_ _ _ _
          (by simp [enterTable])
        intro t s' hs'
        refine ih t s' ?_ ?_ <;> simp only [maxLevel] at hlv <;> omega

theorem parseLine_congr {tab tab' : Nat → PS → Res} {k : Nat}
    (ha : ∀ a s, (act a s).All fun s' => s'.lvl = s.lvl)
    (hl : ∀ t s, (tab t s).All fun s' => s'.lvl = s.lvl)
    (htab : ∀ t s, s.lvl = k → tab t s = tab' t s) (l : List PCode) (s : PS) (hk : s.lvl = k) :
    parseLine act tab l s = parseLine act tab' l s := by
  induction l generalizing s with
  | nil => rfl
  | cons c cs ih =>
    have step : ∀ {r : Res}, (r.All fun s' => s'.lvl = s.lvl) →
        (r.andThen (parseLine act tab cs)) = (r.andThen (parseLine act tab' cs)) := by
      intro r h
      cases r with
      | ok s1 => exact ih s1 (h.trans hk)
      | fail s1 => rfl
      | err e => rfl
    cases c with
    | lit l => refine step ?_; unfold parseLiteral; dsimp only; split <;> simp
    | emit d => exact ih (emitBytes d s) (by simpa using hk)
    | emitRet d => rfl
    | call t =>
      refine (step (hl t s)).trans ?_
      rw [htab t s hk]; rfl
    | ext a => exact step (ha a s)
    | ret => rfl

theorem parseLines_congr {tab tab' : Nat → PS → Res} {k : Nat}
    (ha : ∀ a s, (act a s).All fun s' => s'.lvl = s.lvl)
    (hl : ∀ t s, (tab t s).All fun s' => s'.lvl = s.lvl)
    (htab : ∀ t s, s.lvl = k → tab t s = tab' t s) (sp : PS.Saved)
    (ls : List (List PCode)) (s : PS) (hk : s.lvl = k) :
    parseLines act tab sp ls s = parseLines act tab' sp ls s := by
  induction ls generalizing s with
  | nil => rfl
  | cons l ls ih =>
    have h2 := parseLine_lvl ha hl l s
    unfold parseLines
    rw [← parseLine_congr ha hl htab l s hk]
    split
    · rfl
    · next heq => rw [heq] at h2; exact ih _ (by simpa using h2.trans hk)
    · rfl

/-- **C17 (depth)**. Allowing more nested activations than `202 - lvl` changes nothing: the result never
depends on a deeper activation. -/
theorem C17_depth_bound (ha : ∀ a s, (act a s).All fun s' => s'.lvl = s.lvl) (G : Grammar)
    (n m t : Nat) (s : PS) (hn : 0 < n) (hm : 0 < m) (h : 202 ≤ n + s.lvl) (h' : 202 ≤ m + s.lvl) :
    parseTable act G n t s = parseTable act G m t s := by
  induction n generalizing t s m with
  | zero => omega
  | succ n ih =>
    cases m with
    | zero => omega
    | succ m =>
      unfold parseTable
      split
      · rfl
      · split
        · rfl
        · next hlv =>
          refine parseLines_congr (k := s.lvl + 1) ha (fun t s => C17_level_balanced ha G n t s) ?_ _ _ _
            (by simp [enterTable])
          intro t s' hs'
          simp only [maxLevel] at hlv
          exact ih m t s' (by omega) (by omega) (by omega) (by omega)

/-- **C17 (error)**. A table started at level 201 or more is refused with an error, and only then: at a
level of at most 200 the lines of the table are tried. -/
theorem C17_level_limit (G : Grammar) (n t : Nat) (T : Table) (hT : G t = some T) (s : PS) :
    (200 < s.lvl → parseTable act G (n + 1) t s = .err (.parseErr tooComplex s.pos)) ∧
    (s.lvl ≤ 200 → parseTable act G (n + 1) t s =
      parseLines act (parseTable act G n) (enterTable T s).save T.lines (enterTable T s)) := by
  constructor
  · intro h
    simp only [parseTable, hT, maxLevel]; exact if_pos h
  · intro h
    simp only [parseTable, hT, maxLevel]; exact if_neg (Nat.not_lt.mpr h)

end

/-- No action runs out of fuel: the real actions meet the hypothesis of `C17_never_out_of_fuel`. -/
theorem action_no_fuel (env : Env) (a : Act) (s : PS) : action env a s ≠ .err .fuel := by
  have hS : ∀ s e, removeStr s = .error e → e ≠ .fuel := by
    intro s e h; unfold removeStr at h; (repeat' split at h) <;> simp at h <;> simp [← h]
  have hL : ∀ s e, removeLT s = .error e → e ≠ .fuel := by
    intro s e h; unfold removeLT at h; split at h
    · next h' => cases h; exact hS _ _ h'
    · split at h <;> simp at h; simp [← h]
  cases a <;> simp only [action, eConstString, eCountParam, eDataFile, eDoExec, eElseIf, eEol, eRem,
    eExitLoop, eLabel, eLabelCreate, eLabelDef, eLabelSetType, eDataSetRomSeg, eDataSetSegment,
    eNumberByte, eNumberFp, eNumberWord, ePopFor, ePopIf, ePopLoop, ePopProc2, ePopProcData, ePopRepeat,
    ePopVar, ePopWhile, eProcCheck, ePushLT, ePushVar, eVarCreate, eVarSearch, varCheck, eVarSetType,
    eVarWord] <;> (repeat' split) <;> simp
  all_goals first
    | exact hS _ _ ‹_›
    | exact hL _ _ ‹_›

/-- **C17** for the program: with the real actions and any grammar, parsing a statement from level 0 never
exhausts the depth given to the model, and leaves the level at 0. -/
theorem C17_parser (env : Env) (G : Grammar) (start : Nat) (s : PS) (h0 : s.lvl = 0) :
    parseStart (action env) G start s ≠ .err .fuel ∧
      (parseStart (action env) G start s).All fun s' => s'.lvl = 0 := by
  have ha : ∀ a s, (action env a s).All fun s' => s'.lvl = s.lvl := fun a s =>
    (action_frame env a s).mono fun _ h => h.1
  refine ⟨C17_never_out_of_fuel ha (action_no_fuel env) G _ start s (by simp [maxLevel])
    (by simp [maxLevel]), (C17_level_balanced ha G _ start s).mono fun s' h => h.trans h0⟩

/-! Concrete cases. -/

/-- No files, no floating point. For examples. -/
def noEnv : Env := { file := fun _ => none, fp := fun _ _ _ => none }

/-- A left recursive grammar is stopped with an error. -/
example : parseStart (action noEnv) (fun _ => some ⟨[], [[.call 0]]⟩) 0 {} =
    .err (.parseErr tooComplex 0) := by decide +kernel

/-- A right recursive grammar that accepts up to 200 nested parentheses. -/
def parenG : Grammar := fun _ => some ⟨[], [[.lit [40], .call 0, .lit [41]], []]⟩

/-- 200 nested parentheses are accepted (201 nested tables), and the level is back to 0. -/
example : (match parseStart (action noEnv) parenG 0
      { str := List.replicate 200 40 ++ List.replicate 200 41 } with
    | .ok s => (s.pos, s.lvl)
    | _ => (0, 1)) = (400, 0) := by decide +kernel

/-- 201 are not. -/
example : (match parseStart (action noEnv) parenG 0
      { str := List.replicate 201 40 ++ List.replicate 201 41 } with
    | .err e => decide (e = .parseErr tooComplex 201)
    | _ => false) = true := by decide +kernel

/-- An expression with 12 nested parentheses in the real grammar is accepted and leaves the level at 0. -/
example : (match parseStart (action noEnv) AtariFp.grammar AtariFp.n_PARSE_START
      { str := ofS "PRINT " ++ List.replicate 12 40 ++ [49] ++ List.replicate 12 41,
        procs := [([], [])] } with
    | .ok s => decide (s.lvl = 0 ∧ s.pos = 31)
    | _ => false) = true := by decide +kernel

end FB.Parse
