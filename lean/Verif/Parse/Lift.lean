import Verif.Parse.Frame

/-!
# Lifting facts about actions to the parser

Lemmas (and the auxiliary predicates they need) used by the properties of the parser.
-/

namespace FB.Parse

open Frame

/-- A predicate on the state after a parsing function returned (`true` or `false`); nothing is said
about exceptions. Auxiliary, models nothing. -/
def Res.All (P : PS → Prop) : Res → Prop
  | .ok s => P s
  | .fail s => P s
  | .err _ => True

@[simp] theorem Res.All_ok (P : PS → Prop) (s : PS) : (Res.ok s).All P = P s := rfl
@[simp] theorem Res.All_fail (P : PS → Prop) (s : PS) : (Res.fail s).All P = P s := rfl
@[simp] theorem Res.All_err (P : PS → Prop) (e : Err) : (Res.err e).All P = True := rfl

theorem Res.All.mono {P Q : PS → Prop} {r : Res} (h : r.All P) (H : ∀ s, P s → Q s) : r.All Q := by
  cases r <;> simp_all

theorem Res.All.andThen {P Q : PS → Prop} {r : Res} {f : PS → Res} (h : r.All P)
    (hf : ∀ s, P s → (f s).All Q) (hq : ∀ s, P s → Q s) : (r.andThen f).All Q := by
  cases r <;> simp_all [Res.andThen]

theorem removeStr_ok {s s' : PS} {n : Str} (h : removeStr s = .ok (n, s')) :
    ∃ c, s.removeLast = some (c, s') ∧ c.k.getStr = some n := by
  unfold removeStr at h
  split at h
  · cases h
  · split at h
    · cases h
    · next c s1 heq _ n' hn => 
      cases h
      exact ⟨c, heq, hn⟩

theorem removeLT_ok {s s' : PS} {t : LT} (h : removeLT s = .ok (t, s')) :
    ∃ c n, s.removeLast = some (c, s') ∧ c.k.getStr = some n ∧ getLoopType n = some t := by
  unfold removeLT at h
  split at h
  · cases h
  · next n s1 heq =>
    split at h
    · cases h
    · next t' ht =>
      cases h
      obtain ⟨c, h1, h2⟩ := removeStr_ok heq
      exact ⟨c, n, h1, h2, ht⟩

theorem removeStr_code {s s' : PS} {n : Str} (h : removeStr s = .ok (n, s')) :
    ∃ c cs, s.code = c :: cs ∧ s' = s.setCode cs ∧ c.k.getStr = some n := by
  obtain ⟨c, h1, h2⟩ := removeStr_ok h
  unfold PS.removeLast at h1
  split at h1
  · cases h1
  · next c' cs heq => cases h1; exact ⟨c, cs, heq, rfl, h2⟩

theorem removeLast_code {s s' : PS} {c : CW} (h : s.removeLast = some (c, s')) :
    ∃ cs, s.code = c :: cs ∧ s' = s.setCode cs := by
  unfold PS.removeLast at h
  split at h
  · cases h
  · next c' cs heq => cases h; exact ⟨cs, heq, rfl⟩

theorem removeLT_code {s s' : PS} {t : LT} (h : removeLT s = .ok (t, s')) :
    ∃ c cs n, s.code = c :: cs ∧ s' = s.setCode cs ∧ c.k.getStr = some n ∧ getLoopType n = some t := by
  obtain ⟨c, n, h1, h2, h3⟩ := removeLT_ok h
  obtain ⟨cs, h4, h5⟩ := removeLast_code h1
  exact ⟨c, cs, n, h4, h5, h2, h3⟩

/-- The fields that only the actions change (not the engine): everything but position, errors, level,
listing text and code. Auxiliary, models nothing. -/
structure SameData (s s' : PS) : Prop where
  str : s'.str = s.str
  linenum : s'.linenum = s.linenum
  varStk : s'.varStk = s.varStk
  procStack : s'.procStack = s.procStack
  vars : s'.vars = s.vars
  labels : s'.labels = s.labels
  jumps : s'.jumps = s.jumps
  labelNum : s'.labelNum = s.labelNum
  lastLabel : s'.lastLabel = s.lastLabel
  curParams : s'.curParams = s.curParams
  lastVar : s'.lastVar = s.lastVar

section
variable {act : Act → PS → Res} {R : PS → PS → Prop}

theorem parseLine_rel (hr : ∀ s, R s s) (ht : ∀ a b c, R a b → R b c → R a c)
    (hd : ∀ a b, SameData a b → R a b) (ha : ∀ a s, (act a s).All (R s))
    {tab : Nat → PS → Res} (htab : ∀ t s, (tab t s).All (R s)) (l : List PCode) (s : PS) :
    (parseLine act tab l s).All (R s) := by
  induction l generalizing s with
  | nil => exact hr s
  | cons c cs ih =>
    have step : ∀ {r : Res}, r.All (R s) → (r.andThen (parseLine act tab cs)).All (R s) := fun h =>
      h.andThen (fun s1 h1 => (ih s1).mono fun s2 h2 => ht _ _ _ h1 h2) (fun _ h => h)
    cases c with
    | lit l =>
      refine step ?_
      unfold parseLiteral
      dsimp only
      split
      · exact hd _ _ (by constructor <;> simp)
      · exact hd _ _ (by constructor <;> simp)
    | emit d =>
      refine (ih (emitBytes d s)).mono fun s2 h2 => ht _ _ _ (hd _ _ ?_) h2
      constructor <;> simp
    | emitRet d => exact hd _ _ (by constructor <;> simp)
    | call t => exact step (htab t s)
    | ext a => exact step (ha a s)
    | ret => exact hr s

theorem parseLines_rel (hr : ∀ s, R s s) (ht : ∀ a b c, R a b → R b c → R a c)
    (hd : ∀ a b, SameData a b → R a b) (ha : ∀ a s, (act a s).All (R s))
    {tab : Nat → PS → Res} (htab : ∀ t s, (tab t s).All (R s)) (sp : PS.Saved)
    (ls : List (List PCode)) (s : PS) : (parseLines act tab sp ls s).All (R s) := by
  induction ls generalizing s with
  | nil => exact hd _ _ (by constructor <;> simp)
  | cons l ls ih =>
    have h := parseLine_rel hr ht hd ha htab l s
    unfold parseLines
    split
    · next s1 heq => rw [heq] at h; exact ht _ _ _ h (hd _ _ (by constructor <;> simp))
    · next s1 heq =>
      rw [heq] at h
      exact (ih _).mono fun s2 h2 => ht _ _ _ (ht _ _ _ h (hd _ _ (by constructor <;> simp))) h2
    · trivial

/-- A reflexive, transitive relation that holds for every change made by the engine itself and for every
action, holds between the states before and after parsing a table. -/
theorem parseTable_rel (hr : ∀ s, R s s) (ht : ∀ a b c, R a b → R b c → R a c)
    (hd : ∀ a b, SameData a b → R a b) (ha : ∀ a s, (act a s).All (R s)) (G : Grammar) (n t : Nat)
    (s : PS) : (parseTable act G n t s).All (R s) := by
  induction n generalizing t s with
  | zero => trivial
  | succ n ih =>
    unfold parseTable
    split
    · trivial
    · split
      · trivial
      · exact (parseLines_rel hr ht hd ha (fun t s => ih t s) _ _ _).mono fun s2 h2 =>
          ht _ _ _ (hd _ _ (by constructor <;> simp [enterTable])) h2

end

/-- Fields that no action changes. -/
theorem action_frame (env : Env) (a : Act) (s : PS) :
    (action env a s).All fun s' => s'.lvl = s.lvl ∧ s'.str = s.str ∧ s'.linenum = s.linenum := by
  cases a <;> simp only [action]
  case CONST_STRING => simp only [eConstString]; (repeat' split) <;> simp
  case COUNT_PARAM => simp [eCountParam]
  case DATA_FILE => simp only [eDataFile]; (repeat' split) <;> simp
  case DO_EXEC => simp only [eDoExec]; (repeat' split) <;> simp
  case ELSEIF =>
    simp only [eElseIf]; (repeat' split) <;> simp
    next h =>
      obtain ⟨c, cs, n, -, rfl, -⟩ := removeLT_code h
      simp
  case EOL => simp only [eEol, eRem]; (repeat' split) <;> simp
  case EXIT_LOOP => simp only [eExitLoop]; (repeat' split) <;> simp
  case LABEL =>
    simp only [eLabel]; (repeat' split) <;> simp
    all_goals
      next h _ _ =>
        obtain ⟨c, cs, -, rfl, -⟩ := removeStr_code ‹_›
        simp
  case LABEL_CREATE => simp only [eLabelCreate]; (repeat' split) <;> simp
  case LABEL_DEF =>
    simp only [eLabelDef]; (repeat' split) <;> simp
    all_goals
      obtain ⟨cs, -, rfl⟩ := removeLast_code ‹_›
      simp
  case LABEL_SET_TYPE =>
    simp only [eLabelSetType]; (repeat' split) <;> simp
    obtain ⟨c, cs, -, rfl, -⟩ := removeStr_code ‹_›
    simp
  case DATA_SET_ROM_SEG => simp [eDataSetRomSeg]
  case DATA_SET_SEGMENT => simp only [eDataSetSegment]; (repeat' split) <;> simp
  case NUMBER_BYTE => simp only [eNumberByte]; (repeat' split) <;> simp
  case NUMBER_FP => simp only [eNumberFp]; (repeat' split) <;> simp
  case NUMBER_WORD => simp only [eNumberWord]; (repeat' split) <;> simp
  case POP_FOR =>
    simp only [ePopFor]; (repeat' split) <;> simp
    obtain ⟨cs, -, rfl⟩ := removeLast_code ‹_›
    simp
  case POP_IF => simp only [ePopIf]; (repeat' split) <;> simp
  case POP_LOOP => simp only [ePopLoop]; (repeat' split) <;> simp
  case POP_PROC_2 => simp only [ePopProc2]; (repeat' split) <;> simp
  case POP_PROC_DATA =>
    simp only [ePopProcData, PS.popProc]; (repeat' split) <;> simp_all
    rename_i h
    split at h
    · cases h
    · split at h <;> simp at h; subst h; simp
  case POP_REPEAT => simp only [ePopRepeat]; (repeat' split) <;> simp
  case POP_VAR => simp only [ePopVar]; (repeat' split) <;> simp
  case POP_WHILE => simp only [ePopWhile]; (repeat' split) <;> simp
  case PROC_CHECK => simp only [eProcCheck]; (repeat' split) <;> simp
  case PUSH_LT =>
    simp only [ePushLT]
    split
    · trivial
    · obtain ⟨c, cs, n, -, rfl, -⟩ := removeLT_code ‹_›
      (repeat' split) <;> simp
      obtain ⟨cs, -, rfl⟩ := removeLast_code ‹_›
      simp
  case PUSH_VAR =>
    simp only [ePushVar]; (repeat' split) <;> simp
    obtain ⟨cs, -, rfl⟩ := removeLast_code ‹_›
    simp
  case REM => simp [eRem]
  case VAR_CREATE => simp only [eVarCreate]; (repeat' split) <;> simp
  case VAR_SEARCH =>
    simp only [eVarSearch, varCheck]; (repeat' split) <;> simp
    all_goals
      obtain ⟨c, cs, -, rfl, -⟩ := removeStr_code ‹_›
      simp
  case VAR_SET_TYPE =>
    simp only [eVarSetType]; (repeat' split) <;> simp
    all_goals
      obtain ⟨c, cs, -, rfl, -⟩ := removeStr_code ‹_›
      simp
  case VAR_WORD => simp only [eVarWord, varCheck]; (repeat' split) <;> simp

end FB.Parse
