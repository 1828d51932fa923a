import Verif.Props.C21
import Verif.Parse.Items
import Verif.Parse.GrammarFp
import Verif.Parse.Mono

/-!
# The map of variables

In a grammar where a variable is created only by a line that immediately sets its type, the map of variables only
grows, by whole variables. Auxiliary, models nothing; the test of the grammar is `checkVars`.
-/

namespace FB.Parse

open Frame

/-- The name of the `k`-th entry, when it is one of the two that follow a floating point variable. -/
def fakeName (k : Nat) : Str := [45, 102, 97, 107, 101, 45] ++ PS.decDigits k

/-- The map of variables as the compiler should build it: each variable gets the next number, and floating point
variables take three. -/
inductive VarsOk : List (Str × Nat) → Prop
  | nil : VarsOk []
  | var {v : List (Str × Nat)} (name : Str) (t : VT) : VarsOk v → Ident name → lookup name v = none → t ≠ .UNDEF →
      t ≠ .FLOAT → VarsOk (v ++ [(name, 256 * v.length + t.val)])
  | float {v : List (Str × Nat)} (name : Str) : VarsOk v → Ident name → lookup name v = none →
      VarsOk (v ++ [(name, 256 * v.length + VT.FLOAT.val), (fakeName (v.length + 1), 0), (fakeName (v.length + 2), 0)])

/-- A well formed map stays well formed and only grows. -/
def VStep (v v' : List (Str × Nat)) : Prop := VarsOk v → VarsOk v' ∧ ∃ w, v' = v ++ w

theorem VStep.refl (v : List (Str × Nat)) : VStep v v := fun h => ⟨h, [], by simp⟩

theorem VStep.of_eq {v v' : List (Str × Nat)} (h : v' = v) : VStep v v' := h ▸ VStep.refl v

theorem VStep.trans {a b c : List (Str × Nat)} (h : VStep a b) (g : VStep b c) : VStep a c := by
  intro ha
  obtain ⟨hb, w, rfl⟩ := h ha
  obtain ⟨hc, w', rfl⟩ := g hb
  exact ⟨hc, w ++ w', by simp⟩

theorem lookup_append {α : Type} {k : Str} {v w : List (Str × α)} :
    lookup k (v ++ w) = match lookup k v with | some x => some x | none => lookup k w := by
  induction v with
  | nil => rfl
  | cons x v ih =>
    obtain ⟨k', x⟩ := x
    simp only [List.cons_append, lookup]
    split
    · rfl
    · exact ih

theorem assign_new {α : Type} {k : Str} {x : α} {v : List (Str × α)} (h : lookup k v = none) :
    assign k x v = v ++ [(k, x)] := by
  induction v with
  | nil => rfl
  | cons y v ih =>
    obtain ⟨k', y⟩ := y
    simp only [lookup] at h
    split at h
    · cases h
    · next hne => simp [assign, hne, ih h]

theorem assign_last {α : Type} {k : Str} {x y : α} {v w : List (Str × α)} (h : lookup k v = none) :
    assign k y (v ++ (k, x) :: w) = v ++ (k, y) :: w := by
  induction v with
  | nil => simp [assign]
  | cons z v ih =>
    obtain ⟨k', z⟩ := z
    simp only [lookup] at h
    split at h
    · cases h
    · next hne => simp [assign, hne, ih h]

theorem fakeName_inj {a b : Nat} (h : fakeName a = fakeName b) : a = b := by
  have h1 : PS.decDigits a = PS.decDigits b := List.append_cancel_left h
  rw [← (Out.decDigits_spec a).1, ← (Out.decDigits_spec b).1, h1]

theorem fakeName_not_ident {k : Nat} (h : Ident (fakeName k)) : False := by
  obtain ⟨⟨c, t, h1, h2⟩, -⟩ := h
  have : c = 45 := by
    simp only [fakeName, List.cons_append, List.cons.injEq] at h1
    exact h1.1.symm
  subst this
  revert h2; decide

/-- The names in a well formed map. -/
theorem VarsOk.names {v : List (Str × Nat)} (h : VarsOk v) :
    ∀ x ∈ v, Ident x.1 ∨ ∃ k, k < v.length ∧ x.1 = fakeName k := by
  induction h with
  | nil => simp
  | @var v name t _ hn _ _ _ ih =>
    intro x hx
    rcases List.mem_append.mp hx with hx | hx
    · rcases ih x hx with h | ⟨k, hk, h⟩
      · exact .inl h
      · exact .inr ⟨k, by simp; omega, h⟩
    · simp at hx; subst hx; exact .inl hn
  | @float v name _ hn _ ih =>
    intro x hx
    rcases List.mem_append.mp hx with hx | hx
    · rcases ih x hx with h | ⟨k, hk, h⟩
      · exact .inl h
      · exact .inr ⟨k, by simp; omega, h⟩
    · simp at hx
      rcases hx with rfl | rfl | rfl
      · exact .inl hn
      · exact .inr ⟨_, by simp, rfl⟩
      · exact .inr ⟨_, by simp, rfl⟩

theorem VarsOk.fresh {v : List (Str × Nat)} (h : VarsOk v) {k : Nat} (hk : v.length ≤ k) : lookup (fakeName k) v = none := by
  cases hl : lookup (fakeName k) v with
  | none => rfl
  | some x =>
    rcases h.names _ (mem_of_lookup hl) with h | ⟨j, hj, h⟩
    · exact (fakeName_not_ident h).elim
    · have := fakeName_inj h; omega

/-- What `VAR_SET_TYPE` does to a variable just created. -/
theorem setType_new {v : List (Str × Nat)} {name : Str} (t : VT) (ht : t ≠ .UNDEF) (hi : Ident name)
    (hn : lookup name v = none) :
    VStep v (setType name t (v ++ [(name, 256 * v.length)])) := by
  have hl : lookup name (v ++ [(name, 256 * v.length)]) = some (256 * v.length) := by
    rw [lookup_append, hn]; simp [lookup]
  have h1 : assign name ((lookup name (v ++ [(name, 256 * v.length)])).getD 0 / 256 * 256 + t.val)
      (v ++ [(name, 256 * v.length)]) = v ++ [(name, 256 * v.length + t.val)] := by
    rw [hl, assign_last hn]
    simp only [Option.getD_some]
    have : 256 * v.length / 256 * 256 = 256 * v.length := by omega
    rw [this]
  unfold setType
  dsimp only
  rw [h1]
  intro hv
  by_cases hf : t = .FLOAT
  · subst hf
    rw [if_pos rfl]
    have f1 : lookup (fakeName (v.length + 1)) (v ++ [(name, 256 * v.length + VT.FLOAT.val)]) = none := by
      rw [lookup_append, hv.fresh (by omega)]
      have : name ≠ fakeName (v.length + 1) := fun h => fakeName_not_ident (h ▸ hi)
      simp [lookup, this.symm]
    have f2 : lookup (fakeName (v.length + 2)) (v ++ [(name, 256 * v.length + VT.FLOAT.val), (fakeName (v.length + 1), 0)])
        = none := by
      rw [lookup_append, hv.fresh (by omega)]
      have : name ≠ fakeName (v.length + 2) := fun h => fakeName_not_ident (h ▸ hi)
      have h2 : fakeName (v.length + 1) ≠ fakeName (v.length + 2) := fun h => by have := fakeName_inj h; omega
      simp [lookup, this.symm, h2.symm]
    have e1 : addFake (v ++ [(name, 256 * v.length + VT.FLOAT.val)]) =
        v ++ [(name, 256 * v.length + VT.FLOAT.val), (fakeName (v.length + 1), 0)] := by
      have := assign_new (x := 0) f1
      simpa [addFake, fakeName] using this
    have e2 : addFake (v ++ [(name, 256 * v.length + VT.FLOAT.val), (fakeName (v.length + 1), 0)]) =
        v ++ [(name, 256 * v.length + VT.FLOAT.val), (fakeName (v.length + 1), 0), (fakeName (v.length + 2), 0)] := by
      have := assign_new (x := 0) f2
      simpa [addFake, fakeName] using this
    rw [e1, e2]
    exact ⟨.float name hv hi hn, _, rfl⟩
  · rw [if_neg hf]
    exact ⟨.var name t hv hi hn ht hf, _, rfl⟩

/-- The actions that neither create a variable nor set its type. -/
def noVarAct : Act → Bool
  | .VAR_CREATE | .VAR_SET_TYPE => false
  | _ => true

/-- The map of variables and the last created one did not change. -/
def SameVars (s s' : PS) : Prop := s'.vars = s.vars ∧ s'.lastVar = s.lastVar

theorem SameVars.trans {a b c : PS} (h : SameVars a b) (g : SameVars b c) : SameVars a c :=
  ⟨g.1.trans h.1, g.2.trans h.2⟩

theorem action_sameVars (env : Env) (a : Act) (s : PS) (h1 : a ≠ .VAR_CREATE) (h2 : a ≠ .VAR_SET_TYPE) :
    (action env a s).All (SameVars s) := by
  unfold SameVars
  cases a <;> simp only [action]
  case CONST_STRING => simp only [eConstString]; (repeat' split) <;> simp
  case COUNT_PARAM => simp [eCountParam]
  case DATA_FILE => simp only [eDataFile]; (repeat' split) <;> simp
  case DO_EXEC => simp only [eDoExec]; (repeat' split) <;> simp
  case ELSEIF =>
    simp only [eElseIf]; (repeat' split) <;> simp
    next h =>
      obtain ⟨c, cs, n, -, rfl, -⟩ := removeLT_code h
      simp
  case EOL => simp only [eEol, eRem]; (repeat' split) <;> simp
  case EXIT_LOOP => simp only [eExitLoop]; (repeat' split) <;> simp
  case LABEL =>
    simp only [eLabel]; (repeat' split) <;> simp
    all_goals
      next h _ _ =>
        obtain ⟨c, cs, -, rfl, -⟩ := removeStr_code ‹_›
        simp
  case LABEL_CREATE => simp only [eLabelCreate]; (repeat' split) <;> simp
  case LABEL_DEF =>
    simp only [eLabelDef]; (repeat' split) <;> simp
    all_goals
      obtain ⟨cs, -, rfl⟩ := removeLast_code ‹_›
      simp
  case LABEL_SET_TYPE =>
    simp only [eLabelSetType]; (repeat' split) <;> simp
    obtain ⟨c, cs, -, rfl, -⟩ := removeStr_code ‹_›
    simp
  case DATA_SET_ROM_SEG => simp [eDataSetRomSeg]
  case DATA_SET_SEGMENT => simp only [eDataSetSegment]; (repeat' split) <;> simp
  case NUMBER_BYTE => simp only [eNumberByte]; (repeat' split) <;> simp
  case NUMBER_FP => simp only [eNumberFp]; (repeat' split) <;> simp
  case NUMBER_WORD => simp only [eNumberWord]; (repeat' split) <;> simp
  case POP_FOR =>
    simp only [ePopFor]; (repeat' split) <;> simp
    obtain ⟨cs, -, rfl⟩ := removeLast_code ‹_›
    simp
  case POP_IF => simp only [ePopIf]; (repeat' split) <;> simp
  case POP_LOOP => simp only [ePopLoop]; (repeat' split) <;> simp
  case POP_PROC_2 => simp only [ePopProc2]; (repeat' split) <;> simp
  case POP_PROC_DATA =>
    simp only [ePopProcData, PS.popProc]; (repeat' split) <;> simp_all
    rename_i h
    split at h
    · cases h
    · split at h <;> simp at h; subst h; simp
  case POP_REPEAT => simp only [ePopRepeat]; (repeat' split) <;> simp
  case POP_VAR => simp only [ePopVar]; (repeat' split) <;> simp
  case POP_WHILE => simp only [ePopWhile]; (repeat' split) <;> simp
  case PROC_CHECK => simp only [eProcCheck]; (repeat' split) <;> simp
  case PUSH_LT =>
    simp only [ePushLT]
    split
    · trivial
    · obtain ⟨c, cs, n, -, rfl, -⟩ := removeLT_code ‹_›
      (repeat' split) <;> simp
      obtain ⟨cs, -, rfl⟩ := removeLast_code ‹_›
      simp
  case PUSH_VAR =>
    simp only [ePushVar]; (repeat' split) <;> simp
    obtain ⟨cs, -, rfl⟩ := removeLast_code ‹_›
    simp
  case REM => simp [eRem]
  case VAR_CREATE => exact absurd rfl h1
  case VAR_SEARCH =>
    simp only [eVarSearch, varCheck]; (repeat' split) <;> simp
    all_goals
      obtain ⟨c, cs, -, rfl, -⟩ := removeStr_code ‹_›
      simp
  case VAR_SET_TYPE => exact absurd rfl h2
  case VAR_WORD => simp only [eVarWord, varCheck]; (repeat' split) <;> simp

/-! ## Pure tables -/

/-- Lines that neither create nor type variables and only call tables of `P`. -/
def pureLine (P : List Nat) (l : List PCode) : Bool :=
  l.all fun c => match c with | .call t => P.contains t | .ext a => noVarAct a | _ => true

/-- `P` is closed: its tables have only pure lines. -/
def checkPure (G : Grammar) (P : List Nat) : Bool :=
  P.all fun t => match G t with | some tb => tb.lines.all (pureLine P) | none => true

/-- A line whose end is always reached. -/
def totalLine (T : List Nat) : List PCode → Bool
  | [] => true
  | .emit _ :: cs => totalLine T cs
  | .emitRet _ :: _ => true
  | .ret :: _ => true
  | .call t :: cs => T.contains t && totalLine T cs
  | _ => false

/-- The tables of `T` never fail. -/
def checkTotal (G : Grammar) (T : List Nat) : Bool :=
  T.all fun t => match G t with | some tb => (tb.lines.getLast?.map (totalLine T)).getD false | none => true

/-- The item is the name of a type. -/
def isTypeSym : DCode → Bool
  | .byteSym n => getVarType n ≠ .UNDEF
  | _ => false

/-- A line that, when it succeeds, leaves the name of a type as the last item of the code. -/
def typeLine (V : List Nat) : List PCode → Bool
  | [] => false
  | [.emit ds, .ret] => (ds.getLast?.map isTypeSym).getD false
  | [.emitRet ds] => (ds.getLast?.map isTypeSym).getD false
  | [.call t, .ret] => V.contains t
  | .ret :: _ => false
  | .emitRet _ :: _ => false
  | _ :: cs => typeLine V cs

/-- The tables of `V` leave the name of a type. -/
def checkType (G : Grammar) (V : List Nat) : Bool :=
  V.all fun t => match G t with | some tb => tb.lines.all (typeLine V) | none => true

/-- A line that does not create variables itself. -/
def plainLine (l : List PCode) : Bool := l.all fun c => match c with | .ext a => noVarAct a | _ => true

/-- A line that creates a variable and sets its type. -/
def createLine (P C : List Nat) : List PCode → Bool
  | .ext .VAR_CREATE :: .call t :: .ext .VAR_SET_TYPE :: cs => C.contains t && pureLine P cs
  | .ext .VAR_CREATE :: .ext .PUSH_VAR :: .call t :: .ext .VAR_SET_TYPE :: cs => C.contains t && pureLine P cs
  | _ => false

/-- The test of the grammar: `N` tables, `P` pure, `T` never failing and `V` giving a type; `C` those used to
choose the type of a new variable. -/
def checkVars (G : Grammar) (N : Nat) (P T V C : List Nat) : Bool :=
  checkPure G P && checkTotal G T && checkType G V && C.all (fun t => P.contains t && T.contains t && V.contains t) &&
  (List.range N).all fun t => match G t with
    | some tb => tb.lines.all fun l => plainLine l || createLine P C l
    | none => true


section
variable {env : Env} {G : Grammar}

theorem noVarAct_ne {a : Act} (h : noVarAct a = true) : a ≠ .VAR_CREATE ∧ a ≠ .VAR_SET_TYPE := by
  constructor <;> rintro rfl <;> simp [noVarAct] at h

theorem sameVars_refl (s : PS) : SameVars s s := ⟨rfl, rfl⟩

theorem pureLine_sound {P : List Nat} {tab : Nat → PS → Res} (htab : ∀ t ∈ P, ∀ s, (tab t s).All (SameVars s))
    (l : List PCode) (hl : pureLine P l = true) (s : PS) : (parseLine (action env) tab l s).All (SameVars s) := by
  induction l generalizing s with
  | nil => exact sameVars_refl s
  | cons c cs ih =>
    simp only [pureLine, List.all_cons, Bool.and_eq_true] at hl
    have ih := ih hl.2
    have step : ∀ {r : Res}, r.All (SameVars s) → (r.andThen (parseLine (action env) tab cs)).All (SameVars s) := fun h =>
      h.andThen (fun s1 h1 => (ih s1).mono fun s2 h2 => h1.trans h2) (fun _ h => h)
    cases c with
    | lit l =>
      refine step ?_
      unfold parseLiteral
      dsimp only
      split <;> simp [SameVars]
    | emit d => exact (ih (emitBytes d s)).mono fun s2 h2 => SameVars.trans (by simp [SameVars]) h2
    | emitRet d => simp [parseLine, SameVars]
    | call t => exact step (htab t (by simpa using hl.1) s)
    | ext a =>
      obtain ⟨h1, h2⟩ := noVarAct_ne hl.1
      exact step (action_sameVars env a s h1 h2)
    | ret => exact sameVars_refl s

theorem pureLines_sound {P : List Nat} {tab : Nat → PS → Res} (htab : ∀ t ∈ P, ∀ s, (tab t s).All (SameVars s))
    (sp : PS.Saved) (ls : List (List PCode)) (hl : ls.all (pureLine P) = true) (s : PS) :
    (parseLines (action env) tab sp ls s).All (SameVars s) := by
  induction ls generalizing s with
  | nil => exact ⟨rfl, rfl⟩
  | cons l ls ih =>
    simp only [List.all_cons, Bool.and_eq_true] at hl
    have h := pureLine_sound (env := env) htab l hl.1 s
    unfold parseLines
    split
    · next s1 heq => rw [heq] at h; exact h
    · next s1 heq =>
      rw [heq] at h
      exact (ih hl.2 _).mono fun s2 h2 => SameVars.trans h (SameVars.trans (by simp [SameVars]) h2)
    · trivial

theorem pureTable_sound {P : List Nat} (hP : checkPure G P = true) (n : Nat) :
    ∀ t ∈ P, ∀ s, (parseTable (action env) G n t s).All (SameVars s) := by
  induction n with
  | zero => intro t _ s; trivial
  | succ n ih =>
    intro t ht s
    have h := List.all_eq_true.mp hP t ht
    unfold parseTable
    split
    · trivial
    · next tb htb =>
      rw [htb] at h
      split
      · trivial
      · exact (pureLines_sound ih _ _ h _).mono fun s2 h2 => SameVars.trans (by simp [SameVars, enterTable]) h2

/-- The function did not return `false`. -/
def Res.NoFail : Res → Prop
  | .fail _ => False
  | _ => True

theorem totalLine_sound {act : Act → PS → Res} {T : List Nat} {tab : Nat → PS → Res} (htab : ∀ t ∈ T, ∀ s, (tab t s).NoFail)
    (l : List PCode) (hl : totalLine T l = true) (s : PS) : (parseLine act tab l s).NoFail := by
  induction l generalizing s with
  | nil => trivial
  | cons c cs ih =>
    cases c with
    | lit l => simp [totalLine] at hl
    | emit d => exact ih hl _
    | emitRet d => trivial
    | call t =>
      simp only [totalLine, Bool.and_eq_true] at hl
      have h := htab t (by simpa using hl.1) s
      simp only [parseLine]
      cases hr : tab t s with
      | ok s1 => exact ih hl.2 s1
      | fail s1 => rw [hr] at h; exact h
      | err e => trivial
    | ext a => simp [totalLine] at hl
    | ret => trivial

theorem totalLines_sound {act : Act → PS → Res} {T : List Nat} {tab : Nat → PS → Res} (htab : ∀ t ∈ T, ∀ s, (tab t s).NoFail)
    (sp : PS.Saved) (ls : List (List PCode)) (hl : (ls.getLast?.map (totalLine T)).getD false = true) (s : PS) :
    (parseLines act tab sp ls s).NoFail := by
  induction ls generalizing s with
  | nil => simp at hl
  | cons l ls ih =>
    unfold parseLines
    split
    · trivial
    · next s1 heq =>
      cases ls with
      | nil =>
        have h := totalLine_sound (act := act) htab l (by simpa using hl) s
        rw [heq] at h
        exact h.elim
      | cons l2 ls => exact ih (by simpa [List.getLast?_cons_cons] using hl) _
    · trivial

theorem totalTable_sound {act : Act → PS → Res} {T : List Nat} (hT : checkTotal G T = true) (n : Nat) :
    ∀ t ∈ T, ∀ s, (parseTable act G n t s).NoFail := by
  induction n with
  | zero => intro t _ s; trivial
  | succ n ih =>
    intro t ht s
    have h := List.all_eq_true.mp hT t ht
    unfold parseTable
    split
    · trivial
    · next tb htb =>
      rw [htb] at h
      split
      · trivial
      · exact totalLines_sound ih _ _ h _

/-- The last item of the code is the name of a type. -/
def TypeTop (s : PS) : Prop := ∃ c cs n, s.code = c :: cs ∧ c.k = .byteStr n ∧ getVarType n ≠ .UNDEF

theorem emitBytes_type {ds : List DCode} (h : (ds.getLast?.map isTypeSym).getD false = true) (s : PS) :
    TypeTop (emitBytes ds s) := by
  induction ds generalizing s with
  | nil => simp at h
  | cons d ds ih =>
    cases ds with
    | nil =>
      simp only [List.getLast?_singleton, Option.map_some, Option.getD_some] at h
      cases d <;> simp only [isTypeSym] at h <;> try cases h
      next n => exact ⟨_, _, n, emit_code _ _, rfl, by simpa using h⟩
    | cons d2 ds => exact ih (by simpa [List.getLast?_cons_cons] using h) _

theorem typeLine_sound {act : Act → PS → Res} {V : List Nat} {tab : Nat → PS → Res}
    (htab : ∀ t ∈ V, ∀ s, (tab t s).Ok TypeTop) (l : List PCode) (hl : typeLine V l = true) (s : PS) :
    (parseLine act tab l s).Ok TypeTop := by
  induction l generalizing s with
  | nil => simp [typeLine] at hl
  | cons c cs ih =>
    unfold typeLine at hl
    split at hl
    · cases hl
    · next heq =>
      cases heq
      exact emitBytes_type hl s
    · next heq =>
      cases heq
      exact emitBytes_type hl s
    · next t heq =>
      cases heq
      have h := htab t (by simpa using hl) s
      simp only [parseLine]
      cases hr : tab t s with
      | ok s1 => rw [hr] at h; exact h
      | fail s1 => trivial
      | err e => trivial
    · cases hl
    · cases hl
    · next c' cs' h1 h2 h3 h4 h5 heq =>
      cases heq
      have step : ∀ {r : Res}, (r.andThen (parseLine act tab cs)).Ok TypeTop := by
        intro r
        cases r with
        | ok s1 => exact ih hl s1
        | fail s1 => trivial
        | err e => trivial
      cases c with
      | lit l => exact step
      | emit d => exact ih hl _
      | emitRet d => exact absurd rfl (h5 d)
      | call t => exact step
      | ext a => exact step
      | ret => exact absurd rfl h4

theorem typeLines_sound {act : Act → PS → Res} {V : List Nat} {tab : Nat → PS → Res}
    (htab : ∀ t ∈ V, ∀ s, (tab t s).Ok TypeTop) (sp : PS.Saved) (ls : List (List PCode))
    (hl : ls.all (typeLine V) = true) (s : PS) : (parseLines act tab sp ls s).Ok TypeTop := by
  induction ls generalizing s with
  | nil => trivial
  | cons l ls ih =>
    simp only [List.all_cons, Bool.and_eq_true] at hl
    have h := typeLine_sound (act := act) htab l hl.1 s
    unfold parseLines
    split
    · next s1 heq => rw [heq] at h; exact h
    · exact ih hl.2 _
    · trivial

theorem typeTable_sound {act : Act → PS → Res} {V : List Nat} (hV : checkType G V = true) (n : Nat) :
    ∀ t ∈ V, ∀ s, (parseTable act G n t s).Ok TypeTop := by
  induction n with
  | zero => intro t _ s; trivial
  | succ n ih =>
    intro t ht s
    have h := List.all_eq_true.mp hV t ht
    unfold parseTable
    split
    · trivial
    · next tb htb =>
      rw [htb] at h
      split
      · trivial
      · exact typeLines_sound ih _ _ h _

theorem pushVar_noFail (s : PS) : (ePushVar s).NoFail := by
  unfold ePushVar; split <;> trivial

/-- The end of a line that creates a variable. -/
theorem create_tail {P C : List Nat} {tab : Nat → PS → Res} (hP : ∀ t ∈ P, ∀ s, (tab t s).All (SameVars s))
    (hC : ∀ t ∈ C, ∀ s, (tab t s).All (SameVars s) ∧ (tab t s).NoFail ∧ (tab t s).Ok TypeTop) {t : Nat} (ht : t ∈ C)
    (cs : List PCode) (hcs : pureLine P cs = true) {s0 s1 : PS} {name : Str} (hi : Ident name)
    (hn : lookup name s0.vars = none) (hv : s1.vars = s0.vars ++ [(name, 256 * s0.vars.length)]) (hl : s1.lastVar = name) :
    (parseLine (action env) tab (.call t :: .ext .VAR_SET_TYPE :: cs) s1).All (fun s' => VStep s0.vars s'.vars) := by
  obtain ⟨h1, h2, h3⟩ := hC t ht s1
  simp only [parseLine]
  cases hr : tab t s1 with
  | fail s2 => rw [hr] at h2; exact h2.elim
  | err e => trivial
  | ok s2 =>
    rw [hr] at h1 h3
    obtain ⟨hv2, hl2⟩ := h1
    obtain ⟨c, cc, n, e1, e2, e3⟩ := h3
    simp only [Res.andThen, action, eVarSetType]
    have hrm : removeStr s2.skipws = .ok (n, s2.skipws.setCode cc) := by
      have : s2.skipws.code = c :: cc := e1
      simp [removeStr, PS.removeLast, this, e2, CK.getStr]
    rw [hrm]
    dsimp only
    have key : VStep s0.vars (setType s2.lastVar (getVarType n) s2.vars) := by
      rw [hv2, hl2, hv, hl]
      exact setType_new _ e3 hi hn
    by_cases ha : (getVarType n).isArray
    · rw [if_pos ha]
      exact (pureLine_sound hP cs hcs _).mono fun s3 h3 => VStep.trans key (VStep.of_eq h3.1)
    · rw [if_neg ha]
      exact key

theorem createLine_sound {P C : List Nat} {tab : Nat → PS → Res} (hP : ∀ t ∈ P, ∀ s, (tab t s).All (SameVars s))
    (hC : ∀ t ∈ C, ∀ s, (tab t s).All (SameVars s) ∧ (tab t s).NoFail ∧ (tab t s).Ok TypeTop)
    (l : List PCode) (hl : createLine P C l = true) (s : PS) :
    (parseLine (action env) tab l s).All (fun s' => VStep s.vars s'.vars) := by
  have hcreate : ∀ cs, (∀ s1 name, Ident name → lookup name s.vars = none →
        s1.vars = s.vars ++ [(name, 256 * s.vars.length)] → s1.lastVar = name →
        (parseLine (action env) tab cs s1).All (fun s' => VStep s.vars s'.vars)) →
      (parseLine (action env) tab (.ext .VAR_CREATE :: cs) s).All (fun s' => VStep s.vars s'.vars) := by
    intro cs hcs
    simp only [parseLine, action, eVarCreate]
    split
    · exact VStep.of_eq (by simp)
    · next name hname =>
      split
      · exact VStep.of_eq (by simp)
      · next hlk =>
        have hlk : lookup name s.vars = none := by simpa using hlk
        refine hcs _ name (getIdent_ident hname) hlk ?_ ?_
        · simp [assign_new hlk]
        · simp
  unfold createLine at hl
  split at hl
  · next t cs =>
    simp only [Bool.and_eq_true] at hl
    refine hcreate _ fun s1 name h1 h2 h3 h4 => ?_
    exact create_tail hP hC (by simpa using hl.1) cs hl.2 h1 h2 h3 h4
  · next t cs =>
    simp only [Bool.and_eq_true] at hl
    refine hcreate _ fun s1 name h1 h2 h3 h4 => ?_
    have e := action_sameVars env .PUSH_VAR s1 (by decide) (by decide)
    have nf := pushVar_noFail s1
    simp only [parseLine]
    simp only [action] at e ⊢
    cases hr : ePushVar s1 with
    | fail s2 => rw [hr] at nf; exact nf.elim
    | err e => trivial
    | ok s2 =>
      rw [hr] at e
      exact create_tail hP hC (by simpa using hl.1) cs hl.2 h1 h2 (e.1.trans h3) (e.2.trans h4)
  · cases hl

theorem plainLine_sound {tab : Nat → PS → Res} (htab : ∀ t s, (tab t s).All (fun s' => VStep s.vars s'.vars))
    (l : List PCode) (hl : plainLine l = true) (s : PS) :
    (parseLine (action env) tab l s).All (fun s' => VStep s.vars s'.vars) := by
  induction l generalizing s with
  | nil => exact VStep.refl _
  | cons c cs ih =>
    simp only [plainLine, List.all_cons, Bool.and_eq_true] at hl
    have ih := ih hl.2
    have step : ∀ {r : Res}, r.All (fun s' => VStep s.vars s'.vars) →
        (r.andThen (parseLine (action env) tab cs)).All (fun s' => VStep s.vars s'.vars) := fun h =>
      h.andThen (fun s1 h1 => (ih s1).mono fun s2 h2 => VStep.trans h1 h2) (fun _ h => h)
    cases c with
    | lit l =>
      refine step ?_
      unfold parseLiteral
      dsimp only
      split <;> exact VStep.of_eq (by simp)
    | emit d => exact (ih (emitBytes d s)).mono fun s2 h2 => VStep.trans (VStep.of_eq (by simp)) h2
    | emitRet d => exact VStep.of_eq (by simp)
    | call t => exact step (htab t s)
    | ext a =>
      obtain ⟨h1, h2⟩ := noVarAct_ne hl.1
      exact step ((action_sameVars env a s h1 h2).mono fun s' h => VStep.of_eq h.1)
    | ret => exact VStep.refl _

theorem varLines_sound {tab : Nat → PS → Res} {ls : List (List PCode)}
    (hls : ∀ l ∈ ls, ∀ s, (parseLine (action env) tab l s).All (fun s' => VStep s.vars s'.vars)) (sp : PS.Saved) (s : PS) :
    (parseLines (action env) tab sp ls s).All (fun s' => VStep s.vars s'.vars) := by
  induction ls generalizing s with
  | nil => exact VStep.of_eq (by simp)
  | cons l ls ih =>
    have h := hls l (by simp) s
    unfold parseLines
    split
    · next s1 heq => rw [heq] at h; exact VStep.trans h (VStep.of_eq (by simp))
    · next s1 heq =>
      rw [heq] at h
      exact (ih (fun l hl => hls l (by simp [hl])) _).mono fun s2 h2 =>
        VStep.trans h (VStep.trans (VStep.of_eq (by simp)) h2)
    · trivial

/-- Parsing any table of a checked grammar only appends whole variables to the map. -/
theorem varTable_sound {N : Nat} {P T V C : List Nat} (hG : checkVars G N P T V C = true) (hN : ∀ t, N ≤ t → G t = none)
    (n t : Nat) (s : PS) : (parseTable (action env) G n t s).All (fun s' => VStep s.vars s'.vars) := by
  simp only [checkVars, Bool.and_eq_true] at hG
  obtain ⟨⟨⟨⟨h1, h2⟩, h3⟩, h4⟩, h5⟩ := hG
  induction n generalizing t s with
  | zero => trivial
  | succ n ih =>
    have hP := pureTable_sound (env := env) h1 n
    have hC : ∀ t ∈ C, ∀ s, (parseTable (action env) G n t s).All (SameVars s) ∧ (parseTable (action env) G n t s).NoFail ∧
        (parseTable (action env) G n t s).Ok TypeTop := by
      intro t ht s
      have h := List.all_eq_true.mp h4 t ht
      simp only [Bool.and_eq_true, List.contains_iff_mem] at h
      exact ⟨hP t h.1.1 s, totalTable_sound h2 n t h.1.2 s, typeTable_sound h3 n t h.2 s⟩
    unfold parseTable
    split
    · trivial
    · next tb htb =>
      split
      · trivial
      · refine (varLines_sound ?_ _ _).mono fun s2 h2 => VStep.trans (VStep.of_eq (by simp [enterTable])) h2
        intro l hl s
        have ht : t < N := by
          refine Decidable.byContradiction fun h => ?_
          rw [hN t (by omega)] at htb
          cases htb
        have h := List.all_eq_true.mp h5 t (List.mem_range.mpr ht)
        rw [htb] at h
        have h := List.all_eq_true.mp h l hl
        simp only [Bool.or_eq_true] at h
        rcases h with h | h
        · exact plainLine_sound (fun t s => ih t s) l h s
        · exact createLine_sound hP hC l h s

theorem lineLoop_vars {start : PS → Res} (hst : ∀ s, (start s).All (fun s' => VStep s.vars s'.vars))
    (ne : Expand → Expand) (n : Nat) : ∀ s s' : PS, lineLoop start ne n s = .ok s' → VStep s.vars s'.vars := by
  induction n with
  | zero => intro s s' h; simp [lineLoop] at h
  | succ n ih =>
    intro s s' h
    unfold lineLoop at h
    split at h
    · cases h; exact VStep.refl _
    · have h0 := hst s
      split at h
      · cases h
      · cases h
      · next s1 heq =>
        rw [heq] at h0
        split at h
        · cases h
        · exact VStep.trans (VStep.trans h0 (VStep.of_eq (by simp))) (ih _ _ h)

theorem compileLine_vars {start : PS → Res} (hst : ∀ s, (start s).All (fun s' => VStep s.vars s'.vars)) {line : Str}
    {ln : Nat} {s s' : PS} (h : compileLine start line ln s = .ok s') : VStep s.vars s'.vars :=
  VStep.trans (VStep.of_eq (by simp [PS.newLine])) (lineLoop_vars hst _ _ _ _ h)

theorem compileLines_vars {start : PS → Res} (hst : ∀ s, (start s).All (fun s' => VStep s.vars s'.vars)) (n : Nat) :
    ∀ (src : Str) (ln : Nat) (s s' : PS), compileLines start n src ln s = .ok s' → VStep s.vars s'.vars := by
  induction n with
  | zero => intro src ln s s' h; simp [compileLines] at h
  | succ n ih =>
    intro src ln s s' h
    unfold compileLines at h
    dsimp only at h
    split at h
    · cases h; exact VStep.refl _
    · split at h
      · cases h
      · next s1 heq => exact VStep.trans (compileLine_vars hst heq) (ih _ _ _ _ h)

end

/-! ## The shipped grammar -/

/-- The tables of the shipped grammar that do not create variables. -/
def fpPure : List Nat :=
  [0, 1, 2, 3, 4, 5, 6, 7, 8, 9, 10, 11, 12, 13, 14, 15, 16, 17, 18, 19, 20, 21, 22, 23, 24, 25, 26, 27, 28, 29,
   30, 31, 33, 35, 37, 38, 39, 40, 41, 42, 43, 45, 49, 50, 51, 53, 54, 55, 57, 58, 59, 60, 61, 62, 63, 64, 65,
   66, 67, 68, 69, 74, 75, 76, 77, 78, 81, 82, 83, 84, 85, 86, 87, 88, 89, 90, 91, 92, 93]

theorem fp_checkVars : checkVars AtariFp.grammar 94 fpPure [33, 51] [33, 49, 50, 51] [33, 51] = true := by
  decide +kernel

theorem fp_tables (t : Nat) (h : 94 ≤ t) : AtariFp.grammar t = none := by
  simp [AtariFp.grammar]; exact h

/-- Parsing with the shipped grammar only appends whole variables to the map. -/
theorem fp_vars (env : Env) (n t : Nat) (s : PS) :
    (parseTable (action env) AtariFp.grammar n t s).All (fun s' => VStep s.vars s'.vars) :=
  varTable_sound fp_checkVars fp_tables n t s

end FB.Parse
