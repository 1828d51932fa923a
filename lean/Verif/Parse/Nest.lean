import Verif.Parse.Unique

/-!
# What the actions do to the stack of open structures

The parser keeps the open loops, `IF`s, procedures and data blocks in `jumps` (`/repo/src/compiler/parser.h:175-241`). Here:

* `okTrace`: the actions called by the alternatives that succeeded, in order. These are the actions of the program as the
  parser understood it; those of the alternatives that were tried and abandoned are left out.
* `Effect`: which structures each action opens and closes.
* `Nested`: the words where each structure is closed after all the structures opened inside of it.
-/

namespace FB.Parse

open Frame

/-- A structure is opened or closed. -/
inductive Ev
  | op (j : Jump)
  | cl (j : Jump)
deriving DecidableEq

/-- Well nested words: every structure that is opened is closed, in last-in-first-out order, and nothing else is closed. -/
inductive Nested : List Ev → Prop
  | nil : Nested []
  | wrap {a b : List Ev} (j : Jump) : Nested a → Nested b → Nested (.op j :: (a ++ .cl j :: b))

theorem Nested.append {a b : List Ev} (ha : Nested a) (hb : Nested b) : Nested (a ++ b) := by
  induction ha with
  | nil => exact hb
  | wrap j h1 _ _ ih2 => simpa using Nested.wrap j h1 ih2

/-- The structures that are open after a word, the last one first; `none` if something is closed that is not the last one. -/
def openAfter : List Ev → List Jump → Option (List Jump)
  | [], st => some st
  | .op j :: w, st => openAfter w (j :: st)
  | .cl j :: w, st => match st with
    | [] => none
    | i :: st => if i = j then openAfter w st else none

theorem openAfter_append (v w : List Ev) (st : List Jump) : openAfter (v ++ w) st = (openAfter v st).bind (openAfter w) := by
  induction v generalizing st with
  | nil => rfl
  | cons e v ih =>
    cases e with
    | op j => exact ih _
    | cl j =>
      cases st with
      | nil => rfl
      | cons i st =>
        simp only [List.cons_append, openAfter]
        split
        · exact ih _
        · rfl

/-- A word that closes the structures of a stack one after the other. -/
inductive Closes : List Ev → List Jump → Prop
  | nil {w} : Nested w → Closes w []
  | cons {v w st} (j : Jump) : Nested v → Closes w st → Closes (v ++ .cl j :: w) (j :: st)

theorem Closes.before {v w : List Ev} {st : List Jump} (hv : Nested v) (h : Closes w st) : Closes (v ++ w) st := by
  cases h with
  | nil h => exact .nil (hv.append h)
  | cons j h1 h2 => rw [← List.append_assoc]; exact .cons j (hv.append h1) h2

theorem closes_of_open (w : List Ev) : ∀ st, openAfter w st = some [] → Closes w st := by
  induction w with
  | nil => intro st h; cases h; exact .nil .nil
  | cons e w ih =>
    intro st h
    cases e with
    | op j =>
      cases ih _ h with
      | @cons v u _ _ h1 h2 =>
        cases h2 with
        | nil h2 => exact .nil (.wrap j h1 h2)
        | @cons v2 u2 _ i h2 h3 =>
          have := Closes.cons i (Nested.wrap j h1 h2) h3
          simpa using this
    | cl j =>
      cases st with
      | nil => cases h
      | cons i st =>
        simp only [openAfter] at h
        split at h
        · next e =>
          subst e
          exact Closes.cons (v := []) i .nil (ih _ h)
        · cases h

/-- A word that leaves nothing open is well nested. -/
theorem nested_of_open {w : List Ev} (h : openAfter w [] = some []) : Nested w := by
  cases closes_of_open w [] h with
  | nil h => exact h

/-! ## The actions of the alternatives that succeed -/

section
variable (act : Act → PS → Res)

/-- The calls of the first alternative that succeeds. -/
def linesOk (tab : Nat → PS → Res) (tt : Nat → PS → List (Act × PS)) (sp : PS.Saved) :
    List (List PCode) → PS → List (Act × PS)
  | [], _ => []
  | l :: ls, s => match parseLine act tab l s with
    | .ok _ => lineTrace act tab tt l s
    | .fail s1 => linesOk tab tt sp ls (s1.restore sp)
    | .err _ => []

/-- The calls of the alternatives that succeed in `parseTable`. -/
def tableOk (G : Grammar) : Nat → Nat → PS → List (Act × PS)
  | 0, _, _ => []
  | n + 1, t, s => match G t with
    | none => []
    | some tb => linesOk act (parseTable act G n) (tableOk G n) (enterTable tb s).save tb.lines (enterTable tb s)

/-- The calls of the alternatives that succeed during a compilation, each with the state it is made in. -/
def okTrace (G : Grammar) (start : Nat) (src : Str) : List (Act × PS) :=
  fileTrace (parseStart act G start) (tableOk act G (maxLevel + 2) start) (src.length + 1) src 1 initPS

/-- Every alternative that was tried and abandoned during a compilation left the open structures as they were. -/
def CleanRun (G : Grammar) (start : Nat) (src : Str) : Prop :=
  ∀ p ∈ compileRunTrace act G start src, ∀ x, parseLine act (parseTable act G p.1.1) p.1.2 p.2 = .fail x → x.jumps = p.2.jumps

/-- The calls succeed, and no call changes the open structures between one call and the next. -/
inductive Chain : List (Act × PS) → List Jump → List Jump → Prop
  | nil {j} : Chain [] j j
  | cons {a x y tr k} : act a x = .ok y → Chain tr y.jumps k → Chain ((a, x) :: tr) x.jumps k

variable {act}

theorem Chain.append {tr tr' : List (Act × PS)} {i j k : List Jump} (h : Chain act tr i j) (g : Chain act tr' j k) :
    Chain act (tr ++ tr') i k := by
  induction h with
  | nil => exact g
  | cons ha _ ih => exact .cons ha (ih g)

theorem Chain.split {tr' : List (Act × PS)} {k : List Jump} : ∀ {tr : List (Act × PS)} {i : List Jump},
    Chain act (tr ++ tr') i k → ∃ j, Chain act tr i j ∧ Chain act tr' j k := by
  intro tr
  induction tr with
  | nil => intro i h; exact ⟨i, .nil, h⟩
  | cons p tr ih =>
    intro i h
    cases h with
    | cons ha h =>
      obtain ⟨j, h1, h2⟩ := ih h
      exact ⟨j, .cons ha h1, h2⟩

theorem parseLiteral_jumps {l : Str} {s s1 : PS} (h : parseLiteral l s = .ok s1) : s1.jumps = s.jumps := by
  have := parseLiteral_data l s
  rw [h] at this
  exact this.2.2

theorem lineTrace_chain {tab : Nat → PS → Res} {tt : Nat → PS → List (Act × PS)}
    {tr : Nat → PS → List ((Nat × List PCode) × PS)} {P : (Nat × List PCode) × PS → Prop}
    (H : ∀ t s s1, (∀ p ∈ tr t s, P p) → tab t s = .ok s1 → Chain act (tt t s) s.jumps s1.jumps) (l : List PCode) :
    ∀ s s', (∀ p ∈ lineRunTrace act tab tr l s, P p) → parseLine act tab l s = .ok s' →
      Chain act (lineTrace act tab tt l s) s.jumps s'.jumps := by
  induction l with
  | nil => intro s s' _ h; cases h; exact .nil
  | cons c cs ih =>
    intro s s' hp h
    cases c with
    | lit l =>
      simp only [parseLine, lineTrace, lineRunTrace] at *
      cases hr : parseLiteral l s with
      | ok s1 =>
        simp only [hr, Res.andThen] at h hp ⊢
        rw [← parseLiteral_jumps hr]
        exact ih _ _ hp h
      | fail s1 => simp [hr, Res.andThen] at h
      | err e => simp [hr, Res.andThen] at h
    | emit d =>
      have := ih _ _ hp h
      rwa [emitBytes_jumps] at this
    | emitRet d =>
      cases h
      rw [emitBytes_jumps]
      exact .nil
    | ext a =>
      simp only [parseLine, lineTrace, lineRunTrace] at *
      cases hr : act a s with
      | ok s1 =>
        simp only [hr, Res.andThen] at h hp ⊢
        exact .cons hr (ih _ _ hp h)
      | fail s1 => simp [hr, Res.andThen] at h
      | err e => simp [hr, Res.andThen] at h
    | call t =>
      simp only [parseLine, lineTrace, lineRunTrace] at *
      cases hr : tab t s with
      | ok s1 =>
        simp only [hr, Res.andThen] at h hp ⊢
        exact (H _ _ _ (fun p h => hp p (List.mem_append_left _ h)) hr).append
          (ih _ _ (fun p h => hp p (List.mem_append_right _ h)) h)
      | fail s1 => simp [hr, Res.andThen] at h
      | err e => simp [hr, Res.andThen] at h
    | ret => cases h; exact .nil

theorem linesOk_chain {n : Nat} {G : Grammar} {tt : Nat → PS → List (Act × PS)}
    {tr : Nat → PS → List ((Nat × List PCode) × PS)}
    {P : (Nat × List PCode) × PS → Prop} (sp : PS.Saved)
    (hP : ∀ l s x, P ((n, l), s) → parseLine act (parseTable act G n) l s = .fail x → x.jumps = s.jumps)
    (H : ∀ t s s1, (∀ p ∈ tr t s, P p) → parseTable act G n t s = .ok s1 → Chain act (tt t s) s.jumps s1.jumps)
    (ls : List (List PCode)) :
    ∀ s s', (∀ p ∈ linesRunTrace act n (parseTable act G n) tr sp ls s, P p) →
      parseLines act (parseTable act G n) sp ls s = .ok s' →
      Chain act (linesOk act (parseTable act G n) tt sp ls s) s.jumps s'.jumps := by
  induction ls with
  | nil => intro s s' _ h; cases h
  | cons l ls ih =>
    intro s s' hp h
    simp only [linesRunTrace, List.mem_cons, List.mem_append] at hp
    simp only [parseLines] at h
    simp only [linesOk]
    cases hr : parseLine act (parseTable act G n) l s with
    | ok s1 =>
      simp only [hr] at h ⊢
      cases h
      exact lineTrace_chain H l s s1 (fun p h => hp p (.inr (.inl h))) hr
    | fail s1 =>
      simp only [hr] at h ⊢
      have h1 := hP l s s1 (hp _ (.inl rfl)) hr
      have h2 := ih _ _ (fun p h => hp p (.inr (.inr (by simpa [hr] using h)))) h
      rwa [restore_jumps, h1] at h2
    | err e => simp [hr] at h

theorem tableOk_chain {G : Grammar} (n : Nat) : ∀ t s s',
    (∀ p ∈ tableRunTrace act G n t s, ∀ x, parseLine act (parseTable act G p.1.1) p.1.2 p.2 = .fail x → x.jumps = p.2.jumps) →
    parseTable act G n t s = .ok s' → Chain act (tableOk act G n t s) s.jumps s'.jumps := by
  induction n with
  | zero => intro t s s' _ h; cases h
  | succ n ih =>
    intro t s s' hp h
    simp only [parseTable] at h
    simp only [tableOk]
    simp only [tableRunTrace] at hp
    cases hg : G t with
    | none => simp [hg] at h
    | some tb =>
      simp only [hg] at h hp ⊢
      split at h
      · cases h
      · next hl =>
        rw [if_pos (by omega)] at hp
        have := linesOk_chain (P := fun p => ∀ x, parseLine act (parseTable act G p.1.1) p.1.2 p.2 = .fail x → x.jumps = p.2.jumps)
          (enterTable tb s).save (fun l s x h h' => h x h') ih tb.lines _ _ hp h
        simpa [enterTable] using this

theorem loopTrace_chain {ε : Type} {start : PS → Res} {st : PS → List (Act × PS)} {sr : PS → List (ε × PS)}
    {P : ε × PS → Prop} (ne : Expand → Expand)
    (H : ∀ s s1, (∀ p ∈ sr s, P p) → start s = .ok s1 → Chain act (st s) s.jumps s1.jumps) (n : Nat) :
    ∀ s s', (∀ p ∈ loopTrace start sr ne n s, P p) → lineLoop start ne n s = .ok s' →
      Chain act (loopTrace start st ne n s) s.jumps s'.jumps := by
  induction n with
  | zero => intro s s' _ h; cases h
  | succ n ih =>
    intro s s' hp h
    simp only [lineLoop] at h
    simp only [loopTrace] at hp ⊢
    split at h
    · next he => cases h; rw [if_neg (by simpa using he)]; exact .nil
    · next he =>
      rw [if_pos he] at hp ⊢
      cases hr : start s with
      | ok s1 =>
        simp only [hr] at h hp ⊢
        split at h
        · cases h
        · next hc =>
          rw [if_pos hc] at hp ⊢
          refine (H _ _ (fun p h => hp p (List.mem_append_left _ h)) hr).append ?_
          have := ih _ _ (fun p h => hp p (List.mem_append_right _ h)) h
          simpa using this
      | fail s1 => simp [hr] at h
      | err e => simp [hr] at h

theorem fileTrace_chain {ε : Type} {start : PS → Res} {st : PS → List (Act × PS)} {sr : PS → List (ε × PS)}
    {P : ε × PS → Prop}
    (H : ∀ s s1, (∀ p ∈ sr s, P p) → start s = .ok s1 → Chain act (st s) s.jumps s1.jumps) (n : Nat) :
    ∀ src ln s s', (∀ p ∈ fileTrace start sr n src ln s, P p) → compileLines start n src ln s = .ok s' →
      Chain act (fileTrace start st n src ln s) s.jumps s'.jumps := by
  induction n with
  | zero => intro src ln s s' _ h; cases h
  | succ n ih =>
    intro src ln s s' hp h
    simp only [compileLines] at h
    simp only [fileTrace] at hp ⊢
    split at h
    · next he => cases h; rw [if_neg (by simpa using he)]; exact .nil
    · next he =>
      rw [if_pos he] at hp ⊢
      cases hr : compileLine start (readLine {} src).1 ln s with
      | ok s1 =>
        simp only [hr] at h hp ⊢
        refine Chain.append ?_ (ih _ _ _ _ (fun p h => hp p (List.mem_append_right _ h)) h)
        unfold compileLine at hr
        exact loopTrace_chain _ H _ _ _ (fun p h => hp p (List.mem_append_left _ h)) hr
      | err e => simp [hr] at h

/-- In an accepted program nothing is open before the first action, nothing after the last one. -/
theorem okTrace_chain {G : Grammar} {start : Nat} {src : Str} {s : PS} (hs : compile (parseStart act G start) src = .ok s)
    (hc : CleanRun act G start src) : Chain act (okTrace act G start src) [] [] := by
  unfold compile at hs
  split at hs
  · cases hs
  · next s1 h1 =>
    split at hs
    · next hl =>
      have := fileTrace_chain (st := tableOk act G (maxLevel + 2) start) (sr := tableRunTrace act G (maxLevel + 2) start)
        (P := fun p => ∀ x, parseLine act (parseTable act G p.1.1) p.1.2 p.2 = .fail x → x.jumps = p.2.jumps)
        (fun s s1 hp h => tableOk_chain _ _ _ _ hp h) _ _ _ _ _ hc h1
      have e : s1.jumps = [] := by simpa [loopsOk] using hl
      rw [e] at this
      exact this
    · cases hs

end

/-! ## The effect of the actions -/

/-- The actions that change the stack of open structures. -/
def jumpAct : Act → Bool
  | .PUSH_LT | .LABEL_DEF | .ELSEIF | .POP_FOR | .POP_IF | .POP_LOOP | .POP_PROC_2 | .POP_PROC_DATA | .POP_REPEAT
  | .POP_WHILE => true
  | _ => false

/-- The kind of structure named by the last item of the code: the operand that the grammar emits before `E_PUSH_LT` and
`E_ELSEIF`. -/
def lastLT (x : PS) : Option LT :=
  match x.code with
  | [] => none
  | c :: _ => c.k.getStr.bind getLoopType

/-- What an action opens and closes, when it is called in the state `x`:
`LOOP` closes a `DO`, `UNTIL` a `REPEAT`, `WEND` the two parts of a `WHILE`, `NEXT` the two parts of a `FOR`, `ENDIF` an `IF` or
an `ELSE`, and with it the `ELIF`s of the same `IF`; `ELSE` and `ELIF` close an `IF` and open something else; `ENDPROC` closes
the body of a procedure and its block. -/
inductive Effect (x : PS) : Act → List Ev → Prop
  | push {j} : lastLT x = some j.type → Effect x .PUSH_LT [.op j]
  | block {j} : j.type = .PROC_DATA → Effect x .LABEL_DEF [.op j]
  | loop {j} : j.type = .DO_LOOP → Effect x .POP_LOOP [.cl j]
  | until {j} : j.type = .REPEAT → Effect x .POP_REPEAT [.cl j]
  | wend {i j} : i.type = .WHILE_2 → j.type = .WHILE_1 → Effect x .POP_WHILE [.cl i, .cl j]
  | next {i j} : i.type = .FOR_1 → j.type = .FOR_2 → Effect x .POP_FOR [.cl i, .cl j]
  | endif {j : Jump} {es : List Jump} : j.type = .IF ∨ j.type = .ELSE → (∀ e ∈ es, e.type = .ELIF) → Effect x .POP_IF (.cl j :: es.map .cl)
  | else {i j} : i.type = .IF → lastLT x = some j.type → Effect x .ELSEIF [.cl i, .op j]
  | body {j} : j.type = .PROC_2 → Effect x .POP_PROC_2 [.cl j]
  | endBlock {j} : j.type = .PROC_DATA → Effect x .POP_PROC_DATA [.cl j]
  | other {a} : jumpAct a = false → Effect x a []

/-- The word of a list of calls. -/
inductive Word : List (Act × PS) → List Ev → Prop
  | nil : Word [] []
  | cons {a x tr w v} : Effect x a w → Word tr v → Word ((a, x) :: tr) (w ++ v)

theorem removeLT_lastLT {s s' : PS} {t : LT} (h : removeLT s = .ok (t, s')) : lastLT s = some t ∧ s'.jumps = s.jumps := by
  obtain ⟨c, n, h1, h2, h3⟩ := removeLT_ok h
  obtain ⟨cs, hc, rfl⟩ := removeLast_code h1
  exact ⟨by simp [lastLT, hc, h2, h3], rfl⟩

theorem popElifs_jumps (n : Nat) : ∀ s : PS, ∃ es, (∀ e ∈ es, e.type = .ELIF) ∧ s.jumps = es ++ (popElifs n s).jumps := by
  induction n with
  | zero => intro s; exact ⟨[], by simp, rfl⟩
  | succ n ih =>
    intro s
    simp only [popElifs]
    split
    · next hp =>
      rcases popLoop_cases s .ELIF with ⟨h1, h2⟩ | ⟨j, js, hj, ht, h1, h2⟩
      · exfalso
        unfold PS.peekLoop at hp
        unfold PS.popLoop at h1
        split at hp
        · cases hp
        · next j js hj =>
          rw [hj] at h1
          simp only at h1
          split at h1
          · next hc => simp_all
          · cases h1
      · obtain ⟨es, he, hes⟩ := ih ((s.popLoop .ELIF).2.emit (.label ((s.popLoop .ELIF).1.getD [])))
        have hj2 : (s.popLoop .ELIF).2.jumps = js := by rw [h2.jumps]; rfl
        refine ⟨j :: es, ?_, ?_⟩
        · intro e h
          rcases List.mem_cons.mp h with rfl | h
          · simpa using ht
          · exact he e h
        · rw [emit_jumps, hj2] at hes
          rw [hj, hes]
          rfl
    · exact ⟨[], by simp, rfl⟩

theorem openAfter_cls (es : List Jump) (st : List Jump) : openAfter (es.map .cl) (es ++ st) = some st := by
  induction es with
  | nil => rfl
  | cons e es ih => simp [openAfter, ih]


/-- What every action does to the stack of open structures. -/
theorem action_effect {env : Env} {a : Act} {x y : PS} (h : action env a x = .ok y) :
    ∃ w, Effect x a w ∧ openAfter w x.jumps = some y.jumps := by
  cases ha : jumpAct a with
  | false =>
    refine ⟨[], .other ha, ?_⟩
    have : (action env a x).All (fun s' => s'.jumps = x.jumps) := by
      cases a <;> first | exact absurd ha (by decide) | simp only [action]
      case CONST_STRING => simp only [eConstString]; (repeat' split) <;> simp
      case COUNT_PARAM => rfl
      case DATA_FILE => simp only [eDataFile]; (repeat' split) <;> simp
      case DO_EXEC => simp only [eDoExec]; (repeat' split) <;> simp
      case EOL => simp only [eEol, eRem]; (repeat' split) <;> simp
      case EXIT_LOOP => simp only [eExitLoop]; (repeat' split) <;> simp
      case LABEL =>
        simp only [eLabel]; split
        · trivial
        · obtain ⟨c, cs, -, rfl, -⟩ := removeStr_code ‹_›
          (repeat' split) <;> simp
      case LABEL_CREATE => simp only [eLabelCreate]; (repeat' split) <;> simp
      case LABEL_SET_TYPE =>
        simp only [eLabelSetType]; split
        · trivial
        · obtain ⟨c, cs, -, rfl, -⟩ := removeStr_code ‹_›
          (repeat' split) <;> simp
      case DATA_SET_ROM_SEG => rfl
      case DATA_SET_SEGMENT => simp only [eDataSetSegment]; (repeat' split) <;> simp
      case NUMBER_BYTE => simp only [eNumberByte]; (repeat' split) <;> simp
      case NUMBER_FP => simp only [eNumberFp]; (repeat' split) <;> simp
      case NUMBER_WORD => simp only [eNumberWord]; (repeat' split) <;> simp
      case POP_VAR => simp only [ePopVar]; (repeat' split) <;> simp
      case PROC_CHECK => simp only [eProcCheck]; (repeat' split) <;> simp
      case PUSH_VAR =>
        simp only [ePushVar]; split
        · trivial
        · obtain ⟨cs, -, rfl⟩ := removeLast_code ‹_›
          simp
      case REM => simp [eRem]
      case VAR_CREATE => simp only [eVarCreate]; (repeat' split) <;> simp
      case VAR_SEARCH =>
        simp only [eVarSearch, varCheck]; split
        · trivial
        · obtain ⟨c, cs, -, rfl, -⟩ := removeStr_code ‹_›
          (repeat' split) <;> simp
      case VAR_SET_TYPE =>
        simp only [eVarSetType]; split
        · trivial
        · obtain ⟨c, cs, -, rfl, -⟩ := removeStr_code ‹_›
          (repeat' split) <;> simp
      case VAR_WORD => simp only [eVarWord, varCheck]; (repeat' split) <;> simp
    rw [h] at this
    exact congrArg some this.symm
  | true =>
    cases a <;> first | exact absurd ha (by decide) | simp only [action] at h
    case POP_LOOP =>
      simp only [ePopLoop] at h
      rcases popLoop_cases x .DO_LOOP with ⟨h1, h2⟩ | ⟨j, js, hj, ht, h1, h2⟩
      · simp [h1] at h
      · simp only [h1, Res.ok.injEq] at h
        subst h
        exact ⟨_, .loop (by simpa using ht), by simp [openAfter, hj, h2.jumps]⟩
    case POP_REPEAT =>
      simp only [ePopRepeat] at h
      rcases popLoop_cases x .REPEAT with ⟨h1, h2⟩ | ⟨j, js, hj, ht, h1, h2⟩
      · simp [h1] at h
      · simp only [h1, Res.ok.injEq] at h
        subst h
        exact ⟨_, .until (by simpa using ht), by simp [openAfter, hj, h2.jumps]⟩
    case POP_PROC_2 =>
      simp only [ePopProc2] at h
      rcases popLoop_cases x .PROC_2 with ⟨h1, h2⟩ | ⟨j, js, hj, ht, h1, h2⟩
      · simp [h1] at h
      · simp only [h1, Res.ok.injEq] at h
        subst h
        exact ⟨_, .body (by simpa using ht), by simp [openAfter, hj, h2.jumps]⟩
    case POP_PROC_DATA =>
      simp only [ePopProcData] at h
      rcases popLoop_cases x .PROC_DATA with ⟨h1, h2⟩ | ⟨j, js, hj, ht, h1, h2⟩
      · simp [h1] at h
      · simp only [h1] at h
        split at h
        · cases h
        · next s hs =>
          cases h
          refine ⟨_, .endBlock (j := j) (by simpa using ht), ?_⟩
          have : y.jumps = (x.popLoop .PROC_DATA).2.jumps := by
            unfold PS.popProc at hs
            split at hs
            · cases hs
            · split at hs
              · cases hs; rfl
              · cases hs
          simp [openAfter, hj, this, h2.jumps]
    case POP_WHILE =>
      simp only [ePopWhile] at h
      rcases popLoop_cases x .WHILE_2 with ⟨h1, h2⟩ | ⟨j, js, hj, ht, h1, h2⟩
      · simp [h1] at h
      · rcases popLoop_cases (x.popLoop .WHILE_2).2 .WHILE_1 with ⟨h3, h4⟩ | ⟨j', js', hj', ht', h3, h4⟩
        · simp [h1, h3] at h
        · simp only [h1, h3, Res.ok.injEq] at h
          subst h
          have e : js = j' :: js' := by rw [← hj', h2.jumps]; rfl
          exact ⟨_, .wend (i := j) (j := j') (by simpa using ht) (by simpa using ht'), by simp [openAfter, hj, e, h4.jumps]⟩
    case POP_FOR =>
      simp only [ePopFor] at h
      rcases popLoop_cases x .FOR_1 with ⟨h1, h2⟩ | ⟨j, js, hj, ht, h1, h2⟩
      · simp [h1] at h
      · rcases popLoop_cases (x.popLoop .FOR_1).2 .FOR_2 with ⟨h3, h4⟩ | ⟨j', js', hj', ht', h3, h4⟩
        · simp [h1, h3] at h
        · simp only [h1, h3] at h
          split at h
          · cases h
          · next c s hs =>
            cases h
            have e : js = j' :: js' := by rw [← hj', h2.jumps]; rfl
            have e2 := removeLast_jumps hs
            exact ⟨_, .next (i := j) (j := j') (by simpa using ht) (by simpa using ht'),
              by simp [openAfter, hj, e, e2, h4.jumps]⟩
    case POP_IF =>
      simp only [ePopIf] at h
      rcases popLoop_cases x .ELSE with ⟨h1, h2⟩ | ⟨j, js, hj, ht, h1, h2⟩
      · simp [h1] at h
      · simp only [h1, Res.ok.injEq] at h
        subst h
        obtain ⟨es, he, hes⟩ := popElifs_jumps (x.popLoop .ELSE).2.jumps.length ((x.popLoop .ELSE).2.emit (.label j.label))
        refine ⟨_, .endif (j := j) (by rcases ht with h | h; exact .inr h; exact .inl h.2) he, ?_⟩
        have e : js = es ++ (popElifs (x.popLoop .ELSE).2.jumps.length ((x.popLoop .ELSE).2.emit (.label j.label))).jumps := by
          rw [← hes, emit_jumps, h2.jumps, popJ_jumps]
        simp only [openAfter, hj, if_true]
        generalize popElifs (x.popLoop .ELSE).2.jumps.length ((x.popLoop .ELSE).2.emit (.label j.label)) = q at e ⊢
        rw [e, openAfter_cls]
    case ELSEIF =>
      simp only [eElseIf] at h
      rcases popLoop_cases x .IF with ⟨h1, h2⟩ | ⟨j, js, hj, ht, h1, h2⟩
      · simp [h1] at h
      · simp only [h1] at h
        split at h
        · cases h
        · next t s hs =>
          cases h
          obtain ⟨h3, h4⟩ := removeLT_lastLT hs
          have e : lastLT x = some t := by
            rw [← h3]; unfold lastLT; rw [h2.code]; rfl
          refine ⟨_, .else (i := j) (j := ⟨t, (s.pushLoop t).1, s.linenum⟩) (by simpa using ht) e, ?_⟩
          simp [openAfter, hj, pushLoop_jumps, h4, h2.jumps]
    case PUSH_LT =>
      simp only [ePushLT] at h
      split at h
      · cases h
      · next t s hs =>
        obtain ⟨h3, h4⟩ := removeLT_lastLT hs
        have key : y.jumps = ⟨t, (s.pushLoop t).1, s.linenum⟩ :: x.jumps := by
          rw [← h4, ← pushLoop_jumps]
          cases t <;> simp only [Res.ok.injEq] at h <;> first | (subst h; rfl) | skip
          split at h
          · cases h
          · next c s' hs' =>
            cases h
            rw [pushProc_jumps, removeLast_jumps hs']
        exact ⟨_, .push (j := ⟨t, (s.pushLoop t).1, s.linenum⟩) h3, by simp [openAfter, key]⟩
    case LABEL_DEF =>
      simp only [eLabelDef] at h
      split at h
      · cases h
      · next c s hs =>
        split at h
        · cases h
        · cases h
          refine ⟨_, .block (j := ⟨.PROC_DATA, (x.pushLoop .PROC_DATA).1, x.linenum⟩) rfl, ?_⟩
          simp [openAfter, setLabel, removeLast_jumps hs, pushLoop_jumps]

theorem Chain.word {env : Env} {tr : List (Act × PS)} {i k : List Jump} (h : Chain (action env) tr i k) :
    ∃ w, Word tr w ∧ openAfter w i = some k := by
  induction h with
  | nil => exact ⟨[], .nil, rfl⟩
  | cons ha _ ih =>
    obtain ⟨v, hv, ho⟩ := ih
    obtain ⟨w, hw, ho'⟩ := action_effect ha
    refine ⟨w ++ v, .cons hw hv, ?_⟩
    rw [openAfter_append, ho']
    exact ho

end FB.Parse
