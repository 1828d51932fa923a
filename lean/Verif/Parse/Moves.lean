import Verif.Parse.Sound
import Verif.Parse.Compile
import Mathlib.Logic.Relation

/-!
# What the parser can do to its data

Every parsing function changes code, variables, labels and jumps only through the moves listed here. Used to prove
invariants: it is enough to look at each move. Auxiliary, models nothing by itself: `action_moves` and
`parseTable_moves` prove it from the model.
-/

namespace FB.Parse

open Frame

/-- Equal but for position, errors, level and listing. -/
structure Same (s s' : PS) : Prop where
  str : s'.str = s.str
  linenum : s'.linenum = s.linenum
  varStk : s'.varStk = s.varStk
  procs : s'.procs = s.procs
  procStack : s'.procStack = s.procStack
  vars : s'.vars = s.vars
  labels : s'.labels = s.labels
  jumps : s'.jumps = s.jumps
  labelNum : s'.labelNum = s.labelNum
  lastLabel : s'.lastLabel = s.lastLabel
  curParams : s'.curParams = s.curParams
  lastVar : s'.lastVar = s.lastVar

theorem Same.refl (s : PS) : Same s s := by constructor <;> rfl

theorem Same.trans {a b c : PS} (h : Same a b) (g : Same b c) : Same a c := by
  constructor
  · exact g.str.trans h.str
  · exact g.linenum.trans h.linenum
  · exact g.varStk.trans h.varStk
  · exact g.procs.trans h.procs
  · exact g.procStack.trans h.procStack
  · exact g.vars.trans h.vars
  · exact g.labels.trans h.labels
  · exact g.jumps.trans h.jumps
  · exact g.labelNum.trans h.labelNum
  · exact g.lastLabel.trans h.lastLabel
  · exact g.curParams.trans h.curParams
  · exact g.lastVar.trans h.lastVar

/-- An identifier as `get_ident` returns it. -/
def Ident (n : Str) : Prop :=
  (∃ c t, n = c :: t ∧ PS.identStartC c = true) ∧ ∀ c ∈ n, PS.identC c = true

/-- Items of the code that say nothing about loops. -/
inductive Plain (env : Env) (s : PS) : CK → Prop
  | byte (v : Nat) : (v < 256 ∨ ∃ f d, env.file f = some d ∧ v ∈ d) → Plain env s (.byte v)
  | word (v : Nat) : v < 65536 → Plain env s (.word v)
  | str (b : Str) : ((∀ c ∈ s.str, c < 256) → ∀ c ∈ b, c < 256) → Plain env s (.str b)
  | fp (b : Bool) (d : Str) (e : Int) (x : List Nat × Str) : env.fp b d e = some x → Plain env s (.fp x.1)
  | wordStr (n : Str) : Ident n → Plain env s (.wordStr n)
  | byteStr (n : Str) : Ident n → Plain env s (.byteStr n)
  | varn (name : Str) (v : Nat) : lookup name s.vars = some v → Ident name → Plain env s (.varn name (v / 256))
  | ref (name : Str) (l : LabelT) : lookup name s.labels = some l → (l.type = 128 ∨ l.type = 129) → Ident name →
      Plain env s (.wordStr (labelPrefix ++ name))

/-- The state without its last jump. -/
def popJ (s : PS) (js : List Jump) : PS := { s with jumps := js }

@[simp] theorem popJ_str (s : PS) (js : List Jump) : (popJ s js).str = s.str := rfl
@[simp] theorem popJ_pos (s : PS) (js : List Jump) : (popJ s js).pos = s.pos := rfl
@[simp] theorem popJ_linenum (s : PS) (js : List Jump) : (popJ s js).linenum = s.linenum := rfl
@[simp] theorem popJ_varStk (s : PS) (js : List Jump) : (popJ s js).varStk = s.varStk := rfl
@[simp] theorem popJ_procs (s : PS) (js : List Jump) : (popJ s js).procs = s.procs := rfl
@[simp] theorem popJ_procStack (s : PS) (js : List Jump) : (popJ s js).procStack = s.procStack := rfl
@[simp] theorem popJ_vars (s : PS) (js : List Jump) : (popJ s js).vars = s.vars := rfl
@[simp] theorem popJ_labels (s : PS) (js : List Jump) : (popJ s js).labels = s.labels := rfl
@[simp] theorem popJ_labelNum (s : PS) (js : List Jump) : (popJ s js).labelNum = s.labelNum := rfl
@[simp] theorem popJ_lastLabel (s : PS) (js : List Jump) : (popJ s js).lastLabel = s.lastLabel := rfl
@[simp] theorem popJ_curParams (s : PS) (js : List Jump) : (popJ s js).curParams = s.curParams := rfl
@[simp] theorem popJ_lastVar (s : PS) (js : List Jump) : (popJ s js).lastVar = s.lastVar := rfl
@[simp] theorem popJ_jumps (s : PS) (js : List Jump) : (popJ s js).jumps = js := rfl

/-- The moves. `Gd` are the items that the grammar can emit. -/
inductive Move (env : Env) (Gd : DCode → Prop) : PS → PS → Prop
  | same {s s'} : Same s s' → Move env Gd s s'
  | gram {s d} : Gd d → Move env Gd s (s.emit d.ck)
  | plain {s k} : Plain env s k → Move env Gd s (s.emit k)
  | exit {s j} : exitSearch s.jumps = some (some j) → Move env Gd s (s.emit (.wordStr (lblX j.label)))
  | drop {s c cs} : s.code = c :: cs → Move env Gd s (s.setCode cs)
  | restore {s} (n : Nat) : Move env Gd s (s.setCode (PS.resize s.code n))
  | pushVar {s c cs} : s.code = c :: cs → Move env Gd s { (s.setCode cs) with varStk := c :: s.varStk }
  | popVar {s c cs} : s.varStk = c :: cs → Move env Gd s { (s.setCode (c :: s.code)) with varStk := cs }
  | openLabel {s t} : t ∈ [LT.DO_LOOP, .REPEAT, .WHILE_1, .FOR_1] →
      Move env Gd s ((s.pushLoop t).2.emit (.label (s.pushLoop t).1))
  | openRef {s t} : t ∈ [LT.WHILE_2, .FOR_2, .IF] → Move env Gd s ((s.pushLoop t).2.emit (.wordStr (s.pushLoop t).1))
  | openPlain {s t} : t ∈ [LT.EXIT, .ELSE, .ELIF, .PROC_2, .LAST_JUMP] → Move env Gd s (s.pushLoop t).2
  | openProc {s c cs} : s.code = c :: cs →
      Move env Gd s (((s.pushLoop .PROC_DATA).2.setCode cs).pushProc (s.pushLoop .PROC_DATA).1)
  | dropJump {s j js} : s.jumps = j :: js → j.type ≠ .PROC_DATA → Move env Gd s (popJ s js)
  | closeLoop {s j js} : s.jumps = j :: js → j.type = .DO_LOOP ∨ j.type = .REPEAT →
      Move env Gd s (((popJ s js).emit (.wordStr j.label)).emit (.label (lblX j.label)))
  | closeWhile {s j1 j2 js} : s.jumps = j1 :: j2 :: js → j1.type = .WHILE_2 → j2.type = .WHILE_1 →
      Move env Gd s ((((popJ s js).emit (.wordStr j2.label)).emit (.label j1.label)).emit (.label (lblX j2.label)))
  | closeFor {s j1 j2 js c cs} : s.jumps = j2 :: j1 :: js → j1.type = .FOR_2 → j2.type = .FOR_1 → s.code = c :: cs →
      Move env Gd s (((((popJ s js).setCode cs).emit (.wordStr j2.label)).emit (.label j1.label)).emit
        (.label (lblX j2.label)))
  | closeIf {s j js} : s.jumps = j :: js → j.type = .ELSE ∨ j.type = .IF ∨ j.type = .ELIF →
      Move env Gd s ((popJ s js).emit (.label j.label))
  | elseIf {s j js c cs n t} : s.jumps = j :: js → j.type = .IF → s.code = c :: cs → c.k.getStr = some n →
      getLoopType n = some t →
      Move env Gd s (((((popJ s js).setCode cs).pushLoop t).2.emit
        (.wordStr (((popJ s js).setCode cs).pushLoop t).1)).emit (.label j.label))
  | closeProc2 {s j js} : s.jumps = j :: js → j.type = .PROC_2 →
      Move env Gd s ((popJ s js).emit (.label (lblX j.label)))
  | closeProcData {s j js ps} : s.jumps = j :: js → j.type = .PROC_DATA → s.procStack = j.label :: ps →
      Move env Gd s { s with jumps := js, procStack := ps }
  | newVar {s name} : lookup name s.vars = none → Ident name →
      Move env Gd s (PS.emit { s with vars := assign name (256 * s.vars.length) s.vars, lastVar := name }
        (.varn name s.vars.length))
  | setType {s c cs n} : s.code = c :: cs → c.k.getStr = some n →
      Move env Gd s { (s.setCode cs) with vars := setType s.lastVar (getVarType n) s.vars }
  | touchLabel {s} (name : Str) : Ident name ∨ name = s.lastLabel →
      Move env Gd s (setLabel s name (getLabel s name))
  | makeLabel {s name} : (getLabel s name).isProc = true → Ident name →
      Move env Gd s { (setLabel s name (getLabel s name)) with lastLabel := name, curParams := 0 }
  | labelDef {s c cs} : s.code = c :: cs → (getLabel s s.lastLabel).isDefined = false →
      Move env Gd s (PS.emit { (setLabel (((s.pushLoop .PROC_DATA).2.setCode cs).pushProc (s.pushLoop .PROC_DATA).1)
        s.lastLabel (getLabel s s.lastLabel)) with curParams := 0 } (.label (labelPrefix ++ s.lastLabel)))
  | count {s} : Move env Gd s { s with curParams := s.curParams + 1 }
  | exec {s} : ((getLabel s s.lastLabel).addParams (s.curParams + 1)).1 = true →
      Move env Gd s ((setLabel s s.lastLabel ((getLabel s s.lastLabel).addParams (s.curParams + 1)).2).emit
        (.wordStr (labelPrefix ++ s.lastLabel)))
  | procCheck {s} : ((getLabel s s.lastLabel).addParams s.curParams).1 = true →
      Move env Gd s (setLabel s s.lastLabel ((getLabel s s.lastLabel).addParams s.curParams).2.define)
  | labelType {s c cs n t} : s.code = c :: cs → c.k.getStr = some n → labelTypeOf n = some t →
      Move env Gd s (setLabel (s.setCode cs) s.lastLabel { getLabel s s.lastLabel with type := t })
  | segment {s} (seg : Str) : Move env Gd s (setLabel s s.lastLabel { getLabel s s.lastLabel with segment := seg })

/-- Zero or more moves. -/
abbrev Moves (env : Env) (Gd : DCode → Prop) : PS → PS → Prop := Relation.ReflTransGen (Move env Gd)

section
variable {env : Env} {Gd : DCode → Prop}

theorem Moves.same {s s' : PS} (h : Same s s') : Moves env Gd s s' := .single (.same h)

theorem Moves.one {s s1 s2 s' : PS} (h1 : Same s s1) (h : Move env Gd s1 s2) (h2 : Same s2 s') : Moves env Gd s s' :=
  ((Moves.same h1).tail h).tail (.same h2)

theorem up_identC {c : Nat} (h : PS.identStartC c = true) : PS.identC (PS.up c) = true ∧ PS.identStartC (PS.up c) = true := by
  unfold PS.identStartC at h
  simp only [Bool.or_eq_true, Bool.and_eq_true, decide_eq_true_eq, beq_iff_eq] at h
  unfold PS.up PS.identC PS.identStartC
  split <;> (simp only [Bool.or_eq_true, Bool.and_eq_true, decide_eq_true_eq, beq_iff_eq]; omega)

theorem identLoop_identC (t : Str) : ∀ c ∈ (PS.identLoop t).1, PS.identC c = true := by
  induction t with
  | nil => simp [PS.identLoop]
  | cons c t ih =>
    simp only [PS.identLoop]
    split
    · next h =>
      intro x hx
      simp only [List.mem_cons] at hx
      rcases hx with rfl | hx
      · exact h
      · exact ih x hx
    · split <;> simp

theorem getIdent_ident {s : PS} {n : Str} (h : s.getIdent.1 = some n) : Ident n := by
  unfold PS.getIdent at h
  dsimp only at h
  split at h
  · next h1 =>
    split at h
    · cases h
      refine ⟨?_, identLoop_identC _⟩
      have : s.skipws.cur = (s.skipws.str.drop s.skipws.pos).head? := by simp [PS.cur]
      rw [this] at h1
      cases hd : s.skipws.str.drop s.skipws.pos with
      | nil => rw [hd] at h1; simp at h1
      | cons c t =>
        rw [hd] at h1
        have h2 := up_identC (c := c) (by simpa using h1)
        simp only [PS.identLoop, if_pos h2.1]
        exact ⟨_, _, rfl, h2.2⟩
    · cases h
  · cases h

theorem getIdent_same (s : PS) : Same s s.getIdent.2 := by constructor <;> simp

theorem getAsmWord_moves (s : PS) : Moves env Gd s (getAsmWord s).2 := by
  unfold getAsmWord
  dsimp only
  split
  · split
    · next name hn =>
      refine Moves.one (s1 := ((s.expect 64).2.getIdent.2.addText (64 :: name)).addSVar (64 :: name))
        (by constructor <;> simp) (.plain (.wordStr name (getIdent_ident hn))) (by constructor <;> simp)
    · exact Moves.same (by constructor <;> simp)
  · exact Moves.same (by constructor <;> simp)

theorem getAsmByte_moves (s : PS) : Moves env Gd s (getAsmByte s).2 := by
  unfold getAsmByte
  dsimp only
  split
  · split
    · split
      · next name hn =>
        refine Moves.one (s1 := (((s.expect 64).2.expect 64).2.getIdent.2.addText (64 :: 64 :: name)).addSVar
          (64 :: 64 :: name)) (by constructor <;> simp) (.plain (.byteStr name (getIdent_ident hn)))
          (by constructor <;> simp)
      · exact Moves.same (by constructor <;> simp)
    · exact Moves.same (by constructor <;> simp)
  · exact Moves.same (by constructor <;> simp)

theorem Same.curProc {a b : PS} (h : Same a b) : b.curProc = a.curProc := by
  unfold PS.curProc; rw [h.procStack]

theorem Same.code {a b : PS} (h : Same a b) : b.code = a.code := code_congr h.procStack h.procs

theorem Same.setCode {a b : PS} (h : Same a b) (c : List CW) : Same (a.setCode c) (b.setCode c) := by
  constructor <;> simp [PS.setCode, h.str, h.linenum, h.varStk, h.procs, h.procStack, h.vars, h.labels, h.jumps,
    h.labelNum, h.lastLabel, h.curParams, h.lastVar, h.curProc]

theorem Same.emit {a b : PS} (h : Same a b) (k : CK) : Same (a.emit k) (b.emit k) := by
  unfold PS.emit
  rw [h.code, h.linenum]
  exact h.setCode _

theorem Same.getLabel {a b : PS} (h : Same a b) (n : Str) : getLabel b n = getLabel a n := by
  unfold Parse.getLabel; rw [h.labels]

theorem Same.setLabel {a b : PS} (h : Same a b) (n : Str) (l : LabelT) : Same (setLabel a n l) (setLabel b n l) := by
  constructor <;> simp [Parse.setLabel, h.str, h.linenum, h.varStk, h.procs, h.procStack, h.vars, h.labels, h.jumps,
    h.labelNum, h.lastLabel, h.curParams, h.lastVar]

theorem Same.popJ {a b : PS} (h : Same a b) (js : List Jump) : Same (popJ a js) (popJ b js) := by
  constructor <;> simp [Parse.popJ, h.str, h.linenum, h.varStk, h.procs, h.procStack, h.vars, h.labels, h.jumps,
    h.labelNum, h.lastLabel, h.curParams, h.lastVar]

theorem Same.pushLoop {a b : PS} (h : Same a b) (t : LT) : Same (a.pushLoop t).2 (b.pushLoop t).2 := by
  unfold PS.pushLoop
  dsimp only
  split <;> (constructor <;> simp only [h.str, h.linenum, h.varStk, h.procs, h.procStack, h.vars, h.labels, h.jumps,
    h.labelNum, h.lastLabel, h.curParams, h.lastVar])

theorem popLoop_cases (s : PS) (t : LT) :
    ((s.popLoop t).1 = none ∧ Same s (s.popLoop t).2) ∨
    ∃ j js, s.jumps = j :: js ∧ (j.type = t ∨ t = .ELSE ∧ j.type = .IF) ∧ (s.popLoop t).1 = some j.label ∧
      Same (popJ s js) (s.popLoop t).2 := by
  unfold PS.popLoop
  split
  · exact .inl ⟨rfl, by constructor <;> simp [PS.popLoopErr]⟩
  · next j js hj =>
    split
    · exact .inl ⟨rfl, by constructor <;> simp [PS.popLoopErr]⟩
    · next h =>
      refine .inr ⟨j, js, hj, ?_, rfl, ?_⟩
      · by_cases h1 : j.type = t
        · exact .inl h1
        · refine .inr ⟨?_, ?_⟩
          · exact Decidable.byContradiction fun h2 => h ⟨h1, .inl h2⟩
          · exact Decidable.byContradiction fun h2 => h ⟨h1, .inr h2⟩
      · unfold popJ; split <;> (constructor <;> rfl)

theorem getNumber_same (s : PS) : Same s (getNumber s).2 := by constructor <;> simp

theorem hexLoop_byte (n : Nat) : ∀ (s : PS) (a b : Str), (∀ c ∈ a, c < 256) → (hexLoop n s a).1 = some b → ∀ c ∈ b, c < 256 := by
  induction n with
  | zero => intro s a b _ h; simp [hexLoop] at h
  | succ n ih =>
    intro s a b ha h
    unfold hexLoop at h
    dsimp only at h
    split at h
    · cases h
    · next hc =>
      have : ∀ c ∈ a ++ [(getHex s).1], c < 256 := by
        intro c hcm
        simp only [List.mem_append, List.mem_singleton] at hcm
        rcases hcm with hcm | rfl
        · exact ha c hcm
        · omega
      split at h
      · exact ih _ _ _ this h
      · cases h; exact this

theorem constLoop_byte (n : Nat) : ∀ (s : PS) (a b : Str), (∀ c ∈ s.str, c < 256) → (∀ c ∈ a, c < 256) →
    (constLoop n s a).1 = some b → ∀ c ∈ b, c < 256 := by
  induction n with
  | zero => intro s a b _ _ h; simp [constLoop] at h
  | succ n ih =>
    intro s a b hs ha h
    unfold constLoop at h
    split at h
    · cases h
    · next c hc =>
      have hcm : c < 256 := hs c (List.mem_of_getElem? hc)
      dsimp only at h
      split at h
      · split at h
        · refine ih _ _ _ (by simpa using hs) ?_ h
          intro x hx
          simp only [List.mem_append, List.mem_singleton] at hx
          rcases hx with hx | rfl
          · exact ha x hx
          · omega
        · split at h
          · split at h
            · cases h
            · next str' hstr =>
              have := hexLoop_byte _ _ _ _ ha hstr
              split at h
              · refine ih _ _ _ (by simpa using hs) this h
              · cases h; exact this
          · cases h; exact ha
      · refine ih _ _ _ (by simpa using hs) ?_ h
        intro x hx
        simp only [List.mem_append, List.mem_singleton] at hx
        rcases hx with hx | rfl
        · exact ha x hx
        · exact hcm

theorem getConstString_byte {s : PS} {b : Str} (h : (getConstString s).1 = some b) (hs : ∀ c ∈ s.str, c < 256) :
    ∀ c ∈ b, c < 256 := by
  unfold getConstString at h
  dsimp only at h
  split at h
  · next str' hstr =>
    cases h
    exact constLoop_byte _ _ _ _ hs (by simp) hstr
  · cases h

theorem removeStr_move {s s' : PS} {n : Str} (h : removeStr s = .ok (n, s')) : Move env Gd s s' := by
  obtain ⟨c, cs, hc, rfl, -⟩ := removeStr_code h
  exact .drop hc

theorem removeLT_move {s s' : PS} {t : LT} (h : removeLT s = .ok (t, s')) : Move env Gd s s' := by
  obtain ⟨c, cs, n, hc, rfl, -⟩ := removeLT_code h
  exact .drop hc

theorem popElifs_moves (n : Nat) : ∀ s : PS, Moves env Gd s (popElifs n s) := by
  induction n with
  | zero => intro s; exact .refl
  | succ n ih =>
    intro s
    unfold popElifs
    split
    · dsimp only
      rcases popLoop_cases s .ELIF with ⟨h1, h2⟩ | ⟨j, js, hj, ht, h1, h2⟩
      · next hp =>
        exfalso
        unfold PS.peekLoop at hp
        unfold PS.popLoop at h1
        cases hjs : s.jumps with
        | nil => rw [hjs] at hp; simp at hp
        | cons j js =>
          rw [hjs] at hp h1
          simp at hp
          simp [hp] at h1
      · rw [h1]
        refine Relation.ReflTransGen.trans ?_ (ih _)
        refine Moves.one (.refl s) (.closeIf hj ?_) (h2.emit _)
        rcases ht with ht | ⟨ht, -⟩
        · exact .inr (.inr ht)
        · cases ht
    · exact .refl

theorem emitData_moves (l : List Nat) (f : Str) (d : List Nat) (hd : env.file f = some d) :
    ∀ s : PS, (∀ c ∈ l, c ∈ d) → Moves env Gd s (emitData l s) := by
  induction l with
  | nil => intro s _; exact .refl
  | cons c l ih =>
    intro s h
    unfold emitData
    refine .head (.plain (.byte c (.inr ⟨f, d, hd, h c (by simp)⟩))) (ih _ fun x hx => h x (by simp [hx]))

theorem varCheck_moves (t : VT) (s : PS) : (varCheck t s).All (Moves env Gd s) := by
  unfold varCheck
  dsimp only
  split
  · exact Moves.same (by constructor <;> simp)
  · next name hn =>
    split
    · exact Moves.same (by constructor <;> simp)
    · next v hv =>
      split
      · exact Moves.same (by constructor <;> simp)
      · have hs : Same s ((s.getIdent.2.addText name).addSVar name) := by constructor <;> simp
        have hv' : lookup name ((s.getIdent.2.addText name).addSVar name).vars = some v := by simpa using hv
        refine (Moves.same hs).tail ?_
        unfold emitVarn
        rw [hv']
        exact .plain (.varn name v hv' (getIdent_ident hn))

theorem parseFpExp_moves (s : PS) : Moves env Gd s (parseFpExp s).2 := by
  have hr : ∀ x : PS, Same s x → Moves env Gd s (x.restore s.save) := fun x h =>
    Moves.one h (.restore s.code.length) (by constructor <;> simp [PS.restore, PS.save])
  unfold parseFpExp
  dsimp only
  split
  · split
    · exact hr _ (by split <;> (constructor <;> simp))
    · split
      · exact Moves.same (by split <;> (constructor <;> simp))
      · exact Moves.same (by split <;> (constructor <;> simp))
  · exact hr _ (by constructor <;> simp)

theorem fpTail_moves (x : PS) {b : Bool} {d : Str} {e : Int} {bt : List Nat × Str} (h : env.fp b d e = some bt) :
    Moves env Gd x (((x.addText bt.2).addSFp bt.2).emit (.fp bt.1)).skipws :=
  Moves.one (s1 := (x.addText bt.2).addSFp bt.2) (by constructor <;> simp) (.plain (.fp _ _ _ bt h))
    (by constructor <;> simp)

/-- Every action is a sequence of moves. -/
theorem action_moves (a : Act) (s : PS) : (action env a s).All (Moves env Gd s) := by
  cases a <;> simp only [action]
  case CONST_STRING =>
    unfold eConstString
    dsimp only
    split
    · next str hstr =>
      have hs : Same s (getConstString s).2 := by constructor <;> simp
      refine (Moves.same hs).tail (.plain (.str str fun h => getConstString_byte hstr ?_))
      rw [← hs.str]; exact h
    · exact Moves.same (by constructor <;> simp)
  case COUNT_PARAM => exact .single .count
  case DATA_FILE =>
    unfold eDataFile
    dsimp only
    split
    · exact Moves.same (by constructor <;> simp)
    · split
      · trivial
      · next data hd =>
        refine Relation.ReflTransGen.trans (Moves.same ?_) (emitData_moves _ _ _ hd _ fun c hc => List.mem_of_mem_take hc)
        constructor <;> simp
  case DO_EXEC =>
    unfold eDoExec
    dsimp only
    split
    · next h => exact .single (.exec h)
    · trivial
  case ELSEIF =>
    unfold eElseIf
    dsimp only
    rcases popLoop_cases s .IF with ⟨h1, h2⟩ | ⟨j, js, hj, ht, h1, h2⟩
    · rw [h1]; exact Moves.same h2
    · rw [h1]
      dsimp only
      split
      · trivial
      · next t s' hr =>
        obtain ⟨c, cs, n, hc, rfl, hn, hl⟩ := removeLT_code hr
        have ht' : j.type = .IF := by rcases ht with ht | ⟨ht, -⟩; exact ht; cases ht
        have hc' : s.code = c :: cs := by rw [← hc, h2.code]; rfl
        refine Moves.one (.refl s) (.elseIf hj ht' hc' hn hl) ?_
        have h3 := h2.setCode cs
        have h4 : Same (((popJ s js).setCode cs).pushLoop t).2 (((s.popLoop .IF).2.setCode cs).pushLoop t).2 := by
          exact h3.pushLoop t
        have h5 : (((s.popLoop .IF).2.setCode cs).pushLoop t).1 = (((popJ s js).setCode cs).pushLoop t).1 := by
          unfold PS.pushLoop; dsimp only; rw [h3.labelNum]
        rw [h5]
        exact (h4.emit _).emit _
  case EOL =>
    refine Res.All.mono (P := Same s) ?_ fun _ h => Moves.same h
    unfold eEol eRem; dsimp only; (repeat' split) <;> (constructor <;> simp)
  case EXIT_LOOP =>
    unfold eExitLoop
    split
    · exact Moves.same (by constructor <;> simp)
    · exact Moves.same (by constructor <;> simp)
    · next j hj => exact .single (.exit hj)
  case LABEL =>
    unfold eLabel
    split
    · trivial
    · next n s1 hr =>
      split
      · trivial
      · next lt hlt =>
        dsimp only
        have hd : Moves env Gd s s1.getIdent.2 := .tail (.single (removeStr_move hr)) (.same (getIdent_same s1))
        split
        · exact hd
        · next name hn =>
          split
          · exact hd
          · next l hl =>
            split
            · exact hd
            · next htl =>
              refine (hd.tail (.same (s' := (s1.getIdent.2.addText name).addSVar name) (by constructor <;> simp))).tail
                (.plain (.ref name l (by simpa using hl) ?_ (getIdent_ident hn)))
              have : l.type = lt := Decidable.byContradiction htl
              rw [this]
              unfold labelTypeOf at hlt
              split at hlt
              · cases hlt; exact .inl rfl
              · split at hlt
                · cases hlt; exact .inr rfl
                · cases hlt
  case LABEL_CREATE =>
    unfold eLabelCreate
    dsimp only
    have hs := getIdent_same s
    split
    · exact Moves.same hs
    · next name hn =>
      have hi := getIdent_ident hn
      split
      · refine Moves.one hs (.touchLabel name (.inl hi)) ?_
        constructor <;> simp
      · next hp =>
        refine Moves.one hs (.makeLabel (name := name) (by simpa using hp) hi) ?_
        constructor <;> simp
  case LABEL_DEF =>
    unfold eLabelDef
    dsimp only
    split
    · trivial
    · next c s1 hr =>
      obtain ⟨cs, hc, rfl⟩ := removeLast_code hr
      have hc' : s.code = c :: cs := by rw [← hc]; exact code_congr (by simp) (by simp)
      split
      · refine .tail (.tail (.single (.openProc hc')) (.touchLabel _ (.inr rfl))) (.same ?_)
        constructor <;> simp
      · next hd =>
        have hg : getLabel (((s.pushLoop .PROC_DATA).2.setCode cs).pushProc (s.pushLoop .PROC_DATA).1)
            (((s.pushLoop .PROC_DATA).2.setCode cs).pushProc (s.pushLoop .PROC_DATA).1).lastLabel =
            getLabel s s.lastLabel := by
          unfold getLabel; simp
        rw [hg] at hd ⊢
        have hl : (((s.pushLoop .PROC_DATA).2.setCode cs).pushProc (s.pushLoop .PROC_DATA).1).lastLabel = s.lastLabel := by
          simp
        have hm := Move.labelDef (env := env) (Gd := Gd) hc' (by simpa using hd)
        refine .single ?_
        simpa [hl] using hm
  case LABEL_SET_TYPE =>
    unfold eLabelSetType
    split
    · trivial
    · next n s1 hr =>
      split
      · trivial
      · next t ht =>
        obtain ⟨c, cs, hc, rfl, hn⟩ := removeStr_code hr
        refine Moves.one (s1 := s.skipws) (by constructor <;> simp) (.labelType hc hn ht) ?_
        constructor <;> simp [getLabel]
  case DATA_SET_ROM_SEG =>
    unfold eDataSetRomSeg
    exact Moves.one (s1 := s.skipws) (by constructor <;> simp) (.segment _) (.refl _)
  case DATA_SET_SEGMENT =>
    unfold eDataSetSegment
    dsimp only
    split
    · exact Moves.one (s1 := s.skipws.getIdent.2) (by constructor <;> simp) (.segment _) (.refl _)
    · exact Moves.same (by constructor <;> simp)
  case NUMBER_BYTE =>
    unfold eNumberByte
    dsimp only
    have h0 : Moves env Gd s (getAsmByte s.skipws).2 :=
      .trans (Moves.same (by constructor <;> simp)) (getAsmByte_moves s.skipws)
    split
    · exact h0
    · split
      · exact h0.tail (.same (getNumber_same _))
      · next h =>
        refine ((h0.tail (.same (getNumber_same _))).tail (.plain (.byte _ (.inl (Nat.lt_succ_of_le (Nat.le_of_not_gt h)))))).tail (.same ?_)
        constructor <;> simp
  case NUMBER_FP =>
    unfold eNumberFp
    dsimp only
    split
    · exact Moves.same (by constructor <;> simp)
    · refine Res.All.mono (P := Moves env Gd (parseFpExp { (s.skipws.expect 45).2 with
        pos := (s.skipws.expect 45).2.pos +
          (fpDigits ((s.skipws.expect 45).2.str.drop (s.skipws.expect 45).2.pos)).length }).2) ?_ fun s2 h2 =>
        .trans (.trans (Moves.same (by constructor <;> simp)) (parseFpExp_moves _)) h2
      split
      · exact .refl
      · next bt hbt =>
        exact fpTail_moves _ hbt
  case NUMBER_WORD =>
    unfold eNumberWord
    dsimp only
    have h0 : Moves env Gd s (getAsmWord s.skipws).2 :=
      .trans (Moves.same (by constructor <;> simp)) (getAsmWord_moves s.skipws)
    split
    · exact h0
    · split
      · exact h0.tail (.same (getNumber_same _))
      · next h =>
        refine ((h0.tail (.same (getNumber_same _))).tail (.plain (.word _ (Nat.lt_succ_of_le (Nat.le_of_not_gt h))))).tail (.same ?_)
        constructor <;> simp
  case POP_FOR =>
    unfold ePopFor
    dsimp only
    rcases popLoop_cases s .FOR_1 with ⟨h1, h2⟩ | ⟨j, js, hj, ht, h1, h2⟩
    · rw [h1]
      rcases popLoop_cases (s.popLoop .FOR_1).2 .FOR_2 with ⟨h3, h4⟩ | ⟨j', js', hj', ht', h3, h4⟩
      · rw [h3]; exact Moves.same (h2.trans h4)
      · rw [h3]
        refine Moves.one h2 (.dropJump hj' ?_) h4
        rcases ht' with ht' | ⟨ht', -⟩
        · rw [ht']; decide
        · cases ht'
    · have htj : j.type = .FOR_1 := by rcases ht with ht | ⟨ht, -⟩; exact ht; cases ht
      rcases popLoop_cases (s.popLoop .FOR_1).2 .FOR_2 with ⟨h3, h4⟩ | ⟨j', js', hj', ht', h3, h4⟩
      · rw [h3]
        exact Moves.one (.refl s) (.dropJump hj (by rw [htj]; decide)) (h2.trans h4)
      · rw [h3, h1]
        dsimp only
        split
        · trivial
        · next c s1 hr =>
          obtain ⟨cs, hc, rfl⟩ := removeLast_code hr
          have htj' : j'.type = .FOR_2 := by rcases ht' with ht' | ⟨ht', -⟩; exact ht'; cases ht'
          have hjs : js = j' :: js' := by rw [← hj', h2.jumps]; rfl
          have h5 : Same (popJ s js') ((s.popLoop .FOR_1).2.popLoop .FOR_2).2 := by
            refine Same.trans ?_ h4
            have := h2.popJ js'
            exact this
          have hc' : s.code = c :: cs := by rw [← hc, h5.code]; rfl
          refine Moves.one (.refl s) (.closeFor (hjs ▸ hj) htj' htj hc') ?_
          exact (((h5.setCode cs).emit _).emit _).emit _
  case POP_IF =>
    unfold ePopIf
    dsimp only
    rcases popLoop_cases s .ELSE with ⟨h1, h2⟩ | ⟨j, js, hj, ht, h1, h2⟩
    · rw [h1]; exact Moves.same h2
    · rw [h1]
      dsimp only
      refine .trans (Moves.one (.refl s) (.closeIf hj ?_) (h2.emit _)) (popElifs_moves _ _)
      rcases ht with ht | ⟨-, ht⟩
      · exact .inl ht
      · exact .inr (.inl ht)
  case POP_LOOP =>
    unfold ePopLoop
    dsimp only
    rcases popLoop_cases s .DO_LOOP with ⟨h1, h2⟩ | ⟨j, js, hj, ht, h1, h2⟩
    · rw [h1]; exact Moves.same (h2.trans (by constructor <;> simp))
    · rw [h1]
      dsimp only
      refine Moves.one (.refl s) (.closeLoop hj ?_) ((h2.emit _).emit _)
      rcases ht with ht | ⟨ht, -⟩
      · exact .inl ht
      · cases ht
  case POP_PROC_2 =>
    unfold ePopProc2
    dsimp only
    rcases popLoop_cases s .PROC_2 with ⟨h1, h2⟩ | ⟨j, js, hj, ht, h1, h2⟩
    · rw [h1]; exact Moves.same h2
    · rw [h1]
      dsimp only
      refine Moves.one (.refl s) (.closeProc2 hj ?_) (h2.emit _)
      rcases ht with ht | ⟨ht, -⟩
      · exact ht
      · cases ht
  case POP_PROC_DATA =>
    unfold ePopProcData
    dsimp only
    rcases popLoop_cases s .PROC_DATA with ⟨h1, h2⟩ | ⟨j, js, hj, ht, h1, h2⟩
    · rw [h1]; exact Moves.same h2
    · rw [h1]
      dsimp only
      have htj : j.type = .PROC_DATA := by rcases ht with ht | ⟨ht, -⟩; exact ht; cases ht
      unfold PS.popProc
      cases hp : (s.popLoop .PROC_DATA).2.procStack with
      | nil => trivial
      | cons p ps =>
        dsimp only
        by_cases hpl : p = j.label
        · rw [if_pos hpl]
          have hp' : s.procStack = j.label :: ps := by
            have := h2.procStack
            rw [hp, hpl] at this
            exact this.symm
          refine Moves.one (.refl s) (.closeProcData hj htj hp') ?_
          exact ⟨h2.str, h2.linenum, h2.varStk, h2.procs, rfl, h2.vars, h2.labels, h2.jumps, h2.labelNum, h2.lastLabel,
            h2.curParams, h2.lastVar⟩
        · rw [if_neg hpl]; trivial
  case POP_REPEAT =>
    unfold ePopRepeat
    dsimp only
    rcases popLoop_cases s .REPEAT with ⟨h1, h2⟩ | ⟨j, js, hj, ht, h1, h2⟩
    · rw [h1]; exact Moves.same h2
    · rw [h1]
      dsimp only
      refine Moves.one (.refl s) (.closeLoop hj ?_) ((h2.emit _).emit _)
      rcases ht with ht | ⟨ht, -⟩
      · exact .inr ht
      · cases ht
  case POP_VAR =>
    unfold ePopVar
    split
    · trivial
    · next c cs hc => exact .single (.popVar hc)
  case POP_WHILE =>
    unfold ePopWhile
    dsimp only
    rcases popLoop_cases s .WHILE_2 with ⟨h1, h2⟩ | ⟨j, js, hj, ht, h1, h2⟩
    · rw [h1]
      dsimp only
      rcases popLoop_cases (s.popLoop .WHILE_2).2 .WHILE_1 with ⟨h3, h4⟩ | ⟨j', js', hj', ht', h3, h4⟩
      · exact Moves.same (h2.trans h4)
      · refine Moves.one h2 (.dropJump hj' ?_) h4
        rcases ht' with ht' | ⟨ht', -⟩
        · rw [ht']; decide
        · cases ht'
    · have htj : j.type = .WHILE_2 := by rcases ht with ht | ⟨ht, -⟩; exact ht; cases ht
      rcases popLoop_cases (s.popLoop .WHILE_2).2 .WHILE_1 with ⟨h3, h4⟩ | ⟨j', js', hj', ht', h3, h4⟩
      · rw [h3, h1]
        exact Moves.one (.refl s) (.dropJump hj (by rw [htj]; decide)) (h2.trans h4)
      · rw [h3, h1]
        dsimp only
        have htj' : j'.type = .WHILE_1 := by rcases ht' with ht' | ⟨ht', -⟩; exact ht'; cases ht'
        have hjs : js = j' :: js' := by rw [← hj', h2.jumps]; rfl
        have h5 : Same (popJ s js') ((s.popLoop .WHILE_2).2.popLoop .WHILE_1).2 := by
          refine Same.trans ?_ h4
          have := h2.popJ js'
          exact this
        refine Moves.one (.refl s) (.closeWhile (hjs ▸ hj) htj htj') ?_
        exact ((h5.emit _).emit _).emit _
  case PROC_CHECK =>
    unfold eProcCheck
    dsimp only
    split
    · next h => exact .single (.procCheck h)
    · trivial
  case PUSH_LT =>
    unfold ePushLT
    split
    · trivial
    · next t s1 hr =>
      have hd : Move env Gd s s1 := removeLT_move hr
      dsimp only
      cases t <;> dsimp only
      case PROC_DATA =>
        split
        · trivial
        · next c s2 hr2 =>
          obtain ⟨cs, hc, rfl⟩ := removeLast_code hr2
          have hc' : s1.code = c :: cs := by rw [← hc]; exact code_congr (by simp) (by simp)
          exact .tail (.single hd) (.openProc hc')
      case DO_LOOP => exact .tail (.single hd) (.openLabel (by decide))
      case REPEAT => exact .tail (.single hd) (.openLabel (by decide))
      case WHILE_1 => exact .tail (.single hd) (.openLabel (by decide))
      case FOR_1 => exact .tail (.single hd) (.openLabel (by decide))
      case WHILE_2 => exact .tail (.single hd) (.openRef (by decide))
      case FOR_2 => exact .tail (.single hd) (.openRef (by decide))
      case IF => exact .tail (.single hd) (.openRef (by decide))
      all_goals exact .tail (.single hd) (.openPlain (by decide))
  case PUSH_VAR =>
    unfold ePushVar
    split
    · trivial
    · next c s1 hr =>
      obtain ⟨cs, hc, rfl⟩ := removeLast_code hr
      exact .single (.pushVar hc)
  case REM =>
    unfold eRem
    exact Moves.same (by constructor <;> simp)
  case VAR_CREATE =>
    unfold eVarCreate
    dsimp only
    have hs := getIdent_same s
    split
    · exact Moves.same hs
    · next name hn =>
      split
      · exact Moves.same hs
      · next hv =>
        refine Moves.one hs (.newVar hv (getIdent_ident hn)) ?_
        unfold emitVarn
        simp only [lookup_assign_self, Option.getD_some, Nat.mul_div_cancel_left _ (by decide : 0 < 256)]
        constructor <;> simp [PS.emit, PS.setCode, PS.code, PS.curProc]
  case VAR_SEARCH =>
    unfold eVarSearch
    split
    · trivial
    · next n s1 hr =>
      exact (varCheck_moves _ s1).mono fun s2 h => .trans (.single (removeStr_move hr)) h
  case VAR_SET_TYPE =>
    unfold eVarSetType
    split
    · trivial
    · next n s1 hr =>
      obtain ⟨c, cs, hc, rfl, hn⟩ := removeStr_code hr
      have : Moves env Gd s { (s.skipws.setCode cs) with
          vars := setType s.skipws.lastVar (getVarType n) s.skipws.vars } :=
        Moves.one (s1 := s.skipws) (by constructor <;> simp) (.setType hc hn) (.refl _)
      dsimp only
      split <;> simpa using this
  case VAR_WORD => exact varCheck_moves _ s

/-- The items that a grammar emits satisfy `Gd`. -/
def Emits (Gd : DCode → Prop) (G : Grammar) : Prop :=
  ∀ t tab, G t = some tab → ∀ l ∈ tab.lines, ∀ c ∈ l, ∀ ds, c = .emit ds ∨ c = .emitRet ds → ∀ d ∈ ds, Gd d

theorem emitBytes_moves (ds : List DCode) : ∀ s : PS, (∀ d ∈ ds, Gd d) → Moves env Gd s (emitBytes ds s) := by
  induction ds with
  | nil => intro s _; exact .refl
  | cons d ds ih =>
    intro s h
    exact .head (.gram (h d (by simp))) (ih _ fun x hx => h x (by simp [hx]))

theorem parseLine_moves {tab : Nat → PS → Res} (htab : ∀ t s, (tab t s).All (Moves env Gd s)) (l : List PCode)
    (hl : ∀ c ∈ l, ∀ ds, c = .emit ds ∨ c = .emitRet ds → ∀ d ∈ ds, Gd d) (s : PS) :
    (parseLine (action env) tab l s).All (Moves env Gd s) := by
  induction l generalizing s with
  | nil => exact .refl
  | cons c cs ih =>
    have hcs := fun x hx => hl x (List.mem_cons_of_mem c hx)
    have step : ∀ {r : Res}, r.All (Moves env Gd s) →
        (r.andThen (parseLine (action env) tab cs)).All (Moves env Gd s) := fun h =>
      h.andThen (fun s1 h1 => (ih hcs s1).mono fun s2 h2 => .trans h1 h2) (fun _ h => h)
    cases c with
    | lit l =>
      refine step ?_
      unfold parseLiteral
      dsimp only
      split
      · exact Moves.same (by constructor <;> simp)
      · exact Moves.same (by constructor <;> simp)
    | emit d =>
      exact (ih hcs (emitBytes d s)).mono fun s2 h2 =>
        .trans (emitBytes_moves d s (hl (.emit d) (by simp) d (.inl rfl))) h2
    | emitRet d => exact emitBytes_moves d s (hl (.emitRet d) (by simp) d (.inr rfl))
    | call t => exact step (htab t s)
    | ext a => exact step (action_moves a s)
    | ret => exact .refl

theorem parseLines_moves {tab : Nat → PS → Res} (htab : ∀ t s, (tab t s).All (Moves env Gd s)) (sp : PS.Saved)
    (ls : List (List PCode)) (hl : ∀ l ∈ ls, ∀ c ∈ l, ∀ ds, c = .emit ds ∨ c = .emitRet ds → ∀ d ∈ ds, Gd d) (s : PS) :
    (parseLines (action env) tab sp ls s).All (Moves env Gd s) := by
  induction ls generalizing s with
  | nil => exact Moves.same (by constructor <;> simp)
  | cons l ls ih =>
    have h := parseLine_moves (env := env) htab l (hl l (by simp)) s
    unfold parseLines
    split
    · next s1 heq => rw [heq] at h; exact h.tail (.same (by constructor <;> simp))
    · next s1 heq =>
      rw [heq] at h
      refine (ih (fun l' h' => hl l' (by simp [h'])) _).mono fun s2 h2 => .trans (.trans h ?_) h2
      exact Moves.one (.refl _) (.restore sp.opos) (by constructor <;> simp [PS.restore])
    · trivial

/-- Parsing a table is a sequence of moves, for any grammar. -/
theorem parseTable_moves {G : Grammar} (hG : Emits Gd G) (n t : Nat) (s : PS) :
    (parseTable (action env) G n t s).All (Moves env Gd s) := by
  induction n generalizing t s with
  | zero => trivial
  | succ n ih =>
    unfold parseTable
    split
    · trivial
    · next tab htab =>
      split
      · trivial
      · exact (parseLines_moves (fun t s => ih t s) _ _ (hG _ _ htab) _).mono fun s2 h2 =>
          .trans (Moves.same (by constructor <;> simp [enterTable])) h2

/-- Moves of a file: those of the lines and the start of a line. -/
inductive FMove (env : Env) (Gd : DCode → Prop) (src : Str) : PS → PS → Prop
  | move {s s'} : Move env Gd s s' → FMove env Gd src s s'
  | line {s} (l : Str) (ln : Nat) : (∀ c ∈ l, c ∈ src) → FMove env Gd src s (s.newLine l ln)

/-- Zero or more moves of a file. -/
abbrev FMoves (env : Env) (Gd : DCode → Prop) (src : Str) : PS → PS → Prop :=
  Relation.ReflTransGen (FMove env Gd src)

theorem Moves.toF {src : Str} {s s' : PS} (h : Moves env Gd s s') : FMoves env Gd src s s' := by
  induction h with
  | refl => exact .refl
  | tail _ h ih => exact ih.tail (.move h)

theorem readLine_mem (q : RL) (src : Str) :
    (∀ c ∈ (readLine q src).1, c ∈ src) ∧ ∀ c ∈ (readLine q src).2.2, c ∈ src := by
  induction src generalizing q with
  | nil => simp [readLine]
  | cons c cs ih =>
    unfold readLine
    split
    · next hq =>
      dsimp only
      refine ⟨?_, fun x hx => List.mem_cons_of_mem _ ((ih _).2 x hx)⟩
      intro x hx
      simp only [List.mem_cons] at hx ⊢
      exact hx.imp id ((ih _).1 x)
    · split
      · refine ⟨by simp, fun x hx => ?_⟩
        simp [hx]
      · split
        · exact ⟨by simp, fun x hx => by simp [hx]⟩
        · dsimp only
          refine ⟨?_, fun x hx => List.mem_cons_of_mem _ ((ih _).2 x hx)⟩
          intro x hx
          simp only [List.mem_cons] at hx ⊢
          exact hx.imp id ((ih _).1 x)

theorem lineLoop_moves {start : PS → Res} (hst : ∀ s, (start s).All (Moves env Gd s)) (ne : Expand → Expand) (n : Nat) :
    ∀ s s' : PS, lineLoop start ne n s = .ok s' → Moves env Gd s s' := by
  induction n with
  | zero => intro s s' h; simp [lineLoop] at h
  | succ n ih =>
    intro s s' h
    unfold lineLoop at h
    split at h
    · cases h; exact .refl
    · have h0 := hst s
      split at h
      · cases h
      · cases h
      · next s1 heq =>
        rw [heq] at h0
        split at h
        · cases h
        · refine .trans (h0.tail (.same ?_)) (ih _ _ h)
          constructor <;> simp

theorem compileLines_moves {start : PS → Res} (hst : ∀ s, (start s).All (Moves env Gd s)) {all : Str} (n : Nat) :
    ∀ (src : Str) (ln : Nat) (s s' : PS), (∀ c ∈ src, c ∈ all) → compileLines start n src ln s = .ok s' →
      FMoves env Gd all s s' := by
  induction n with
  | zero => intro src ln s s' _ h; simp [compileLines] at h
  | succ n ih =>
    intro src ln s s' hall h
    unfold compileLines at h
    have hm := readLine_mem {} src
    dsimp only at h
    split at h
    · cases h; exact .refl
    · split at h
      · cases h
      · next s1 heq =>
        refine .trans (.head (.line _ ln fun c hc => hall c (hm.1 c hc)) (Moves.toF ?_))
          (ih _ _ _ _ (fun c hc => hall c (hm.2 c hc)) h)
        exact lineLoop_moves hst _ _ _ _ heq

/-- A successful compilation is a sequence of moves that ends with no open loop, and a final `END`. -/
theorem compile_moves {G : Grammar} (hG : Emits Gd G) (start : Nat) (src : Str) (s : PS)
    (h : compile (parseStart (action env) G start) src = .ok s) :
    ∃ s0, FMoves env Gd src initPS s0 ∧ s0.jumps = [] ∧ s = s0.emit (.tok .END) := by
  unfold compile at h
  split at h
  · cases h
  · next s0 h0 =>
    split at h
    · next hl =>
      cases h
      refine ⟨s0, compileLines_moves (fun s => parseTable_moves hG _ _ s) _ _ _ _ _ (fun _ h => h) h0, ?_, rfl⟩
      simpa [loopsOk] using hl
    · cases h

end

end FB.Parse
