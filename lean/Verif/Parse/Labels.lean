import Verif.Parse.Order
import Verif.Parse.Moves
import Verif.Parse.Vars

/-!
# How the labels of procedures and data change

Auxiliary for C28, models nothing by itself: the type of a label (`labelType`, `/repo/src/compiler/vartype.cc:106-160`)
changes only in a few ways, and a static check of the tables shows in which states the procedure actions are called.
-/

namespace FB.Parse

open Frame

/-- The `type` of the label. -/
def labelTy (s : PS) (name : Str) : Nat := (getLabel s name).type

theorem labelTy_eq {s s' : PS} (h : s'.labels = s.labels) (name : Str) : labelTy s' name = labelTy s name := by
  unfold labelTy getLabel; rw [h]

theorem labelTy_set (s : PS) (k name : Str) (l : LabelT) :
    labelTy (setLabel s k l) name = if name = k then l.type else labelTy s name := by
  unfold labelTy getLabel setLabel
  dsimp only
  split
  · next h => subst h; rw [lookup_assign_self]; rfl
  · next h => rw [lookup_assign_ne _ _ h]

/-- What can happen to one label: data stays data, a definition stays, and a number of parameters stays or the label turns
into data. -/
def TyRel (τ τ' : Nat) : Prop :=
  (128 ≤ τ → 128 ≤ τ') ∧ (64 ≤ τ → 64 ≤ τ') ∧ (0 < τ → 0 < τ' ∧ (128 ≤ τ' ∨ τ' % 64 = τ % 64))

theorem TyRel.refl (τ : Nat) : TyRel τ τ := ⟨id, id, fun h => ⟨h, .inr rfl⟩⟩

theorem TyRel.trans {a b c : Nat} (h : TyRel a b) (g : TyRel b c) : TyRel a c := by
  obtain ⟨h1, h2, h3⟩ := h
  obtain ⟨g1, g2, g3⟩ := g
  refine ⟨fun k => g1 (h1 k), fun k => g2 (h2 k), fun k => ?_⟩
  obtain ⟨k1, k2⟩ := h3 k
  obtain ⟨k3, k4⟩ := g3 k1
  refine ⟨k3, ?_⟩
  rcases k4 with k4 | k4
  · exact .inl k4
  · rcases k2 with k2 | k2
    · exact .inl (g1 k2)
    · exact .inr (k4.trans k2)

theorem or64 (τ : Nat) : 64 ≤ τ ||| 64 ∧ (τ ||| 64) % 64 = τ % 64 ∧ τ ≤ τ ||| 64 ∧ (τ < 128 → τ ||| 64 < 128) := by
  refine ⟨Nat.right_le_or, ?_, Nat.left_le_or, fun h => ?_⟩
  · have := Nat.or_mod_two_pow (a := τ) (b := 64) (n := 6)
    simpa using this
  · exact Nat.or_lt_two_pow (n := 7) h (by decide)

/-- All the labels. -/
def LabelRel (s s' : PS) : Prop := ∀ name, TyRel (labelTy s name) (labelTy s' name)

theorem LabelRel.refl (s : PS) : LabelRel s s := fun _ => .refl _

theorem LabelRel.trans {a b c : PS} (h : LabelRel a b) (g : LabelRel b c) : LabelRel a c := fun n => (h n).trans (g n)

theorem LabelRel.of_eq {s s' : PS} (h : s'.labels = s.labels) : LabelRel s s' := fun n => by
  rw [labelTy_eq h]; exact .refl _

theorem LabelRel.set {s s1 s' : PS} {k : Str} {l : LabelT} (h : s'.labels = (setLabel s1 k l).labels) (h1 : s1.labels = s.labels)
    (hk : TyRel (labelTy s k) l.type) : LabelRel s s' := fun n => by
  rw [labelTy_eq h, labelTy_set]
  split
  · next e => subst e; exact hk
  · rw [labelTy_eq h1]; exact .refl _

theorem addParams_rel {l : LabelT} {p : Nat} (h : (l.addParams p).1 = true) :
    TyRel l.type (l.addParams p).2.type ∧ (l.addParams p).2.type % 64 = p ∧
    (l.type < 128 → (l.addParams p).2.type < 128) ∧ (l.type < 64 → (l.addParams p).2.type < 64) ∧
    (0 < p → 0 < (l.addParams p).2.type) := by
  unfold LabelT.addParams at h ⊢
  dsimp only at h ⊢
  split at h
  · next h0 =>
    rw [if_pos h0]
    simp only [beq_iff_eq] at h
    rw [h0]
    have : p < 64 := by rw [← h]; exact Nat.mod_lt _ (by decide)
    exact ⟨⟨by omega, by omega, by omega⟩, h, fun _ => Nat.lt_of_lt_of_le this (by decide), fun _ => this, id⟩
  · next h0 =>
    rw [if_neg h0]
    simp only [beq_iff_eq] at h
    exact ⟨.refl _, h, id, id, by omega⟩

theorem define_rel (l : LabelT) : TyRel l.type l.define.type := by
  obtain ⟨h1, h2, h3, -⟩ := or64 l.type
  unfold LabelT.define
  exact ⟨by dsimp only; omega, by dsimp only; omega, fun _ => ⟨by dsimp only; omega, .inr h2⟩⟩

theorem labelTypeOf_vals {n : Str} {t : Nat} (h : labelTypeOf n = some t) : t = 128 ∨ t = 129 := by
  unfold labelTypeOf at h
  split at h
  · injection h with h; exact .inl h.symm
  · split at h
    · injection h with h; exact .inr h.symm
    · cases h

theorem Move.labelRel {env : Env} {Gd : DCode → Prop} {s s' : PS} (m : Move env Gd s s') : LabelRel s s' := by
  cases m with
  | same h => exact .of_eq h.labels
  | touchLabel name _ => exact .set rfl rfl (.refl _)
  | makeLabel _ _ => exact .set rfl rfl (.refl _)
  | labelDef _ _ =>
    exact .set (s1 := s) (k := s.lastLabel) (l := getLabel s s.lastLabel) (by simp [setLabel]) rfl (.refl _)
  | exec h => exact .set (s1 := s) (by simp) rfl (addParams_rel h).1
  | procCheck h => exact .set rfl rfl ((addParams_rel h).1.trans (define_rel _))
  | labelType _ _ h =>
    refine .set rfl (by simp) ?_
    have := labelTypeOf_vals h
    exact ⟨by dsimp only; omega, by dsimp only; omega, fun _ => ⟨by dsimp only; omega, .inl (by dsimp only; omega)⟩⟩
  | segment seg => exact .set rfl rfl (.refl _)
  | _ => exact .of_eq (by simp)

theorem Moves.labelRel {env : Env} {Gd : DCode → Prop} {s s' : PS} (m : Moves env Gd s s') : LabelRel s s' := by
  induction m with
  | refl => exact .refl _
  | tail _ m ih => exact ih.trans m.labelRel

/-- Everything that the compiler does respects `TyRel`. -/
theorem labelFileRel (env : Env) : FileRel (action env) LabelRel where
  refl := .refl
  trans := LabelRel.trans
  data := fun h => .of_eq h.labels
  act := fun a s => (action_moves (Gd := fun _ => True) a s).mono fun _ m => Moves.labelRel m
  line := fun s l ln => .of_eq (by simp [PS.newLine])

/-! ## Actions that do not touch the types -/

/-- Actions that change the type of a label, or the last label. -/
def labelAct : Act → Bool
  | .LABEL_CREATE | .LABEL_DEF | .LABEL_SET_TYPE | .DO_EXEC | .PROC_CHECK => true
  | _ => false

/-- Same types and last label. -/
def SameTy (s s' : PS) : Prop := s'.lastLabel = s.lastLabel ∧ ∀ name, labelTy s' name = labelTy s name

theorem SameTy.refl (s : PS) : SameTy s s := ⟨rfl, fun _ => rfl⟩

theorem SameTy.trans {a b c : PS} (h : SameTy a b) (g : SameTy b c) : SameTy a c :=
  ⟨g.1.trans h.1, fun n => (g.2 n).trans (h.2 n)⟩

theorem SameTy.of_eq {s s' : PS} (h : s'.labels = s.labels) (hl : s'.lastLabel = s.lastLabel) : SameTy s s' :=
  ⟨hl, fun n => labelTy_eq h n⟩

theorem SameTy.set {s s1 s' : PS} {k : Str} {l : LabelT} (h : s'.labels = (setLabel s1 k l).labels) (h1 : s1.labels = s.labels)
    (hk : l.type = labelTy s k) (hl : s'.lastLabel = s.lastLabel) : SameTy s s' := by
  refine ⟨hl, fun n => ?_⟩
  rw [labelTy_eq h, labelTy_set]
  split
  · next e => subst e; exact hk
  · exact labelTy_eq h1 n

theorem action_sameTy (env : Env) (a : Act) (s : PS) (ha : labelAct a = false) : (action env a s).All (SameTy s) := by
  have key : (a ≠ .DATA_SET_ROM_SEG ∧ a ≠ .DATA_SET_SEGMENT) →
      (action env a s).All (fun s' => s'.labels = s.labels ∧ s'.lastLabel = s.lastLabel) := by
    rintro ⟨d1, d2⟩
    cases a <;> simp only [action]
    case CONST_STRING => simp only [eConstString]; (repeat' split) <;> simp
    case COUNT_PARAM => simp [eCountParam]
    case DATA_FILE => simp only [eDataFile]; (repeat' split) <;> simp
    case DO_EXEC => cases ha
    case ELSEIF =>
      simp only [eElseIf]; (repeat' split) <;> simp
      next h =>
        obtain ⟨c, cs, n, -, rfl, -⟩ := removeLT_code h
        simp
    case EOL => simp only [eEol, eRem]; (repeat' split) <;> simp
    case EXIT_LOOP => simp only [eExitLoop]; (repeat' split) <;> simp
    case LABEL =>
      simp only [eLabel]; (repeat' split) <;> simp
      all_goals
        next h _ _ =>
          obtain ⟨c, cs, -, rfl, -⟩ := removeStr_code ‹_›
          simp
    case LABEL_CREATE => cases ha
    case LABEL_DEF => cases ha
    case LABEL_SET_TYPE => cases ha
    case DATA_SET_ROM_SEG => exact absurd rfl d1
    case DATA_SET_SEGMENT => exact absurd rfl d2
    case NUMBER_BYTE => simp only [eNumberByte]; (repeat' split) <;> simp
    case NUMBER_FP => simp only [eNumberFp]; (repeat' split) <;> simp
    case NUMBER_WORD => simp only [eNumberWord]; (repeat' split) <;> simp
    case POP_FOR =>
      simp only [ePopFor]; (repeat' split) <;> simp
      obtain ⟨cs, -, rfl⟩ := removeLast_code ‹_›
      simp
    case POP_IF => simp only [ePopIf]; (repeat' split) <;> simp
    case POP_LOOP => simp only [ePopLoop]; (repeat' split) <;> simp
    case POP_PROC_2 => simp only [ePopProc2]; (repeat' split) <;> simp
    case POP_PROC_DATA =>
      simp only [ePopProcData, PS.popProc]; (repeat' split) <;> simp_all
      rename_i h
      split at h
      · cases h
      · split at h <;> simp at h; subst h; simp
    case POP_REPEAT => simp only [ePopRepeat]; (repeat' split) <;> simp
    case POP_VAR => simp only [ePopVar]; (repeat' split) <;> simp
    case POP_WHILE => simp only [ePopWhile]; (repeat' split) <;> simp
    case PROC_CHECK => cases ha
    case PUSH_LT =>
      simp only [ePushLT]
      split
      · trivial
      · obtain ⟨c, cs, n, -, rfl, -⟩ := removeLT_code ‹_›
        (repeat' split) <;> simp
        obtain ⟨cs, -, rfl⟩ := removeLast_code ‹_›
        simp
    case PUSH_VAR =>
      simp only [ePushVar]; (repeat' split) <;> simp
      obtain ⟨cs, -, rfl⟩ := removeLast_code ‹_›
      simp
    case REM => simp [eRem]
    case VAR_CREATE => simp only [eVarCreate]; (repeat' split) <;> simp
    case VAR_SEARCH =>
      simp only [eVarSearch, varCheck]; (repeat' split) <;> simp
      all_goals
        obtain ⟨c, cs, -, rfl, -⟩ := removeStr_code ‹_›
        simp
    case VAR_SET_TYPE =>
      simp only [eVarSetType]; (repeat' split) <;> simp
      all_goals
        obtain ⟨c, cs, -, rfl, -⟩ := removeStr_code ‹_›
        simp
    case VAR_WORD => simp only [eVarWord, varCheck]; (repeat' split) <;> simp
  by_cases d1 : a = .DATA_SET_ROM_SEG
  · subst d1
    exact .set (s1 := s.skipws) rfl (by simp) (by unfold labelTy getLabel; simp) (by simp [setLabel])
  · by_cases d2 : a = .DATA_SET_SEGMENT
    · subst d2
      simp only [action, eDataSetSegment]
      split
      · exact .set (s1 := s.skipws.getIdent.2) rfl (by simp) (by unfold labelTy getLabel; simp) (by simp [setLabel])
      · exact .of_eq (by simp) (by simp)
    · exact (key ⟨d1, d2⟩).mono fun s' h => .of_eq h.1 h.2

/-! ## In which states the actions are called -/

/-- What is known of the last label: at least 1: it is not data; at least 2: it is not defined either. -/
def Lev (k : Nat) (s : PS) : Prop :=
  (1 ≤ k → labelTy s s.lastLabel < 128) ∧ (2 ≤ k → labelTy s s.lastLabel < 64)

theorem Lev.zero (s : PS) : Lev 0 s := ⟨by omega, by omega⟩

theorem Lev.le {k j : Nat} {s : PS} (h : Lev k s) (hj : j ≤ k) : Lev j s := ⟨fun g => h.1 (by omega), fun g => h.2 (by omega)⟩

theorem Lev.same {k : Nat} {s s' : PS} (h : Lev k s) (hs : SameTy s s') : Lev k s' := by
  unfold Lev
  rw [hs.1, hs.2]
  exact h

/-- What the action needs. -/
def needLev : Act → Nat
  | .DO_EXEC => 1
  | .PROC_CHECK => 2
  | _ => 0

/-- What is known after the action. -/
def postLev : Act → Nat → Nat
  | .LABEL_CREATE, _ => 1
  | .LABEL_DEF, _ => 2
  | .LABEL_SET_TYPE, _ => 0
  | .DO_EXEC, _ => 1
  | .PROC_CHECK, _ => 1
  | _, k => k

theorem needLev_of_not {a : Act} (h : labelAct a = false) : needLev a = 0 := by cases a <;> first | rfl | cases h

theorem postLev_of_not {a : Act} (h : labelAct a = false) (k : Nat) : postLev a k = k := by cases a <;> first | rfl | cases h

/-- Result of something done from level `k`. -/
def LevRes (k q : Nat) : Res → Prop
  | .ok s => Lev q s
  | .fail s => Lev k s
  | .err _ => True

theorem LevRes.of_same {k : Nat} {s : PS} {r : Res} (h : Lev k s) (hr : r.All (SameTy s)) : LevRes k k r := by
  cases r with
  | ok s' => exact h.same hr
  | fail s' => exact h.same hr
  | err e => trivial

theorem action_lev (env : Env) (a : Act) {k : Nat} {s : PS} (h : Lev k s) (hk : needLev a ≤ k) :
    LevRes k (postLev a k) (action env a s) := by
  cases ha : labelAct a with
  | false => rw [postLev_of_not ha]; exact .of_same h (action_sameTy env a s ha)
  | true =>
    cases a <;> first | exact absurd ha (by decide) | simp only [action]
    case LABEL_CREATE =>
      unfold eLabelCreate
      dsimp only
      split
      · exact h.same (.of_eq (by simp) (by simp))
      · next name _ =>
        split
        · refine h.same (.set (s1 := s.getIdent.2) (k := name) (l := getLabel s.getIdent.2 name) (by simp) (by simp) ?_ (by simp))
          exact labelTy_eq (by simp) name
        · next hp =>
          simp only [Bool.not_eq_true, Bool.not_eq_false'] at hp
          have e : labelTy { ((setLabel s.getIdent.2 name (getLabel s.getIdent.2 name)).addText name |>.addSVar name) with
              lastLabel := name, curParams := 0 } name < 128 := by
            rw [labelTy_eq (s := setLabel s.getIdent.2 name (getLabel s.getIdent.2 name)) (by simp), labelTy_set, if_pos rfl]
            simpa [LabelT.isProc] using hp
          exact ⟨fun _ => e, fun g => absurd (show 2 ≤ 1 from g) (by decide)⟩
    case LABEL_DEF =>
      unfold eLabelDef
      dsimp only
      split
      · trivial
      · next c s1 h1 =>
        obtain ⟨cs, -, rfl⟩ := removeLast_code h1
        split
        · refine h.same (.set (s1 := s) (k := s.lastLabel) (l := getLabel s s.lastLabel) ?_ rfl rfl (by simp))
          simp [getLabel, setLabel]
        · next hd =>
          have e : labelTy s s.lastLabel < 64 := by
            simpa [LabelT.isDefined, labelTy, getLabel] using hd
          constructor
          all_goals
            intro _
            simp only [emit_lastLabel, setLabel_lastLabel, pushProc_lastLabel, setCode_lastLabel, pushLoop_lastLabel]
            rw [labelTy_eq (s := setLabel s s.lastLabel (getLabel s s.lastLabel)) (by simp [getLabel, setLabel]), labelTy_set, if_pos rfl]
            unfold labelTy at e
            omega
    case LABEL_SET_TYPE =>
      unfold eLabelSetType
      split
      · trivial
      · split
        · trivial
        · exact Lev.zero _
    case DO_EXEC =>
      unfold eDoExec
      dsimp only
      split
      · next hp =>
        have h1 := (addParams_rel hp).2.2.1 (h.1 hk)
        refine ⟨fun _ => ?_, fun g => absurd (show 2 ≤ 1 from g) (by decide)⟩
        simp only [emit_lastLabel, setLabel_lastLabel]
        rw [labelTy_eq (s := setLabel s s.lastLabel _) (by simp; rfl), labelTy_set, if_pos rfl]
        exact h1
      · trivial
    case PROC_CHECK =>
      unfold eProcCheck
      dsimp only
      split
      · next hp =>
        have h1 := (addParams_rel hp).2.2.1 (h.1 (Nat.le_trans (by decide) (show 2 ≤ k from hk)))
        refine ⟨fun _ => ?_, fun g => absurd (show 2 ≤ 1 from g) (by decide)⟩
        simp only [setLabel_lastLabel]
        rw [labelTy_set, if_pos rfl]
        exact (or64 _).2.2.2 h1
      · trivial

/-- The action never returns `false`. -/
def noFailAct : Act → Bool
  | .POP_VAR => true
  | _ => false

theorem noFailAct_sound (env : Env) {a : Act} (h : noFailAct a = true) (s : PS) : (action env a s).NoFail := by
  cases a <;> first | exact absurd h (by decide) | skip
  simp only [action, ePopVar]
  split <;> trivial

/-- Not one of those actions. -/
def notLabel (a : Act) : Bool := !labelAct a

theorem sameTyRel (env : Env) : OnlyRel (action env) notLabel SameTy where
  refl := .refl
  trans := SameTy.trans
  data := fun h => .of_eq h.labels h.lastLabel
  act := fun a ha s => action_sameTy env a s (by simpa [notLabel] using ha)

/-- A line of a table that is entered at level `p` and has to leave at level `q`, or fail at level `p`. Tables of `K` have
no label actions, tables of `T` never fail. -/
def levLine (K T : List Nat) (pre post : Nat → Nat) (p q : Nat) : List PCode → Nat → Bool
  | [], k => q ≤ k
  | .ret :: _, k => q ≤ k
  | .emitRet _ :: _, k => q ≤ k
  | .emit _ :: cs, k => levLine K T pre post p q cs k
  | .lit _ :: cs, k => decide (p ≤ k) && levLine K T pre post p q cs k
  | .ext a :: cs, k => decide (needLev a ≤ k) && (noFailAct a || decide (p ≤ k)) && levLine K T pre post p q cs (postLev a k)
  | .call t :: cs, k =>
    if K.contains t then decide (p ≤ k) && levLine K T pre post p q cs k
    else decide (pre t ≤ k) && (p == 0 || T.contains t) && levLine K T pre post p q cs (post t)

/-- All the tables. -/
def checkLev (G : Grammar) (N : Nat) (K T : List Nat) (pre post : Nat → Nat) : Bool :=
  checkOnly notLabel G K && checkTotal G T &&
  (List.range N).all fun t => match G t with
    | some tb => tb.lines.all fun l => levLine K T pre post (pre t) (post t) l (pre t)
    | none => true

section
variable {env : Env} {G : Grammar} {tab : Nat → PS → Res} {tc : Nat → PS → Act → PS → Prop} {K T : List Nat}
  {pre post : Nat → Nat} {p q : Nat}

theorem tyLine_calls {a : Act} {x : PS} (htc : ∀ t ∈ K, ∀ s, tc t s a x → labelAct a = false)
    {l : List PCode} {s : PS} (h : LineCalls (action env) tab tc l s a x) (hl : onlyLine notLabel K l = true) : labelAct a = false := by
  induction h with
  | lit _ _ ih | emit _ ih | ext _ _ ih | call _ _ ih =>
    simp only [onlyLine, List.all_cons, Bool.and_eq_true] at hl
    exact ih htc hl.2
  | here =>
    simp only [onlyLine, List.all_cons, Bool.and_eq_true] at hl
    simpa [notLabel] using hl.1
  | inside h =>
    simp only [onlyLine, List.all_cons, Bool.and_eq_true] at hl
    exact htc _ (by simpa using hl.1) _ h

theorem tyLines_calls {a : Act} {x : PS} (htc : ∀ t ∈ K, ∀ s, tc t s a x → labelAct a = false) {sp : PS.Saved}
    {ls : List (List PCode)} {s : PS} (h : LinesCalls (action env) tab tc sp ls s a x) (hl : ls.all (onlyLine notLabel K) = true) :
    labelAct a = false := by
  induction h with
  | here h =>
    simp only [List.all_cons, Bool.and_eq_true] at hl
    exact tyLine_calls htc h hl.1
  | next _ _ ih =>
    simp only [List.all_cons, Bool.and_eq_true] at hl
    exact ih htc hl.2

theorem tyTable_calls {a : Act} {x : PS} (hK : checkOnly notLabel G K = true) (n : Nat) :
    ∀ t ∈ K, ∀ s, TableCalls (action env) G n t s a x → labelAct a = false := by
  induction n with
  | zero => intro t _ s h; exact h.elim
  | succ n ih =>
    rintro t ht s ⟨tb, htb, -, h⟩
    have hl := List.all_eq_true.mp hK t ht
    rw [htb] at hl
    exact tyLines_calls ih h hl

/-- What a table has to do. -/
def TabLev (K T : List Nat) (pre post : Nat → Nat) (tab : Nat → PS → Res) : Prop :=
  (∀ t ∈ K, ∀ s, (tab t s).All (SameTy s)) ∧ (∀ t ∈ T, ∀ s, (tab t s).NoFail) ∧
  ∀ t s, Lev (pre t) s → (tab t s).Ok (Lev (post t))

theorem parseLiteral_sameTy (l : Str) (s : PS) : (parseLiteral l s).All (SameTy s) := by
  unfold parseLiteral
  dsimp only
  split <;> exact .of_eq (by simp) (by simp)

theorem levLine_sound (htab : TabLev K T pre post tab) (l : List PCode) {k : Nat}
    (hl : levLine K T pre post p q l k = true) {s : PS} (h : Lev k s) : LevRes p q (parseLine (action env) tab l s) := by
  induction l generalizing k s with
  | nil => exact h.le (by simpa [levLine] using hl)
  | cons c cs ih =>
    cases c with
    | ret => exact h.le (by simpa [levLine] using hl)
    | emitRet d => exact (h.le (by simpa [levLine] using hl)).same (.of_eq (by simp) (by simp))
    | emit d => exact ih hl (h.same (.of_eq (by simp) (by simp)))
    | lit l =>
      simp only [levLine, Bool.and_eq_true, decide_eq_true_eq] at hl
      have := parseLiteral_sameTy l s
      rw [parseLine]
      cases hr : parseLiteral l s with
      | ok s1 => rw [hr] at this; exact ih hl.2 (h.same this)
      | fail s1 => rw [hr] at this; exact (h.same this).le hl.1
      | err e => trivial
    | ext a =>
      simp only [levLine, Bool.and_eq_true, Bool.or_eq_true, decide_eq_true_eq] at hl
      have := action_lev env a h hl.1.1
      rw [parseLine]
      cases hr : action env a s with
      | ok s1 => rw [hr] at this; exact ih hl.2 this
      | fail s1 =>
        rw [hr] at this
        rcases hl.1.2 with g | g
        · have nf := noFailAct_sound env g s
          rw [hr] at nf
          exact nf.elim
        · exact Lev.le this g
      | err e => trivial
    | call t =>
      unfold levLine at hl
      rw [parseLine]
      split at hl
      · next hK =>
        simp only [Bool.and_eq_true, decide_eq_true_eq] at hl
        have := htab.1 t (by simpa using hK) s
        cases hr : tab t s with
        | ok s1 => rw [hr] at this; exact ih hl.2 (h.same this)
        | fail s1 => rw [hr] at this; exact (h.same this).le hl.1
        | err e => trivial
      · simp only [Bool.and_eq_true, Bool.or_eq_true, decide_eq_true_eq, beq_iff_eq] at hl
        have := htab.2.2 t s (h.le hl.1.1)
        cases hr : tab t s with
        | ok s1 => rw [hr] at this; exact ih hl.2 this
        | fail s1 =>
          rcases hl.1.2 with g | g
          · subst g; exact Lev.zero _
          · have nf := htab.2.1 t (by simpa using g) s
            rw [hr] at nf
            exact nf.elim
        | err e => trivial

theorem levLines_sound (htab : TabLev K T pre post tab) (sp : PS.Saved) (ls : List (List PCode))
    (hl : ls.all (fun l => levLine K T pre post p q l p) = true) {s : PS} (h : Lev p s) :
    LevRes p q (parseLines (action env) tab sp ls s) := by
  induction ls generalizing s with
  | nil => exact h.same (.of_eq (by simp) (by simp))
  | cons l ls ih =>
    simp only [List.all_cons, Bool.and_eq_true] at hl
    have hh := levLine_sound (env := env) htab l hl.1 h
    unfold parseLines
    split
    · next s1 heq => rw [heq] at hh; exact hh.same (.of_eq (by simp) (by simp))
    · next s1 heq => rw [heq] at hh; exact ih hl.2 (hh.same (.of_eq (by simp) (by simp)))
    · trivial

theorem levTable_sound {N : Nat} (hG : checkLev G N K T pre post = true) (hN : ∀ t, N ≤ t → G t = none) (n : Nat) :
    TabLev K T pre post (parseTable (action env) G n) := by
  simp only [checkLev, Bool.and_eq_true] at hG
  obtain ⟨⟨h1, h2⟩, h3⟩ := hG
  refine ⟨onlyTable_rel (sameTyRel env) h1 n, totalTable_sound h2 n, ?_⟩
  induction n with
  | zero => intro t s _; trivial
  | succ n ih =>
    intro t s h
    unfold parseTable
    split
    · trivial
    · next tb htb =>
      have ht : t < N := by
        refine Decidable.byContradiction fun h => ?_
        rw [hN t (by omega)] at htb
        cases htb
      have hall := List.all_eq_true.mp h3 t (List.mem_range.mpr ht)
      rw [htb] at hall
      split
      · trivial
      · have := levLines_sound (env := env) ⟨onlyTable_rel (sameTyRel env) h1 n, totalTable_sound h2 n, ih⟩ (enterTable tb s).save tb.lines hall
          (s := enterTable tb s) (h.same (.of_eq (by simp [enterTable]) (by simp [enterTable])))
        revert this
        cases parseLines (action env) (parseTable (action env) G n) (enterTable tb s).save tb.lines (enterTable tb s) with
        | ok s1 => exact id
        | fail s1 => exact fun _ => trivial
        | err e => exact fun _ => trivial

theorem levLine_calls {a : Act} {x : PS} (htab : TabLev K T pre post tab)
    (hKc : ∀ t ∈ K, ∀ s, tc t s a x → labelAct a = false) (htc : ∀ t s, Lev (pre t) s → tc t s a x → Lev (needLev a) x)
    {l : List PCode} {s : PS} (hc : LineCalls (action env) tab tc l s a x) {k : Nat}
    (hl : levLine K T pre post p q l k = true) (h : Lev k s) : Lev (needLev a) x := by
  induction hc generalizing k with
  | @lit l cs s s1 a x hr _ ih =>
    simp only [levLine, Bool.and_eq_true, decide_eq_true_eq] at hl
    have := parseLiteral_sameTy l s
    rw [hr] at this
    exact ih hKc htc hl.2 (h.same this)
  | emit _ ih => exact ih hKc htc hl (h.same (.of_eq (by simp) (by simp)))
  | here =>
    simp only [levLine, Bool.and_eq_true, Bool.or_eq_true, decide_eq_true_eq] at hl
    exact h.le hl.1.1
  | @ext b cs s s1 a x hr _ ih =>
    simp only [levLine, Bool.and_eq_true, Bool.or_eq_true, decide_eq_true_eq] at hl
    have := action_lev env b h hl.1.1
    rw [hr] at this
    exact ih hKc htc hl.2 this
  | @inside t cs s a x hx =>
    unfold levLine at hl
    split at hl
    · next hK => rw [needLev_of_not (hKc t (by simpa using hK) s hx)]; exact Lev.zero _
    · simp only [Bool.and_eq_true, Bool.or_eq_true, decide_eq_true_eq, beq_iff_eq] at hl
      exact htc t s (h.le hl.1.1) hx
  | @call t cs s s1 a x hr _ ih =>
    unfold levLine at hl
    split at hl
    · next hK =>
      simp only [Bool.and_eq_true, decide_eq_true_eq] at hl
      have := htab.1 t (by simpa using hK) s
      rw [hr] at this
      exact ih hKc htc hl.2 (h.same this)
    · simp only [Bool.and_eq_true, Bool.or_eq_true, decide_eq_true_eq, beq_iff_eq] at hl
      have := htab.2.2 t s (h.le hl.1.1)
      rw [hr] at this
      exact ih hKc htc hl.2 this

theorem levLines_calls {a : Act} {x : PS} (htab : TabLev K T pre post tab)
    (hKc : ∀ t ∈ K, ∀ s, tc t s a x → labelAct a = false) (htc : ∀ t s, Lev (pre t) s → tc t s a x → Lev (needLev a) x)
    {sp : PS.Saved} {ls : List (List PCode)} {s : PS} (hc : LinesCalls (action env) tab tc sp ls s a x)
    (hl : ls.all (fun l => levLine K T pre post p q l p) = true) (h : Lev p s) : Lev (needLev a) x := by
  induction hc with
  | here hc =>
    simp only [List.all_cons, Bool.and_eq_true] at hl
    exact levLine_calls htab hKc htc hc hl.1 h
  | @next l ls s s1 a x hr _ ih =>
    simp only [List.all_cons, Bool.and_eq_true] at hl
    have hh := levLine_sound (env := env) htab l hl.1 h
    rw [hr] at hh
    exact ih hKc htc hl.2 (hh.same (.of_eq (by simp) (by simp)))

/-- With tables that pass the check, `DO_EXEC` is only called when the last label is not data, and `PROC_CHECK` when it is
not defined. -/
theorem levTable_calls {a : Act} {x : PS} {N : Nat} (hG : checkLev G N K T pre post = true) (hN : ∀ t, N ≤ t → G t = none)
    (n : Nat) : ∀ t s, Lev (pre t) s → TableCalls (action env) G n t s a x → Lev (needLev a) x := by
  have hG' := hG
  simp only [checkLev, Bool.and_eq_true] at hG'
  obtain ⟨⟨h1, -⟩, h3⟩ := hG'
  induction n with
  | zero => intro t s _ h; exact h.elim
  | succ n ih =>
    rintro t s h ⟨tb, htb, -, hc⟩
    have ht : t < N := by
      refine Decidable.byContradiction fun h => ?_
      rw [hN t (by omega)] at htb
      cases htb
    have hall := List.all_eq_true.mp h3 t (List.mem_range.mpr ht)
    rw [htb] at hall
    exact levLines_calls (levTable_sound hG hN n) (tyTable_calls h1 n) ih hc hall
      (h.same (.of_eq (by simp [enterTable]) (by simp [enterTable])))

end

/-! ## The shipped grammar -/

/-- Tables without label actions. -/
def fpNoLabel : List Nat := (List.range 94).filter fun t => !([32, 63, 65, 70, 71, 73, 74, 84] : List Nat).contains t

theorem fp_checkLev : checkLev AtariFp.grammar 94 fpNoLabel [70] (fun t => if t = 70 then 2 else 0)
    (fun t => if t = 70 then 1 else 0) = true := by
  decide +kernel

/-- With the shipped grammar, `DO_EXEC` is only called when the last label is not data, and `PROC_CHECK` when it is not
defined. -/
theorem fp_lev {env : Env} {a : Act} {x : PS} {n t : Nat} (ht : t ≠ 70) {s : PS}
    (h : TableCalls (action env) AtariFp.grammar n t s a x) : Lev (needLev a) x :=
  levTable_calls fp_checkLev fp_tables n t s (by rw [if_neg ht]; exact Lev.zero _) h

end FB.Parse
