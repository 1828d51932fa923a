import Verif.Parse.Items
import Verif.Parse.Calls
import Verif.Parse.Sound
import Verif.Props.C21Program

/-!
# Labels and procedures are never repeated

Invariants of everything that the parser does (`Move`, with any grammar): the labels that it makes for loops are defined at
most once, and the code of each procedure has its own key. Auxiliary for C22, C23 and C29, models nothing by itself.
-/

namespace FB.Parse

open Frame

/-! ## Names of labels -/

theorem decDigits_inj {n m : Nat} (h : PS.decDigits n = PS.decDigits m) : n = m := by
  rw [← (Out.decDigits_spec n).1, ← (Out.decDigits_spec m).1, h]

theorem jumpLabel_inj {n m : Nat} (h : PS.jumpLabel n = PS.jumpLabel m) : n = m :=
  decDigits_inj (List.append_cancel_left h)

theorem not_digit_95 : isDigit 10 95 = false := by decide

theorem jumpLabel_ne_lblX (n m : Nat) : PS.jumpLabel n ≠ lblX (PS.jumpLabel m) := by
  intro h
  unfold PS.jumpLabel lblX at h
  rw [List.append_assoc] at h
  have h := List.append_cancel_left h
  have : (95 : Nat) ∈ PS.decDigits n := by rw [h]; simp
  have := (Out.decDigits_spec n).2.1 95 this
  rw [not_digit_95] at this
  cases this

theorem lblX_inj {a b : Str} (h : lblX a = lblX b) : a = b := List.append_cancel_right h

theorem jumpLabel_ne_prefix (n : Nat) (m : Str) : PS.jumpLabel n ≠ labelPrefix ++ m := by
  intro h
  unfold PS.jumpLabel at h
  have := congrArg List.head? h
  rw [show (labelPrefix ++ m).head? = some 102 from rfl] at this
  cases this

theorem lblX_ne_prefix (n : Nat) (m : Str) : lblX (PS.jumpLabel n) ≠ labelPrefix ++ m := by
  intro h
  unfold PS.jumpLabel lblX at h
  have := congrArg List.head? h
  rw [show (labelPrefix ++ m).head? = some 102 from rfl] at this
  cases this

/-- The labels of number `n`. -/
def IsLbl (n : Nat) (l : Str) : Prop := l = PS.jumpLabel n ∨ l = lblX (PS.jumpLabel n)

theorem IsLbl.uniq {n m : Nat} {l : Str} (h : IsLbl n l) (g : IsLbl m l) : n = m := by
  rcases h with rfl | rfl <;> rcases g with g | g
  · exact jumpLabel_inj g
  · exact absurd g (jumpLabel_ne_lblX _ _)
  · exact absurd g.symm (jumpLabel_ne_lblX _ _)
  · exact jumpLabel_inj (lblX_inj g)

theorem IsLbl.ne_prefix {n : Nat} {l : Str} (h : IsLbl n l) (m : Str) : l ≠ labelPrefix ++ m := by
  rcases h with rfl | rfl
  · exact jumpLabel_ne_prefix n m
  · exact lblX_ne_prefix n m

/-! ## Counting definitions -/

/-- Definitions of `l` in a list of code. -/
def nlab (l : Str) (cs : List CW) : Nat := cs.countP fun c => c.k = .label l

/-- Definitions of `l` in all the code. -/
def codeLab (s : PS) (l : Str) : Nat := (s.procs.map fun p => nlab l p.2).sum + nlab l s.varStk

/-- The label that the end of a loop will define. -/
def pend (j : Jump) : List Str :=
  match j.type with
  | .DO_LOOP | .REPEAT | .WHILE_1 | .FOR_1 | .PROC_2 => [lblX j.label]
  | .WHILE_2 | .FOR_2 | .IF | .ELSE | .ELIF => [j.label]
  | .EXIT | .LAST_JUMP | .PROC_DATA => []

/-- Definitions of `l` that the ends of the open loops will make. -/
def pendLab (js : List Jump) (l : Str) : Nat := ((js.map pend).flatten).count l

/-- All of them. -/
def defs (s : PS) (l : Str) : Nat := codeLab s l + pendLab s.jumps l

theorem sum_assign (f : List CW → Nat) (hf : f [] = 0) (k : Str) (c : List CW) (ps : List (Str × List CW)) :
    ((assign k c ps).map fun p => f p.2).sum + f ((lookup k ps).getD []) = (ps.map fun p => f p.2).sum + f c := by
  induction ps with
  | nil => simp [assign, lookup, hf]
  | cons p ps ih =>
    obtain ⟨k', v⟩ := p
    unfold assign lookup
    split
    · simp; omega
    · simp only [List.map_cons, List.sum_cons]; omega

theorem codeLab_setCode (s : PS) (c : List CW) (l : Str) : codeLab (s.setCode c) l + nlab l s.code = codeLab s l + nlab l c := by
  have := sum_assign (nlab l) rfl s.curProc c s.procs
  unfold codeLab PS.setCode PS.code
  dsimp only
  omega

theorem nlab_cons (l : Str) (c : CW) (cs : List CW) : nlab l (c :: cs) = nlab l cs + if c.k = .label l then 1 else 0 := by
  unfold nlab
  rw [List.countP_cons]
  simp

theorem codeLab_emit (s : PS) (k : CK) (l : Str) : codeLab (s.emit k) l = codeLab s l + if k = .label l then 1 else 0 := by
  have := codeLab_setCode s (⟨k, s.linenum⟩ :: s.code) l
  rw [nlab_cons] at this
  unfold PS.emit
  dsimp only at this
  omega

theorem codeLab_congr {s s' : PS} (h1 : s'.procs = s.procs) (h2 : s'.varStk = s.varStk) (l : Str) : codeLab s' l = codeLab s l := by
  unfold codeLab; rw [h1, h2]

theorem codeLab_pushProc (s : PS) (k : Str) (l : Str) : codeLab (s.pushProc k) l = codeLab s l := by
  unfold codeLab PS.pushProc
  dsimp only
  split
  · rfl
  · next h =>
    have := sum_assign (nlab l) rfl k [] s.procs
    rw [show lookup k s.procs = none by simpa using h] at this
    simp only [Option.getD_none] at this
    omega

theorem pendLab_cons (j : Jump) (js : List Jump) (l : Str) : pendLab (j :: js) l = (pend j).count l + pendLab js l := by
  unfold pendLab; simp [List.count_append]

theorem defs_emit (s : PS) (k : CK) (l : Str) : defs (s.emit k) l = defs s l + if k = .label l then 1 else 0 := by
  unfold defs; rw [codeLab_emit, emit_jumps]; omega

theorem defs_congr {s s' : PS} (h1 : s'.procs = s.procs) (h2 : s'.varStk = s.varStk) (h3 : s'.jumps = s.jumps) (l : Str) :
    defs s' l = defs s l := by unfold defs; rw [codeLab_congr h1 h2, h3]

theorem pushLoop_fst (s : PS) (t : LT) : (s.pushLoop t).1 = PS.jumpLabel (s.labelNum + 1) := by
  unfold PS.pushLoop; rfl

theorem pushLoop_labelNum (s : PS) (t : LT) : (s.pushLoop t).2.labelNum = s.labelNum + 1 := by
  unfold PS.pushLoop; dsimp only; split <;> rfl

theorem defs_pushLoop (s : PS) (t : LT) (l : Str) :
    defs (s.pushLoop t).2 l = defs s l + (pend ⟨t, PS.jumpLabel (s.labelNum + 1), s.linenum⟩).count l := by
  unfold defs
  rw [codeLab_congr (pushLoop_procs s t) (pushLoop_varStk s t), pushLoop_jumps, pendLab_cons, pushLoop_fst]; omega

theorem defs_setCode_tail {s : PS} {c : CW} {cs : List CW} (h : s.code = c :: cs) (l : Str) : defs (s.setCode cs) l ≤ defs s l := by
  have := codeLab_setCode s cs l
  rw [h, nlab_cons] at this
  unfold defs
  rw [setCode_jumps]
  omega

/-- What a step can do to the definitions of the labels of number `n`. -/
def DefRel (s s' : PS) : Prop :=
  s.labelNum ≤ s'.labelNum ∧
    ∀ n l, IsLbl n l → defs s' l ≤ defs s l + if s.labelNum < n ∧ n ≤ s'.labelNum then 1 else 0

theorem DefRel.refl (s : PS) : DefRel s s := ⟨Nat.le_refl _, fun _ _ _ => Nat.le_add_right _ _⟩

theorem DefRel.trans {a b c : PS} (h : DefRel a b) (g : DefRel b c) : DefRel a c := by
  refine ⟨Nat.le_trans h.1 g.1, fun n l hl => ?_⟩
  have h1 := h.2 n l hl
  have g1 := g.2 n l hl
  have h0 := h.1
  have g0 := g.1
  by_cases c1 : a.labelNum < n ∧ n ≤ b.labelNum
  · rw [if_pos c1] at h1
    rw [if_neg (by omega)] at g1
    rw [if_pos ⟨c1.1, by omega⟩]
    omega
  · rw [if_neg c1] at h1
    by_cases c2 : b.labelNum < n ∧ n ≤ c.labelNum
    · rw [if_pos c2] at g1
      rw [if_pos ⟨by omega, c2.2⟩]
      omega
    · rw [if_neg c2] at g1
      omega

theorem DefRel.le {s s' : PS} (hn : s'.labelNum = s.labelNum) (h : ∀ l, (∀ m, l ≠ labelPrefix ++ m) → defs s' l ≤ defs s l) :
    DefRel s s' :=
  ⟨by rw [hn]; exact Nat.le_refl _, fun n l hl => Nat.le_trans (h l (hl.ne_prefix)) (Nat.le_add_right _ _)⟩

theorem DefRel.shift {s s1 s2 s3 : PS} (r : DefRel s1 s2) (h1 : s1.labelNum = s.labelNum) (h3 : s3.labelNum = s2.labelNum)
    (h : ∀ l, defs s3 l + defs s1 l ≤ defs s l + defs s2 l) : DefRel s s3 := by
  refine ⟨by rw [← h1, h3]; exact r.1, fun n l hl => ?_⟩
  rw [← h1, h3]
  have := h l
  have := r.2 n l hl
  omega

theorem DefRel.of_emit {s : PS} {k : CK} (hk : ∀ l, k ≠ .label l) : DefRel s (s.emit k) :=
  .le (by simp) fun l _ => by rw [defs_emit, if_neg (hk l)]; omega

theorem DefRel.of_eq {s s' : PS} (h1 : s'.procs = s.procs) (h2 : s'.varStk = s.varStk) (h3 : s'.jumps = s.jumps)
    (h4 : s'.labelNum = s.labelNum) : DefRel s s' :=
  .le h4 fun l _ => by rw [defs_congr h1 h2 h3]; exact Nat.le_refl _

/-- A new loop: its label defined at once, or not. -/
theorem DefRel.open {s : PS} (t : LT) (d : Bool) (hd : d = true → pend ⟨t, PS.jumpLabel (s.labelNum + 1), s.linenum⟩ =
    [lblX (PS.jumpLabel (s.labelNum + 1))]) {s' : PS} (hn : s'.labelNum = s.labelNum + 1)
    (h : ∀ l, defs s' l ≤ defs (s.pushLoop t).2 l + if d = true ∧ l = PS.jumpLabel (s.labelNum + 1) then 1 else 0) :
    DefRel s s' := by
  refine ⟨by omega, fun n l hl => ?_⟩
  have h1 := h l
  rw [defs_pushLoop] at h1
  by_cases c : n = s.labelNum + 1
  · rw [if_pos ⟨by omega, by omega⟩]
    cases d with
    | true =>
      rw [hd rfl] at h1
      have hne := jumpLabel_ne_lblX (s.labelNum + 1) (s.labelNum + 1)
      subst c
      rcases hl with rfl | rfl
      · simp only [List.count_singleton, true_and, if_true] at h1
        rw [if_neg (by simpa using Ne.symm hne)] at h1
        omega
      · rw [if_neg (fun g => hne g.2.symm)] at h1
        simp at h1
        omega
    | false =>
      simp only [Bool.false_eq_true, false_and, if_false] at h1
      have : (pend ⟨t, PS.jumpLabel (s.labelNum + 1), s.linenum⟩).count l ≤ 1 := by
        refine Nat.le_trans List.count_le_length ?_
        unfold pend
        dsimp only
        cases t <;> simp
      omega
  · rw [if_neg (by omega)]
    have hx : l ≠ PS.jumpLabel (s.labelNum + 1) := fun g => c (hl.uniq (.inl g))
    have hy : l ≠ lblX (PS.jumpLabel (s.labelNum + 1)) := fun g => c (hl.uniq (.inr g))
    rw [if_neg (fun g => hx g.2)] at h1
    have : (pend ⟨t, PS.jumpLabel (s.labelNum + 1), s.linenum⟩).count l = 0 := by
      rw [List.count_eq_zero]
      unfold pend
      dsimp only
      cases t <;> simp [hx, hy]
    omega

theorem nlab_resize (l : Str) (cs : List CW) (n : Nat) : nlab l (PS.resize cs n) ≤ nlab l cs := by
  unfold PS.resize nlab
  split
  · exact List.Sublist.countP_le (List.drop_sublist _ _)
  · rw [List.countP_append]
    have : List.countP (fun c : CW => decide (c.k = CK.label l)) (List.replicate (n - cs.length) ⟨.tok .END, 0⟩) = 0 := by
      rw [List.countP_eq_zero]
      intro c hc
      rw [(List.mem_replicate.1 hc).2]
      simp
    omega

theorem defs_pop {s : PS} {j : Jump} {js : List Jump} (h : s.jumps = j :: js) (l : Str) :
    defs (popJ s js) l + (pend j).count l = defs s l := by
  unfold defs
  rw [h, pendLab_cons, codeLab_congr (s := s) (s' := popJ s js) rfl rfl]
  show _ + pendLab js l + _ = _
  omega

theorem count_one (a l : Str) : [a].count l = if a = l then 1 else 0 := by
  rw [List.count_singleton]
  by_cases h : a = l
  · simp [h]
  · simp [h]

theorem defs_pushProc (s : PS) (k : Str) (l : Str) : defs (s.pushProc k) l = defs s l := by
  unfold defs; rw [codeLab_pushProc, pushProc_jumps]

theorem DefRel.openData {s : PS} {c : CW} {cs : List CW} (h : s.code = c :: cs) :
    DefRel s (((s.pushLoop .PROC_DATA).2.setCode cs).pushProc (s.pushLoop .PROC_DATA).1) := by
  refine DefRel.open .PROC_DATA false (by simp) ?_ ?_
  · simp [pushLoop_labelNum]
  · intro l
    rw [defs_pushProc]
    have := defs_setCode_tail (s := (s.pushLoop .PROC_DATA).2) (c := c) (cs := cs)
      (by rw [code_congr (pushLoop_procStack s _) (pushLoop_procs s _), h]) l
    simpa using this

variable {env : Env} {Gd : DCode → Prop}

theorem Move.defs {s s' : PS} (h : Move env Gd s s') : DefRel s s' := by
  cases h with
  | same h => exact .of_eq h.procs h.varStk h.jumps h.labelNum
  | gram h => exact .of_emit (by intro l; rename_i d; cases d <;> simp [DCode.ck])
  | plain h => exact .of_emit (by intro l; cases h <;> simp)
  | exit h => exact .of_emit (by simp)
  | drop h => exact .le (by simp) fun l _ => defs_setCode_tail h l
  | restore n =>
    refine .le (by simp) fun l _ => ?_
    have := codeLab_setCode s (PS.resize s.code n) l
    have := nlab_resize l s.code n
    unfold Parse.defs
    rw [setCode_jumps]
    omega
  | @pushVar c cs h =>
    refine .le (by simp) fun l _ => ?_
    have := codeLab_setCode s cs l
    rw [h, nlab_cons] at this
    unfold Parse.defs
    simp only [setCode_jumps]
    unfold codeLab at *
    simp only [setCode_varStk, nlab_cons] at *
    omega
  | @popVar c cs h =>
    refine .le (by simp) fun l _ => ?_
    have := codeLab_setCode s (c :: s.code) l
    rw [nlab_cons] at this
    unfold Parse.defs
    simp only [setCode_jumps]
    unfold codeLab at *
    simp only [setCode_varStk, h, nlab_cons] at *
    omega
  | @openLabel t h =>
    refine DefRel.open t true ?_ (by simp [pushLoop_labelNum]) fun l => ?_
    · intro _
      simp only [List.mem_cons, List.not_mem_nil, or_false] at h
      rcases h with rfl | rfl | rfl | rfl <;> rfl
    · rw [defs_emit, pushLoop_fst]
      simp only [CK.label.injEq, true_and]
      by_cases g : l = PS.jumpLabel (s.labelNum + 1)
      · simp [g]
      · rw [if_neg (fun e => g e.symm), if_neg g]
        exact Nat.le_refl _
  | @openRef t h =>
    refine DefRel.open t false (by simp) (by simp [pushLoop_labelNum]) fun l => ?_
    rw [defs_emit]
    simp
  | @openPlain t h =>
    exact DefRel.open t false (by simp) (by simp [pushLoop_labelNum]) fun l => by simp
  | openProc h => exact .openData h
  | @dropJump j js h hj =>
    refine .le rfl fun l _ => ?_
    have := defs_pop h l
    omega
  | @closeLoop j js h hj =>
    refine .le (by simp) fun l _ => ?_
    have := defs_pop h l
    have hp : pend j = [lblX j.label] := by unfold pend; rcases hj with hj | hj <;> rw [hj]
    rw [hp, count_one] at this
    simp only [defs_emit, CK.label.injEq, reduceCtorEq, if_false]
    omega
  | @closeWhile j1 j2 js h h1 h2 =>
    refine .le (by simp) fun l _ => ?_
    have e1 := defs_pop h l
    have e2 := defs_pop (s := popJ s (j2 :: js)) (j := j2) (js := js) rfl l
    have hp : pend j1 = [j1.label] := by unfold pend; rw [h1]
    have hq : pend j2 = [lblX j2.label] := by unfold pend; rw [h2]
    rw [hp, count_one] at e1
    rw [hq, count_one] at e2
    simp only [defs_emit, CK.label.injEq, reduceCtorEq, if_false]
    change Parse.defs (popJ s js) l + _ = _ at e2
    omega
  | @closeFor j1 j2 js c cs h h1 h2 hc =>
    refine .le (by simp) fun l _ => ?_
    have e1 := defs_pop h l
    have e2 := defs_pop (s := popJ s (j1 :: js)) (j := j1) (js := js) rfl l
    have hp : pend j1 = [j1.label] := by unfold pend; rw [h1]
    have hq : pend j2 = [lblX j2.label] := by unfold pend; rw [h2]
    rw [hq, count_one] at e1
    rw [hp, count_one] at e2
    have e3 := defs_setCode_tail (s := popJ s js) (c := c) (cs := cs) hc l
    simp only [defs_emit, CK.label.injEq, reduceCtorEq, if_false]
    change Parse.defs (popJ s js) l + _ = _ at e2
    omega
  | @closeIf j js h hj =>
    refine .le (by simp) fun l _ => ?_
    have := defs_pop h l
    have hp : pend j = [j.label] := by unfold pend; rcases hj with hj | hj | hj <;> rw [hj]
    rw [hp, count_one] at this
    simp only [defs_emit, CK.label.injEq]
    omega
  | @elseIf j js c cs n t h hj hc hn ht =>
    have r : DefRel ((popJ s js).setCode cs) (((((popJ s js).setCode cs).pushLoop t).2.emit
        (.wordStr (((popJ s js).setCode cs).pushLoop t).1))) := by
      refine DefRel.open t false (by simp) (by simp [pushLoop_labelNum]) fun l => ?_
      rw [defs_emit]
      simp
    refine r.shift (by simp) (by simp) fun l => ?_
    have := defs_pop h l
    have hp : pend j = [j.label] := by unfold pend; rw [hj]
    rw [hp, count_one] at this
    have e3 := defs_setCode_tail (s := popJ s js) (c := c) (cs := cs) hc l
    rw [defs_emit (k := .label j.label)]
    simp only [CK.label.injEq]
    omega
  | @closeProc2 j js h hj =>
    refine .le (by simp) fun l _ => ?_
    have := defs_pop h l
    have hp : pend j = [lblX j.label] := by unfold pend; rw [hj]
    rw [hp, count_one] at this
    simp only [defs_emit, CK.label.injEq]
    omega
  | @closeProcData j js ps h hj hp =>
    refine .le rfl fun l _ => ?_
    have := defs_pop h l
    have e : Parse.defs { s with jumps := js, procStack := ps } l = Parse.defs (popJ s js) l := defs_congr rfl rfl rfl l
    omega
  | newVar h hi => exact .trans (.of_eq (s := s) rfl rfl rfl rfl) (.of_emit (by simp))
  | setType h hn =>
    refine .le (by simp) fun l _ => ?_
    have := defs_setCode_tail h l
    exact Nat.le_trans (Nat.le_of_eq (defs_congr rfl rfl rfl l)) this
  | touchLabel => exact .of_eq (by simp [setLabel]) (by simp [setLabel]) (by simp [setLabel]) (by simp [setLabel])
  | makeLabel => exact .of_eq (by simp [setLabel]) (by simp [setLabel]) (by simp [setLabel]) (by simp [setLabel])
  | @labelDef c cs h hd =>
    refine .trans (.openData h) ?_
    refine .le (by simp [setLabel]) fun l hl => ?_
    rw [defs_emit, if_neg (by simpa using fun e => hl _ e.symm)]
    exact Nat.le_of_eq (defs_congr (by simp [setLabel]) (by simp [setLabel]) (by simp [setLabel]) l)
  | count => exact .of_eq rfl rfl rfl rfl
  | exec h => exact .trans (.of_eq (s := s) (by simp [setLabel]) (by simp [setLabel]) (by simp [setLabel]) (by simp [setLabel])) (.of_emit (by simp))
  | procCheck h => exact .of_eq (by simp [setLabel]) (by simp [setLabel]) (by simp [setLabel]) (by simp [setLabel])
  | labelType h hn ht =>
    refine .le (by simp [setLabel]) fun l _ => ?_
    have := defs_setCode_tail h l
    exact Nat.le_trans (Nat.le_of_eq (defs_congr (by simp [setLabel]) (by simp [setLabel]) (by simp [setLabel]) l)) this
  | segment => exact .of_eq (by simp [setLabel]) (by simp [setLabel]) (by simp [setLabel]) (by simp [setLabel])

theorem FMoves.defs {src : Str} {s s' : PS} (h : FMoves env Gd src s s') : DefRel s s' := by
  induction h with
  | refl => exact .refl _
  | tail _ h ih =>
    refine ih.trans ?_
    cases h with
    | move h => exact h.defs
    | line l ln hl =>
      refine .le rfl fun l _ => ?_
      unfold Parse.defs codeLab
      simp [PS.newLine, nlab]

/-- A label made by the parser is defined at most once, in all of the code. -/
theorem FMoves.codeLab {src : Str} {s : PS} (h : FMoves env Gd src initPS s) {n : Nat} {l : Str} (hl : IsLbl n l) :
    codeLab s l ≤ 1 := by
  have h1 := h.defs.2 n l hl
  have h2 : Parse.defs initPS l = 0 := rfl
  have h3 : Parse.codeLab s l ≤ Parse.defs s l := Nat.le_add_right _ _
  split at h1 <;> omega

/-! ## Keys of the code of procedures -/

theorem keys_assign {α : Type} (k : Str) (v : α) (m : List (Str × α)) :
    (assign k v m).map Prod.fst = if k ∈ m.map Prod.fst then m.map Prod.fst else m.map Prod.fst ++ [k] := by
  induction m with
  | nil => simp [assign]
  | cons p m ih =>
    obtain ⟨k', v'⟩ := p
    unfold assign
    split
    · next h => simp [h]
    · next h =>
      simp only [List.map_cons, ih, List.mem_cons]
      by_cases g : k ∈ m.map Prod.fst
      · rw [if_pos g, if_pos (.inr g)]
      · rw [if_neg g, if_neg (fun e => e.elim h g)]
        rfl

theorem nodup_assign {α : Type} (k : Str) (v : α) (m : List (Str × α)) (h : (m.map Prod.fst).Nodup) :
    ((assign k v m).map Prod.fst).Nodup := by
  rw [keys_assign]
  split
  · exact h
  · next g =>
    rw [List.nodup_append]
    refine ⟨h, by simp, ?_⟩
    intro a ha b hb e
    simp only [List.mem_singleton] at hb
    exact g (hb ▸ e ▸ ha)

/-- A key: that of the main program, or a label made before. -/
def IsKey (n : Nat) (k : Str) : Prop := k = [] ∨ ∃ m, 1 ≤ m ∧ m ≤ n ∧ k = PS.jumpLabel m

theorem IsKey.mono {n m : Nat} {k : Str} (h : n ≤ m) (g : IsKey n k) : IsKey m k := by
  rcases g with g | ⟨i, a, b, c⟩
  · exact .inl g
  · exact .inr ⟨i, a, Nat.le_trans b h, c⟩

/-- The keys of the code. -/
structure KeysOk (s : PS) : Prop where
  nodup : (s.procs.map Prod.fst).Nodup
  key : ∀ k ∈ s.procs.map Prod.fst, IsKey s.labelNum k
  stack : ∀ k ∈ s.procStack, IsKey s.labelNum k

theorem KeysOk.cur {s : PS} (h : KeysOk s) : IsKey s.labelNum s.curProc := by
  unfold PS.curProc
  cases hp : s.procStack with
  | nil => exact .inl rfl
  | cons k ks => exact h.stack k (by rw [hp]; exact List.mem_cons_self)

theorem KeysOk.setCode {s : PS} (h : KeysOk s) (c : List CW) : KeysOk (s.setCode c) := by
  refine ⟨nodup_assign _ _ _ h.nodup, ?_, h.stack⟩
  intro k hk
  unfold PS.setCode at hk
  dsimp only at hk
  rw [keys_assign] at hk
  split at hk
  · exact h.key k hk
  · simp only [List.mem_append, List.mem_singleton] at hk
    rcases hk with hk | rfl
    · exact h.key k hk
    · exact h.cur

theorem KeysOk.emit {s : PS} (h : KeysOk s) (k : CK) : KeysOk (s.emit k) := h.setCode _

theorem KeysOk.of_eq {s s' : PS} (h : KeysOk s) (h1 : s'.procs = s.procs) (h2 : s'.procStack = s.procStack)
    (h3 : s.labelNum ≤ s'.labelNum) : KeysOk s' :=
  ⟨by rw [h1]; exact h.nodup, fun k hk => (h.key k (by rw [← h1]; exact hk)).mono h3,
    fun k hk => (h.stack k (by rw [← h2]; exact hk)).mono h3⟩

theorem KeysOk.pushLoop {s : PS} (h : KeysOk s) (t : LT) : KeysOk (s.pushLoop t).2 :=
  h.of_eq (pushLoop_procs s t) (pushLoop_procStack s t) (by rw [pushLoop_labelNum]; exact Nat.le_succ _)

theorem KeysOk.pushProc {s : PS} (h : KeysOk s) {k : Str} (hk : IsKey s.labelNum k) : KeysOk (s.pushProc k) := by
  refine ⟨?_, ?_, ?_⟩
  · unfold PS.pushProc
    dsimp only
    split
    · exact h.nodup
    · exact nodup_assign _ _ _ h.nodup
  · intro k' hk'
    unfold PS.pushProc at hk'
    dsimp only at hk'
    split at hk'
    · exact h.key k' hk'
    · rw [keys_assign] at hk'
      split at hk'
      · exact h.key k' hk'
      · simp only [List.mem_append, List.mem_singleton] at hk'
        rcases hk' with hk' | rfl
        · exact h.key k' hk'
        · exact hk
  · intro k' hk'
    have : k' = k ∨ k' ∈ s.procStack := by simpa [PS.pushProc] using hk'
    rcases this with rfl | g
    · exact hk
    · exact h.stack k' g

theorem KeysOk.openData {s : PS} (h : KeysOk s) (cs : List CW) :
    KeysOk (((s.pushLoop .PROC_DATA).2.setCode cs).pushProc (s.pushLoop .PROC_DATA).1) := by
  refine ((h.pushLoop _).setCode cs).pushProc (.inr ⟨s.labelNum + 1, by omega, ?_, pushLoop_fst _ _⟩)
  rw [setCode_labelNum, pushLoop_labelNum]
  exact Nat.le_refl _

theorem KeysOk.popJ {s : PS} (h : KeysOk s) (js : List Jump) : KeysOk (popJ s js) := h.of_eq rfl rfl (Nat.le_refl _)

theorem Move.keys {s s' : PS} (h : Move env Gd s s') (k : KeysOk s) : KeysOk s' := by
  have sl : ∀ n l, KeysOk (setLabel s n l) := fun n l =>
    k.of_eq (by simp [setLabel]) (by simp [setLabel]) (by simp [setLabel])
  cases h with
  | same h => exact k.of_eq h.procs h.procStack (by rw [h.labelNum]; exact Nat.le_refl _)
  | gram h => exact k.emit _
  | plain h => exact k.emit _
  | exit h => exact k.emit _
  | drop h => exact k.setCode _
  | restore n => exact k.setCode _
  | pushVar h => exact (k.setCode _).of_eq rfl rfl (Nat.le_refl _)
  | popVar h => exact (k.setCode _).of_eq rfl rfl (Nat.le_refl _)
  | openLabel h => exact (k.pushLoop _).emit _
  | openRef h => exact (k.pushLoop _).emit _
  | openPlain h => exact k.pushLoop _
  | openProc h => exact k.openData _
  | dropJump h hj => exact k.popJ _
  | closeLoop h hj => exact ((k.popJ _).emit _).emit _
  | closeWhile h h1 h2 => exact (((k.popJ _).emit _).emit _).emit _
  | closeFor h h1 h2 hc => exact ((((k.popJ _).setCode _).emit _).emit _).emit _
  | closeIf h hj => exact (k.popJ _).emit _
  | elseIf h hj hc hn ht => exact ((((k.popJ _).setCode _).pushLoop _).emit _).emit _
  | closeProc2 h hj => exact (k.popJ _).emit _
  | closeProcData h hj hp =>
    exact ⟨k.nodup, k.key, fun x hx => k.stack x (by rw [hp]; exact List.mem_cons_of_mem _ hx)⟩
  | @newVar name h hi =>
    exact KeysOk.emit (s := { s with vars := assign name (256 * s.vars.length) s.vars, lastVar := name })
      (k.of_eq rfl rfl (Nat.le_refl _)) _
  | setType h hn => exact (k.setCode _).of_eq rfl rfl (Nat.le_refl _)
  | touchLabel => exact sl _ _
  | @makeLabel name _ _ => exact (sl name (getLabel s name)).of_eq rfl rfl (Nat.le_refl _)
  | @labelDef c cs h hd =>
    exact KeysOk.emit ((k.openData cs).of_eq (by simp [setLabel]) (by simp [setLabel]) (by simp [setLabel])) _
  | count => exact k.of_eq rfl rfl (Nat.le_refl _)
  | exec h => exact (sl _ _).emit _
  | procCheck h => exact sl _ _
  | @labelType c cs _ _ h hn ht => exact (k.setCode cs).of_eq (by simp [setLabel]) (by simp [setLabel]) (by simp [setLabel])
  | segment => exact sl _ _

theorem KeysOk.init : KeysOk initPS := by
  refine ⟨by decide, ?_, ?_⟩
  · intro k hk
    exact .inl (by simpa [initPS] using hk)
  · intro k hk
    simp [initPS] at hk

theorem FMoves.keys {src : Str} {s s' : PS} (h : FMoves env Gd src s s') (k : KeysOk s) : KeysOk s' := by
  induction h with
  | refl => exact k
  | tail _ h ih =>
    cases h with
    | move h => exact h.keys ih
    | line l ln hl => exact ih.of_eq rfl rfl (Nat.le_refl _)

/-- A new procedure starts without code. -/
theorem KeysOk.fresh {s : PS} (k : KeysOk s) : lookup (PS.jumpLabel (s.labelNum + 1)) s.procs = none := by
  cases h : lookup (PS.jumpLabel (s.labelNum + 1)) s.procs with
  | none => rfl
  | some c =>
    exfalso
    have hm : PS.jumpLabel (s.labelNum + 1) ∈ s.procs.map Prod.fst := by
      clear k
      revert h
      induction s.procs with
      | nil => intro h; cases h
      | cons p m ih =>
        obtain ⟨k', v'⟩ := p
        unfold lookup
        split
        · next e => intro _; simp [e]
        · intro g; exact List.mem_cons_of_mem _ (ih g)
    rcases k.key _ hm with e | ⟨i, a, b, c⟩
    · unfold PS.jumpLabel at e; simp at e
    · have := jumpLabel_inj c
      omega

theorem pushProc_code_fresh {s : PS} {k : Str} (h : lookup k s.procs = none) : (s.pushProc k).code = [] := by
  unfold PS.code PS.curProc PS.pushProc
  simp [h, lookup_assign_self]

/-- The code of a procedure after its definition is the label of the procedure. -/
theorem eLabelDef_code {s s' : PS} (k : KeysOk s) (h : eLabelDef s = .ok s') :
    s'.code = [⟨.label (labelPrefix ++ s'.lastLabel), s.linenum⟩] ∧ s'.curParams = 0 ∧ s'.lastLabel = s.lastLabel := by
  unfold eLabelDef at h
  dsimp only at h
  split at h
  · cases h
  · next c s6 hrl =>
    split at h
    · cases h
    · injection h with h
      subst h
      unfold PS.removeLast at hrl
      split at hrl
      · cases hrl
      · next cs hc =>
        simp only [Option.some.injEq, Prod.mk.injEq] at hrl
        obtain ⟨-, rfl⟩ := hrl
        refine ⟨?_, by simp, by simp⟩
        have hf : (((s.pushLoop LT.PROC_DATA).2.setCode cs).pushProc (s.pushLoop LT.PROC_DATA).1).code = [] := by
          apply pushProc_code_fresh
          have hne : (s.pushLoop LT.PROC_DATA).2.curProc ≠ (s.pushLoop LT.PROC_DATA).1 := by
            rw [pushLoop_fst]
            intro e
            have : IsKey s.labelNum (s.pushLoop LT.PROC_DATA).2.curProc := by
              have := k.cur
              unfold PS.curProc at this ⊢
              rw [pushLoop_procStack]
              exact this
            rw [e] at this
            rcases this with e | ⟨i, a, b, c⟩
            · unfold PS.jumpLabel at e; simp at e
            · have := jumpLabel_inj c
              omega
          unfold PS.setCode
          dsimp only
          rw [lookup_assign_ne _ _ (Ne.symm hne), pushLoop_procs, pushLoop_fst]
          exact k.fresh
        rw [emit_code]
        have hg : ∀ (z : PS) n l w, PS.code { (setLabel z n l) with curParams := w } = z.code := fun z n l w => by
          refine (code_congr (s := z) ?_ ?_) <;> simp [setLabel]
        rw [hg, hf]
        simp

/-! ## States where an alternative is tried

They are reached by moves from the initial state, so the invariants hold there. Nothing is said here about the items that the
grammar emits. -/

/-- Any item. -/
def anyItem (_ : DCode) : Prop := True

theorem lineRuns_moves {tab : Nat → PS → Res} {tr : Nat → PS → Nat × List PCode → PS → Prop}
    (htab : ∀ t s, (tab t s).All (Moves env anyItem s)) {e : Nat × List PCode} {x : PS}
    (h : ∀ t s, tr t s e x → Moves env anyItem s x) {l : List PCode} {s : PS} (hr : LineRuns (action env) tab tr l s e x) :
    Moves env anyItem s x := by
  induction hr with
  | @lit l cs s s1 e x h1 _ ih =>
    have h2 : (parseLiteral l s).All (Moves env anyItem s) := by
      unfold parseLiteral
      dsimp only
      split
      · exact Moves.same (by constructor <;> simp)
      · exact Moves.same (by constructor <;> simp)
    rw [h1] at h2
    exact .trans h2 (ih h)
  | @emit d cs s e x _ ih => exact .trans (emitBytes_moves d s fun _ _ => trivial) (ih h)
  | @ext b cs s s1 e x h1 _ ih =>
    have h2 := action_moves (env := env) (Gd := anyItem) b s
    rw [h1] at h2
    exact .trans h2 (ih h)
  | inside hr => exact h _ _ hr
  | @call t cs s s1 e x h1 _ ih =>
    have h2 := htab t s
    rw [h1] at h2
    exact .trans h2 (ih h)

theorem linesRuns_moves {n : Nat} {tab : Nat → PS → Res} {tr : Nat → PS → Nat × List PCode → PS → Prop} {sp : PS.Saved}
    (htab : ∀ t s, (tab t s).All (Moves env anyItem s)) {e : Nat × List PCode} {x : PS}
    (h : ∀ t s, tr t s e x → Moves env anyItem s x) {ls : List (List PCode)} {s : PS}
    (hr : LinesRuns (action env) n tab tr sp ls s e x) : Moves env anyItem s x := by
  induction hr with
  | here => exact .refl
  | inside hr => exact lineRuns_moves htab h hr
  | @next l ls s s1 e x h1 _ ih =>
    have h2 := parseLine_moves (env := env) (Gd := anyItem) htab l (fun _ _ _ _ _ _ => trivial) s
    rw [h1] at h2
    exact .trans (.trans h2 (Moves.one (.refl _) (.restore sp.opos) (by constructor <;> simp [PS.restore]))) (ih h)

theorem tableRuns_moves {G : Grammar} {m : Nat} {l : List PCode} {x : PS} (n : Nat) :
    ∀ t s, TableRuns (action env) G n t s (m, l) x → Moves env anyItem s x := by
  induction n with
  | zero => intro t s h; exact h.elim
  | succ n ih =>
    rintro t s ⟨tb, htb, hl, h⟩
    refine .trans (Moves.same (by constructor <;> simp [enterTable])) (linesRuns_moves ?_ ih h)
    exact fun t s => parseTable_moves (fun _ _ _ _ _ _ _ _ _ _ _ => trivial) n t s

theorem loopRuns_moves {ε : Type} {start : PS → Res} (hst : ∀ s, (start s).All (Moves env Gd s)) {sc : PS → ε → PS → Prop}
    {e : ε} {x : PS} (h : ∀ s, sc s e x → Moves env Gd s x) {ne : Expand → Expand} {n : Nat} {s : PS}
    (hl : LoopCalls start sc ne n s e x) : Moves env Gd s x := by
  induction hl with
  | here _ hx => exact h _ hx
  | @next n s s1 e x hp hs hc _ ih =>
    have h1 := hst s
    rw [hs] at h1
    exact .trans (h1.tail (.same (by constructor <;> simp))) (ih h)

theorem fileRuns_moves {ε : Type} {start : PS → Res} (hst : ∀ s, (start s).All (Moves env Gd s)) {sc : PS → ε → PS → Prop}
    {e : ε} {x : PS} (h : ∀ s, sc s e x → Moves env Gd s x) {all : Str} {n : Nat} {src : Str} {ln : Nat} {s : PS}
    (hall : ∀ c ∈ src, c ∈ all) (hl : FileCalls start sc n src ln s e x) : FMoves env Gd all s x := by
  induction hl with
  | @here n src ln s e x _ hx =>
    exact .head (.line _ ln fun c hc => hall c ((readLine_mem {} src).1 c hc)) (Moves.toF (loopRuns_moves hst h hx))
  | @next n src ln s s1 e x _ hs _ ih =>
    refine .trans (.head (.line _ ln fun c hc => hall c ((readLine_mem {} src).1 c hc)) (Moves.toF ?_))
      (ih h fun c hc => hall c ((readLine_mem {} src).2 c hc))
    exact lineLoop_moves hst _ _ _ _ hs

/-- A state where an alternative is tried is reached by moves. -/
theorem compileRuns_moves {G : Grammar} {start : Nat} {src : Str} {m : Nat} {l : List PCode} {x : PS}
    (h : CompileRuns (action env) G start src m l x) : FMoves env anyItem src initPS x :=
  fileRuns_moves (fun s => parseTable_moves (fun _ _ _ _ _ _ _ _ _ _ _ => trivial) _ _ s)
    (fun s hs => tableRuns_moves _ _ s hs) (fun _ h => h) h

end FB.Parse
