import Verif.Props.C16
import Verif.Parse.Labels

/-!
# Parameters of procedures

How many values an `EXEC` statement pushes and a `PROC` statement pops, and how many parameters they count. Auxiliary for
C28, models nothing by itself.
-/

namespace FB.Parse

open Frame

/-! ## The stack of procedures agrees with the stack of loops whenever an alternative is tried -/

section
variable {env : Env} {ann : Nat → Option TEff} {tab : Nat → PS → Res} {tr : Nat → PS → Nat × List PCode → PS → Prop}
  {e : Nat × List PCode} {x : PS}

/-- The state `s` has the elements that the table needs. -/
def Ready (b : TEff) (s : PS) : Prop := ProcJ s ∧ ∃ need base, s.code = need ++ base ∧ Matches b.need need

theorem ready_of_holds {a c : ASt} {b : TEff} {base : List CW} {s0 s : PS} (hs : a.seq b = some c) (h : a.Holds base s0 s)
    (hj : ProcJ s) : Ready b s := by
  unfold ASt.seq at hs
  split at hs
  · next hsub =>
    obtain ⟨top, rest, k1, k2, k3⟩ := h
    obtain ⟨c1, c2, rfl, h4, h5⟩ := subList_split k2 hsub
    exact ⟨hj, c1, c2 ++ rest, by rw [k1, List.append_assoc], h4⟩
  · cases hs

theorem lineRuns_procJ (htab : ∀ t b, ann t = some b → TabSound b (tab t))
    (htr : ∀ t b, ann t = some b → ∀ s, Ready b s → tr t s e x → ProcJ x) {l : List PCode} {s : PS}
    (h : LineRuns (action env) tab tr l s e x) {a b : ASt} (hl : checkLine ann l a = some b) {base : List CW} {s0 : PS}
    (hh : a.Holds base s0 s) (hj : ProcJ s) : ProcJ x := by
  have one : ∀ (c : PCode) (cs : List PCode) (s s1 : PS) (a : ASt), checkLine ann (c :: cs) a = some b →
      a.Holds base s0 s → ProcJ s → parseLine (action env) tab [c] s = .ok s1 → (∀ d, c ≠ .emitRet d) → c ≠ .ret →
      ∃ a', checkLine ann cs a' = some b ∧ a'.Holds base s0 s1 ∧ ProcJ s1 := by
    intro c cs s s1 a hl hh hj hr n1 n2
    have : ∃ a', checkLine ann [c] a = some a' ∧ checkLine ann cs a' = some b := by
      cases c with
      | lit l => exact ⟨a, rfl, hl⟩
      | emit d => exact ⟨_, rfl, hl⟩
      | emitRet d => exact absurd rfl (n1 d)
      | ext y =>
        simp only [checkLine, Option.bind_eq_some_iff] at hl ⊢
        obtain ⟨c, h2, h3⟩ := hl
        exact ⟨c, ⟨c, h2, rfl⟩, h3⟩
      | call t =>
        simp only [checkLine, Option.bind_eq_some_iff] at hl ⊢
        obtain ⟨c, h2, h3⟩ := hl
        exact ⟨c, ⟨c, h2, rfl⟩, h3⟩
      | ret => exact absurd rfl n2
    obtain ⟨a', h1, h2⟩ := this
    obtain ⟨h3, h4⟩ := line_sound env htab h1 hh hj
    rw [hr] at h3 h4
    exact ⟨a', h2, h3, h4⟩
  induction h generalizing a with
  | lit hr _ ih =>
    obtain ⟨a', h1, h2, h3⟩ := one _ _ _ _ a hl hh hj (by rw [parseLine, hr]; rfl) (by simp) (by simp)
    exact ih htr h1 h2 h3
  | emit _ ih =>
    obtain ⟨a', h1, h2, h3⟩ := one _ _ _ _ a hl hh hj rfl (by simp) (by simp)
    exact ih htr h1 h2 h3
  | ext hr _ ih =>
    obtain ⟨a', h1, h2, h3⟩ := one _ _ _ _ a hl hh hj (by rw [parseLine, hr]; rfl) (by simp) (by simp)
    exact ih htr h1 h2 h3
  | inside h =>
    simp only [checkLine, Option.bind_eq_some_iff] at hl
    obtain ⟨c, ⟨e, h1, h2⟩, h3⟩ := hl
    exact htr _ e h1 _ (ready_of_holds h2 hh hj) h
  | call hr _ ih =>
    obtain ⟨a', h1, h2, h3⟩ := one _ _ _ _ a hl hh hj (by rw [parseLine, hr]; rfl) (by simp) (by simp)
    exact ih htr h1 h2 h3

theorem linesRuns_procJ (htab : ∀ t b, ann t = some b → TabSound b (tab t))
    (htr : ∀ t b, ann t = some b → ∀ s, Ready b s → tr t s e x → ProcJ x) {b : TEff} {n : Nat} {sp : PS.Saved}
    {ls : List (List PCode)} {s : PS} (h : LinesRuns (action env) n tab tr sp ls s e x)
    (hn : b.need = [] ∨ ls.length ≤ 1) (hl : ∀ l ∈ ls, ∃ a, checkLine ann l ⟨b.need, true, true⟩ = some a)
    (hr : Ready b s) : ProcJ x := by
  induction h with
  | here => exact hr.1
  | @inside l ls s e x h =>
    obtain ⟨a, ha⟩ := hl l (by simp)
    obtain ⟨hj, need, base, hc, hm⟩ := hr
    exact lineRuns_procJ htab htr h ha (base := base) (s0 := s)
      ⟨need, base, hc, hm, fun _ => ⟨rfl, fun _ _ => rfl, [], rfl, fun _ => rfl⟩⟩ hj
  | @next l ls s s1 e x hf hr2 ih =>
    obtain ⟨a, ha⟩ := hl l (by simp)
    obtain ⟨hj, need, base, hc, hm⟩ := hr
    obtain ⟨-, h4⟩ := line_sound env htab ha (base := base) (s0 := s)
      ⟨need, base, hc, hm, fun _ => ⟨rfl, fun _ _ => rfl, [], rfl, fun _ => rfl⟩⟩ hj
    rw [hf] at h4
    rcases hn with hn | hn
    · exact ih htr (.inl hn) (fun l hl' => hl l (by simp [hl']))
        ⟨h4.same (by simp) (by simp), [], _, rfl, by rw [hn]; exact .nil⟩
    · have : ls = [] := by
        simp only [List.length_cons] at hn
        exact List.length_eq_zero_iff.1 (by omega)
      subst this
      cases hr2

theorem tableRuns_procJ {G : Grammar} (hd : Disciplined ann G) (n : Nat) :
    ∀ t b, ann t = some b → ∀ s, Ready b s → TableRuns (action env) G n t s e x → ProcJ x := by
  induction n with
  | zero => intro t b _ s _ h; exact h.elim
  | succ n ih =>
    rintro t b hb s ⟨hj, need, base, hc, hm⟩ ⟨tb, htb, hl, h⟩
    obtain ⟨T, hT, hck⟩ := hd t b hb
    rw [htb] at hT
    cases hT
    simp only [checkTable, Bool.and_eq_true, Bool.or_eq_true, List.isEmpty_iff, decide_eq_true_eq,
      List.all_eq_true] at hck
    have hE1 : (enterTable tb s).procStack = s.procStack := by simp [enterTable]
    have hE2 : (enterTable tb s).procs = s.procs := by simp [enterTable]
    have hE3 : (enterTable tb s).jumps = s.jumps := by simp [enterTable]
    refine linesRuns_procJ (fun t b hb => table_sound env hd n t b hb) ih h hck.1 (fun l hl => ?_)
      ⟨hj.same hE3 hE1, need, base, by rw [code_congr hE1 hE2, hc], hm⟩
    have := hck.2 l hl
    split at this
    · cases this
    · next a ha => exact ⟨a, ha⟩

/-- `ProcJ` between statements. -/
theorem loopRuns_procJ {start : PS → Res} {sc : PS → Nat × List PCode → PS → Prop} (hst : ∀ s, ProcJ s → (start s).All ProcJ)
    (hsc : ∀ s, ProcJ s → sc s e x → ProcJ x) {ne : Expand → Expand} {n : Nat} {s : PS}
    (h : LoopCalls start sc ne n s e x) (hj : ProcJ s) : ProcJ x := by
  induction h with
  | here _ h => exact hsc _ hj h
  | @next n s s1 e x _ hs _ _ ih =>
    have := hst s hj
    rw [hs] at this
    exact ih hsc (this.same (by simp) (by simp))

theorem loop_procJ {start : PS → Res} (hst : ∀ s, ProcJ s → (start s).All ProcJ) (ne : Expand → Expand) (n : Nat) :
    ∀ s s' : PS, ProcJ s → lineLoop start ne n s = .ok s' → ProcJ s' := by
  induction n with
  | zero => intro s s' _ h; simp [lineLoop] at h
  | succ n ih =>
    intro s s' hj h
    unfold lineLoop at h
    split at h
    · cases h; exact hj
    · have h0 := hst s hj
      split at h
      · cases h
      · cases h
      · next s1 heq =>
        rw [heq] at h0
        split at h
        · cases h
        · exact ih _ _ (h0.same (by simp) (by simp)) h

theorem fileRuns_procJ {start : PS → Res} {sc : PS → Nat × List PCode → PS → Prop} (hst : ∀ s, ProcJ s → (start s).All ProcJ)
    (hsc : ∀ s, ProcJ s → sc s e x → ProcJ x) {n : Nat} {src : Str} {ln : Nat} {s : PS}
    (h : FileCalls start sc n src ln s e x) (hj : ProcJ s) : ProcJ x := by
  induction h with
  | here _ h => exact loopRuns_procJ hst hsc h (hj.same rfl rfl)
  | @next n src ln s s1 e x _ hs _ ih =>
    unfold compileLine at hs
    exact ih hsc (loop_procJ hst _ _ (s.newLine _ ln) _ (hj.same rfl rfl) hs)

end

/-- With the shipped grammar, the two stacks agree whenever an alternative is tried. -/
theorem fp_runs_procJ {env : Env} {src : Str} {m : Nat} {l : List PCode} {x : PS}
    (h : CompileRuns (action env) AtariFp.grammar AtariFp.n_PARSE_START src m l x) : ProcJ x := by
  obtain ⟨b, hb, hn⟩ : ∃ b, AtariFp.ann AtariFp.n_PARSE_START = some b ∧ b.need = [] := ⟨_, rfl, rfl⟩
  refine fileRuns_procJ (fun s hj => ?_) (fun s hj h => ?_) h rfl
  · exact (table_sound env AtariFp.fpDisciplined _ _ b hb s [] s.code rfl (by rw [hn]; exact .nil) hj).2
  · exact tableRuns_procJ AtariFp.fpDisciplined _ _ b hb s ⟨hj, [], s.code, rfl, by rw [hn]; exact .nil⟩ h

/-! ## Actions that change neither the count of parameters nor the stack of variables -/

/-- Those actions. -/
def plainAct : Act → Bool
  | .COUNT_PARAM | .LABEL_CREATE | .LABEL_DEF | .PUSH_VAR | .POP_VAR => false
  | _ => true

/-- Same count and stack of variables. -/
def SameCnt (s s' : PS) : Prop := s'.curParams = s.curParams ∧ s'.varStk = s.varStk ∧ s'.linenum = s.linenum

theorem action_sameCnt (env : Env) (a : Act) (ha : plainAct a = true) (s : PS) : (action env a s).All (SameCnt s) := by
  unfold SameCnt
  cases a <;> simp only [action]
  case CONST_STRING => simp only [eConstString]; (repeat' split) <;> simp
  case COUNT_PARAM => cases ha
  case DATA_FILE => simp only [eDataFile]; (repeat' split) <;> simp
  case DO_EXEC => simp only [eDoExec]; (repeat' split) <;> simp
  case ELSEIF =>
    simp only [eElseIf]; (repeat' split) <;> simp
    next h =>
      obtain ⟨c, cs, n, -, rfl, -⟩ := removeLT_code h
      simp
  case EOL => simp only [eEol, eRem]; (repeat' split) <;> simp
  case EXIT_LOOP => simp only [eExitLoop]; (repeat' split) <;> simp
  case LABEL =>
    simp only [eLabel]; (repeat' split) <;> simp
    all_goals
      next h _ _ =>
        obtain ⟨c, cs, -, rfl, -⟩ := removeStr_code ‹_›
        simp
  case LABEL_CREATE => cases ha
  case LABEL_DEF => cases ha
  case LABEL_SET_TYPE =>
    simp only [eLabelSetType]; (repeat' split) <;> simp
    obtain ⟨c, cs, -, rfl, -⟩ := removeStr_code ‹_›
    simp
  case DATA_SET_ROM_SEG => simp [eDataSetRomSeg]
  case DATA_SET_SEGMENT => simp only [eDataSetSegment]; (repeat' split) <;> simp
  case NUMBER_BYTE => simp only [eNumberByte]; (repeat' split) <;> simp
  case NUMBER_FP => simp only [eNumberFp]; (repeat' split) <;> simp
  case NUMBER_WORD => simp only [eNumberWord]; (repeat' split) <;> simp
  case POP_FOR =>
    simp only [ePopFor]; (repeat' split) <;> simp
    obtain ⟨cs, -, rfl⟩ := removeLast_code ‹_›
    simp
  case POP_IF => simp only [ePopIf]; (repeat' split) <;> simp
  case POP_LOOP => simp only [ePopLoop]; (repeat' split) <;> simp
  case POP_PROC_2 => simp only [ePopProc2]; (repeat' split) <;> simp
  case POP_PROC_DATA =>
    simp only [ePopProcData, PS.popProc]; (repeat' split) <;> simp_all
    rename_i h
    split at h
    · cases h
    · split at h <;> simp at h; subst h; simp
  case POP_REPEAT => simp only [ePopRepeat]; (repeat' split) <;> simp
  case POP_VAR => cases ha
  case POP_WHILE => simp only [ePopWhile]; (repeat' split) <;> simp
  case PROC_CHECK => simp only [eProcCheck]; (repeat' split) <;> simp
  case PUSH_LT =>
    simp only [ePushLT]
    split
    · trivial
    · obtain ⟨c, cs, n, -, rfl, -⟩ := removeLT_code ‹_›
      (repeat' split) <;> simp
      obtain ⟨cs, -, rfl⟩ := removeLast_code ‹_›
      simp
  case PUSH_VAR => cases ha
  case REM => simp [eRem]
  case VAR_CREATE => simp only [eVarCreate]; (repeat' split) <;> simp
  case VAR_SEARCH =>
    simp only [eVarSearch, varCheck]; (repeat' split) <;> simp
    all_goals
      obtain ⟨c, cs, -, rfl, -⟩ := removeStr_code ‹_›
      simp
  case VAR_SET_TYPE =>
    simp only [eVarSetType]; (repeat' split) <;> simp
    all_goals
      obtain ⟨c, cs, -, rfl, -⟩ := removeStr_code ‹_›
      simp
  case VAR_WORD => simp only [eVarWord, varCheck]; (repeat' split) <;> simp

theorem sameCntRel (env : Env) : OnlyRel (action env) plainAct SameCnt where
  refl := fun _ => ⟨rfl, rfl, rfl⟩
  trans := fun h g => ⟨g.1.trans h.1, g.2.1.trans h.2.1, g.2.2.trans h.2.2⟩
  data := fun h => ⟨h.curParams, h.varStk, h.linenum⟩
  act := fun a ha s => action_sameCnt env a ha s

/-- Tables of the shipped grammar that only use those actions. -/
def fpPlain : List Nat :=
  (List.range 94).filter fun t => !([32, 36, 44, 52, 65, 67, 68, 70, 71, 72, 73, 74] : List Nat).contains t

theorem fp_plain : checkOnly plainAct AtariFp.grammar fpPlain = true := by decide +kernel

/-! ## What the tables for parameters do -/

/-- The code of the current procedure, in order, without line numbers. -/
def progCode (s : PS) : List CK := (s.code.map CW.k).reverse

theorem progCode_of {s s' : PS} {e : List CW} (h : s'.code = e ++ s.code) :
    progCode s' = progCode s ++ (e.map CW.k).reverse := by
  unfold progCode; rw [h]; simp

theorem progCode_eq {s s' : PS} (h : s'.code = s.code) : progCode s' = progCode s := by unfold progCode; rw [h]

theorem NoTrace.code_eq {s s' : PS} (h : NoTrace s s') : s'.code = s.code := by
  rw [FB.Parse.code_eq, FB.Parse.code_eq, curProc_eq h.current, h.code]

theorem NoTrace.save_eq {s s' : PS} (h : NoTrace s s') : s'.save = s.save := by
  unfold PS.save; rw [h.code_eq, h.pos, h.listing]

section
variable {env : Env} {n : Nat} {s s' : PS}

/-- A line that fails and opens no procedure. -/
theorem fail_back {l : List PCode} (hl : (checkLine AtariFp.ann l ⟨[], true, true⟩).map ASt.clean = some true)
    (hj : ProcJ s) {s1 : PS} (hf : parseLine (action env) (parseTable (action env) AtariFp.grammar n) l s = .fail s1)
    {sp : PS.Saved} (hsp : sp = s.save) : NoTrace s (s1.restore sp) ∧ ProcJ (s1.restore sp) := by
  subst hsp
  obtain ⟨a, hl, hcl⟩ := Option.map_eq_some_iff.mp hl
  refine ⟨C16_alternative_partial env AtariFp.fpDisciplined n l hl hcl s hj hf, ?_⟩
  have h0 : ASt.Holds ⟨[], true, true⟩ s.code s s :=
    ⟨[], s.code, rfl, .nil, fun _ => ⟨rfl, fun _ _ => rfl, [], rfl, fun _ => rfl⟩⟩
  obtain ⟨-, h4⟩ := line_sound env (fun t b hb => table_sound env AtariFp.fpDisciplined n t b hb) hl h0 hj
  rw [hf] at h4
  exact h4.same (by simp) (by simp)

/-- A table that succeeds and opens no procedure. -/
theorem table_adds {t : Nat} {b : TEff} (hb : AtariFp.ann t = some b) (hn : b.need = []) (hcl : b.out.clean = true)
    (hj : ProcJ s) (h : parseTable (action env) AtariFp.grammar n t s = .ok s') :
    ProcJ s' ∧ ∃ e, s'.code = e ++ s.code := by
  obtain ⟨h1, h2⟩ := table_sound env AtariFp.fpDisciplined n t b hb s [] s.code rfl (by rw [hn]; exact .nil) hj
  rw [h] at h1 h2
  obtain ⟨top, rest, k1, -, k3⟩ := h1
  obtain ⟨-, -, e, rfl, -⟩ := k3 hcl
  exact ⟨h2, top ++ e, by rw [k1, List.append_assoc]⟩

theorem table_ok {t : Nat} {tb : Table} (hG : AtariFp.grammar t = some tb)
    (h : parseTable (action env) AtariFp.grammar n t s = .ok s') :
    ∃ m, n = m + 1 ∧ s.lvl ≤ maxLevel ∧ parseLines (action env) (parseTable (action env) AtariFp.grammar m) (enterTable tb s).save tb.lines
      (enterTable tb s) = .ok s' := by
  cases n with
  | zero => cases h
  | succ m =>
    unfold parseTable at h
    rw [hG] at h
    dsimp only at h
    split at h
    · cases h
    · exact ⟨m, rfl, by omega, h⟩

theorem enter_code (tb : Table) (s : PS) : (enterTable tb s).code = s.code :=
  code_congr (by simp [enterTable]) (by simp [enterTable])

theorem enter_procJ (tb : Table) (hj : ProcJ s) : ProcJ (enterTable tb s) :=
  hj.same (by simp [enterTable]) (by simp [enterTable])

theorem lvl_code (s : PS) (k : Nat) : PS.code { s with lvl := k } = s.code := rfl

/-- The counter after a table without counting. -/
theorem table_cnt {t : Nat} (ht : t ∈ fpPlain) (s : PS) : (parseTable (action env) AtariFp.grammar n t s).All (SameCnt s) :=
  onlyTable_rel (sameCntRel env) fp_plain n t ht s

theorem fp_total : checkTotal AtariFp.grammar [68, 70] = true := by decide +kernel

/-- The code is what the table for expressions emits in some run. -/
def IsExpr (env : Env) (e : List CK) : Prop :=
  ∃ m u u', parseTable (action env) AtariFp.grammar m 13 u = .ok u' ∧ progCode u' = progCode u ++ e

/-- `C_EXPR`: a comma and an expression. -/
theorem t57_shape (hj : ProcJ s) (h : parseTable (action env) AtariFp.grammar n 57 s = .ok s') :
    ProcJ s' ∧ s'.curParams = s.curParams ∧ ∃ e, IsExpr env e ∧ progCode s' = progCode s ++ .tok .PUSH :: e := by
  have hc := table_cnt (env := env) (n := n) (t := 57) (by decide) s
  rw [h] at hc
  obtain ⟨m, rfl, -, h⟩ := table_ok (tb := AtariFp.t57) rfl h
  unfold AtariFp.t57 parseLines at h
  split at h
  · next s1 heq =>
    injection h with h
    subst h
    simp only [parseLine] at heq
    cases hl : parseLiteral [44] (enterTable AtariFp.t57 s) with
    | fail s2 => unfold AtariFp.t57 at hl; rw [hl] at heq; cases heq
    | err e => unfold AtariFp.t57 at hl; rw [hl] at heq; cases heq
    | ok s2 =>
      have hd := parseLiteral_data [44] (enterTable AtariFp.t57 s)
      rw [hl] at hd
      unfold AtariFp.t57 at hl
      rw [hl] at heq
      simp only [Res.andThen] at heq
      cases h3 : parseTable (action env) AtariFp.grammar m 13 (emitBytes [.token .PUSH] s2) with
      | fail s3 => rw [h3] at heq; cases heq
      | err e => rw [h3] at heq; cases heq
      | ok s3 =>
        rw [h3] at heq
        simp only [Res.andThen] at heq
        injection heq with heq
        subst heq
        have hj2 : ProcJ s2 := (enter_procJ AtariFp.t57 hj).same hd.2.2 hd.1
        obtain ⟨h5, e, h6⟩ := table_adds (t := 13) rfl rfl rfl (hj2.same (by simp) (by simp)) h3
        refine ⟨h5.same rfl rfl, hc.1, (e.map CW.k).reverse, ⟨m, _, _, h3, progCode_of h6⟩, ?_⟩
        rw [progCode_eq (lvl_code s3 _), progCode_of h6]
        have : (emitBytes [.token .PUSH] s2).code = [⟨.tok .PUSH, s2.linenum⟩] ++ s.code := by
          show (s2.emit _).code = _
          rw [emit_code, code_congr hd.1 hd.2.1, enter_code]
          rfl
        rw [progCode_of this]
        simp
  · next s1 heq => cases h
  · cases h

/-- `EXEC_PARAM_MORE`: counts one, and one more for each expression after a comma. -/
theorem t68_shape (hj : ProcJ s) (h : parseTable (action env) AtariFp.grammar n 68 s = .ok s') :
    ProcJ s' ∧ ∃ es : List (List CK), s'.curParams = s.curParams + 1 + es.length ∧ (∀ e ∈ es, IsExpr env e) ∧
      progCode s' = progCode s ++ (es.map (.tok .PUSH :: ·)).flatten := by
  induction n generalizing s s' with
  | zero => cases h
  | succ n ih =>
    obtain ⟨m, hm, -, h⟩ := table_ok (tb := AtariFp.t68) rfl h
    injection hm with hm
    subst hm
    obtain ⟨s0, hs0⟩ : ∃ s0, s0 = enterTable AtariFp.t68 s := ⟨_, rfl⟩
    have hj0 : ProcJ s0 := hs0 ▸ enter_procJ _ hj
    have hp0 : s0.curParams = s.curParams := by rw [hs0]; simp [enterTable]
    have hc0 : s0.code = s.code := by rw [hs0]; exact enter_code _ _
    rw [← hs0] at h
    unfold AtariFp.t68 at h
    dsimp only at h
    -- first line
    have l1 : parseLine (action env) (parseTable (action env) AtariFp.grammar n) [.ext .COUNT_PARAM, .ret] s0 =
        .fail { s0 with curParams := s0.curParams + 1 } := rfl
    obtain ⟨t1, j1⟩ := fail_back rfl hj0 l1 rfl
    rw [parseLines, l1] at h
    dsimp only at h
    obtain ⟨s1, hs1⟩ : ∃ s1, s1 = PS.restore { s0 with curParams := s0.curParams + 1 } s0.save := ⟨_, rfl⟩
    have hp1 : s1.curParams = s.curParams + 1 := by rw [hs1, restore_curParams, hp0]
    rw [← hs1] at h t1 j1
    have hc1 : s1.code = s.code := t1.code_eq.trans hc0
    -- second line
    unfold parseLines at h
    have h57 := table_cnt (env := env) (n := n) (t := 57) (by decide) s1
    cases e57 : parseTable (action env) AtariFp.grammar n 57 s1 with
    | err e => simp [parseLine, e57, Res.andThen] at h
    | ok s2 =>
      obtain ⟨j2, hp2, e, he, hc2⟩ := t57_shape j1 e57
      cases e68 : parseTable (action env) AtariFp.grammar n 68 s2 with
      | err e => simp [parseLine, e57, e68, Res.andThen] at h
      | fail s3 =>
        have := totalTable_sound (act := action env) fp_total n 68 (by decide) s2
        rw [e68] at this
        exact this.elim
      | ok s3 =>
        simp only [parseLine, e57, e68, Res.andThen] at h
        injection h with h
        subst h
        obtain ⟨j3, es, hp3, hes, hc3⟩ := ih j2 e68
        refine ⟨j3.same rfl rfl, e :: es, ?_, by simpa [he] using hes, ?_⟩
        · show s3.curParams = _
          rw [hp3, hp2, hp1, List.length_cons]; omega
        · rw [progCode_eq (lvl_code s3 _), hc3, hc2, progCode_eq hc1]
          simp
    | fail s2 =>
      rw [e57] at h57
      have l2 : parseLine (action env) (parseTable (action env) AtariFp.grammar n) [.call 57, .call 68, .ret] s1 = .fail s2 := by
        simp [parseLine, e57, Res.andThen]
      rw [l2] at h
      dsimp only at h
      obtain ⟨t2, j2⟩ := fail_back (by decide) j1 l2 t1.save_eq.symm
      simp only [parseLines, parseLine] at h
      injection h with h
      subst h
      refine ⟨j2.same rfl rfl, [], ?_, by simp, ?_⟩
      · show (s2.restore s0.save).curParams = _
        rw [restore_curParams, h57.1, hp1]; rfl
      · rw [progCode_eq ((lvl_code _ _).trans t2.code_eq), progCode_eq hc1]
        simp

theorem push_shift (e : List CK) (es : List (List CK)) (x : CK) :
    e ++ (es.map (x :: ·)).flatten ++ [x] = ((e :: es).map (· ++ [x])).flatten := by
  induction es generalizing e with
  | nil => simp
  | cons f es ih =>
    have := ih f
    simp only [List.map_cons, List.flatten_cons] at this ⊢
    rw [← this]
    simp

/-- `OPT_EXEC_PARAM`: pushes as many values as it counts. -/
theorem t67_shape (hj : ProcJ s) (h : parseTable (action env) AtariFp.grammar n 67 s = .ok s') :
    ProcJ s' ∧ ∃ es : List (List CK), s'.curParams = s.curParams + es.length ∧ (∀ e ∈ es, IsExpr env e) ∧
      progCode s' = progCode s ++ (es.map (· ++ [.tok .PUSH])).flatten := by
  obtain ⟨m, rfl, -, h⟩ := table_ok (tb := AtariFp.t67) rfl h
  obtain ⟨s0, hs0⟩ : ∃ s0, s0 = enterTable AtariFp.t67 s := ⟨_, rfl⟩
  have hj0 : ProcJ s0 := hs0 ▸ enter_procJ _ hj
  have hp0 : s0.curParams = s.curParams := by rw [hs0]; simp [enterTable]
  have hc0 : s0.code = s.code := by rw [hs0]; exact enter_code _ _
  rw [← hs0] at h
  unfold AtariFp.t67 at h
  dsimp only at h
  unfold parseLines at h
  have h13 := table_cnt (env := env) (n := m) (t := 13) (by decide) s0
  cases e13 : parseTable (action env) AtariFp.grammar m 13 s0 with
  | err e => simp [parseLine, e13, Res.andThen] at h
  | ok s2 =>
    rw [e13] at h13
    obtain ⟨j2, e, hc2⟩ := table_adds (t := 13) rfl rfl rfl hj0 e13
    cases e68 : parseTable (action env) AtariFp.grammar m 68 s2 with
    | err e => simp [parseLine, e13, e68, Res.andThen] at h
    | fail s3 =>
      have := totalTable_sound (act := action env) fp_total m 68 (by decide) s2
      rw [e68] at this
      exact this.elim
    | ok s3 =>
      simp only [parseLine, e13, e68, Res.andThen] at h
      injection h with h
      subst h
      obtain ⟨j3, es, hp3, hes, hc3⟩ := t68_shape j2 e68
      have he : IsExpr env (e.map CW.k).reverse := ⟨m, _, _, e13, progCode_of hc2⟩
      refine ⟨j3.same (by simp) (by simp), (e.map CW.k).reverse :: es, ?_,
        fun f hf => (List.mem_cons.mp hf).elim (fun h => h ▸ he) (hes f), ?_⟩
      · show (emitBytes [.token .PUSH] s3).curParams = _
        rw [emitBytes_curParams, hp3, h13.1, hp0, List.length_cons]; omega
      · have : PS.code { emitBytes [.token .PUSH] s3 with lvl := (emitBytes [.token .PUSH] s3).lvl - 1 } =
            [⟨.tok .PUSH, s3.linenum⟩] ++ s3.code := by
          rw [lvl_code]
          show (s3.emit _).code = _
          rw [emit_code]
          rfl
        rw [progCode_of this, hc3, progCode_of hc2, progCode_eq hc0]
        rw [← push_shift]
        simp
  | fail s2 =>
    rw [e13] at h13
    have l1 : parseLine (action env) (parseTable (action env) AtariFp.grammar m)
        [.call 13, .call 68, .emit [.token .PUSH], .ret] s0 = .fail s2 := by
      simp [parseLine, e13, Res.andThen]
    rw [l1] at h
    dsimp only at h
    obtain ⟨t1, j1⟩ := fail_back (by decide) hj0 l1 rfl
    simp only [parseLines, parseLine] at h
    injection h with h
    subst h
    refine ⟨j1.same rfl rfl, [], ?_, by simp, ?_⟩
    · show (s2.restore s0.save).curParams = _
      rw [restore_curParams, h13.1, hp0]; rfl
    · rw [progCode_eq ((lvl_code _ _).trans t1.code_eq), progCode_eq hc0]
      simp

/-- `VAR_CREATE_TYPE` leaves a type that is not an array. -/
theorem t33_shape (hj : ProcJ s) (h : parseTable (action env) AtariFp.grammar n 33 s = .ok s') :
    ∃ y ln, (getVarType y).isArray = false ∧ s'.code = ⟨.byteStr y, ln⟩ :: s.code := by
  obtain ⟨m, rfl, -, h⟩ := table_ok (tb := AtariFp.t33) rfl h
  obtain ⟨s0, hs0⟩ : ∃ s0, s0 = enterTable AtariFp.t33 s := ⟨_, rfl⟩
  have hj0 : ProcJ s0 := hs0 ▸ enter_procJ _ hj
  have hc0 : s0.code = s.code := by rw [hs0]; exact enter_code _ _
  rw [← hs0] at h
  unfold AtariFp.t33 at h
  dsimp only at h
  have one : ∀ (l y : Str) (s1 s2 : PS), ProcJ s1 → s1.save = s0.save → s1.code = s.code →
      (∀ s3, parseLine (action env) (parseTable (action env) AtariFp.grammar m) [.lit l, .emit [.byteSym y], .ret] s1 = .ok s3 →
        ∃ ln, PS.code { s3 with lvl := s3.lvl - 1 } = ⟨.byteStr y, ln⟩ :: s.code) ∧
      (∀ s3, parseLine (action env) (parseTable (action env) AtariFp.grammar m) [.lit l, .emit [.byteSym y], .ret] s1 = .fail s3 →
        ProcJ (s3.restore s0.save) ∧ (s3.restore s0.save).save = s0.save ∧ (s3.restore s0.save).code = s.code) := by
    intro l y s1 s2 hj1 hs1 hc1
    refine ⟨fun s3 h3 => ?_, fun s3 h3 => ?_⟩
    · simp only [parseLine] at h3
      have hd := parseLiteral_data l s1
      cases hl : parseLiteral l s1 with
      | fail s4 => rw [hl] at h3; cases h3
      | err e => rw [hl] at h3; cases h3
      | ok s4 =>
        rw [hl] at h3 hd
        simp only [Res.andThen] at h3
        injection h3 with h3
        subst h3
        refine ⟨s4.linenum, ?_⟩
        rw [lvl_code]
        show (s4.emit _).code = _
        rw [emit_code, code_congr hd.1 hd.2.1, hc1]
        rfl
    · obtain ⟨k1, k2⟩ := fail_back (by rfl) hj1 h3 hs1.symm
      exact ⟨k2, k1.save_eq.trans hs1, k1.code_eq.trans hc1⟩
  obtain ⟨a1, a2⟩ := one [36] AtariFp.y_VT_STRING s0 s0 hj0 rfl hc0
  unfold parseLines at h
  split at h
  · next s1 heq =>
    injection h with h
    subst h
    obtain ⟨ln, k⟩ := a1 _ heq
    exact ⟨_, ln, by decide, k⟩
  · next s1 heq =>
    obtain ⟨j1, v1, c1⟩ := a2 _ heq
    obtain ⟨b1, b2⟩ := one [37] AtariFp.y_VT_FLOAT _ s0 j1 v1 c1
    unfold parseLines at h
    split at h
    · next s2 heq =>
      injection h with h
      subst h
      obtain ⟨ln, k⟩ := b1 _ heq
      exact ⟨_, ln, by decide, k⟩
    · next s2 heq =>
      obtain ⟨j2, v2, c2⟩ := b2 _ heq
      simp only [parseLines, parseLine] at h
      injection h with h
      subst h
      refine ⟨AtariFp.y_VT_WORD, (s2.restore s0.save).linenum, by decide, ?_⟩
      rw [lvl_code]
      show ((s2.restore s0.save).emit _).code = _
      rw [emit_code, c2]
      rfl
    · cases h
  · cases h

/-- `VAR_WORD_SAVE` moves one integer variable to the stack of variables. -/
theorem t36_shape (hj : ProcJ s) :
    (∀ s', parseTable (action env) AtariFp.grammar n 36 s = .ok s' → ProcJ s' ∧ s'.curParams = s.curParams ∧ s'.code = s.code ∧
      ∃ name v ln, s'.varStk = ⟨.varn name v, ln⟩ :: s.varStk) ∧
    ∀ s', parseTable (action env) AtariFp.grammar n 36 s = .fail s' → s'.curParams = s.curParams ∧ s'.varStk = s.varStk := by
  cases n with
  | zero => exact ⟨fun _ h => (by cases h), fun _ h => (by cases h)⟩
  | succ m =>
    unfold parseTable
    rw [show AtariFp.grammar 36 = some AtariFp.t36 from rfl]
    dsimp only
    split
    · exact ⟨fun _ h => (by cases h), fun _ h => (by cases h)⟩
    obtain ⟨s0, hs0⟩ : ∃ s0, s0 = enterTable AtariFp.t36 s := ⟨_, rfl⟩
    have hj0 : ProcJ s0 := hs0 ▸ enter_procJ _ hj
    have hp0 : s0.curParams = s.curParams := by rw [hs0]; simp [enterTable]
    have hv0 : s0.varStk = s.varStk := by rw [hs0]; simp [enterTable]
    have hc0 : s0.code = s.code := by rw [hs0]; exact enter_code _ _
    rw [← hs0]
    unfold AtariFp.t36
    dsimp only
    -- the first alternative
    have hl : onlyLine plainAct fpPlain [.ext .VAR_CREATE, .call 33, .ext .VAR_SET_TYPE, .ret] = true := by decide
    have h1 := onlyLine_rel (sameCntRel env) (onlyTable_rel (sameCntRel env) fp_plain m) _ hl s0
    unfold parseLines
    split
    · next s1 heq =>
      refine absurd heq ?_
      simp only [parseLine, action]
      cases e1 : eVarCreate s0 with
      | fail s2 => simp [Res.andThen]
      | err e => simp [Res.andThen]
      | ok s2 =>
        simp only [Res.andThen]
        cases e2 : parseTable (action env) AtariFp.grammar m 33 s2 with
        | fail s3 => simp
        | err e => simp
        | ok s3 =>
          have j2 : ProcJ s2 := by
            have : (eVarCreate s0).All (fun s' => s'.jumps = s0.jumps ∧ s'.procStack = s0.procStack) := by
              simp only [eVarCreate]; (repeat' split) <;> simp
            rw [e1] at this
            exact hj0.same this.1 this.2
          obtain ⟨y, ln, ha, hc3⟩ := t33_shape j2 e2
          have hr : removeStr s3.skipws = .ok (y, s3.skipws.setCode s2.code) := by
            unfold removeStr PS.removeLast
            rw [code_congr (s := s3) (by simp) (by simp), hc3]
            rfl
          simp only [eVarSetType, hr, ha]
          simp
    · next s1 heq =>
      rw [heq] at h1
      obtain ⟨t1, j1⟩ := fail_back (by rfl) hj0 heq rfl
      obtain ⟨s2, hs2⟩ : ∃ s2, s2 = s1.restore s0.save := ⟨_, rfl⟩
      have hp2 : s2.curParams = s.curParams := by rw [hs2, restore_curParams, h1.1, hp0]
      have hv2 : s2.varStk = s.varStk := by rw [hs2, restore_varStk, h1.2.1, hv0]
      rw [← hs2] at t1 j1 ⊢
      have hc2 : s2.code = s.code := t1.code_eq.trans hc0
      unfold parseLines
      simp only [parseLine, action]
      cases e1 : eVarWord s2 with
      | err e => exact ⟨fun _ h => (by cases h), fun _ h => (by cases h)⟩
      | fail s3 =>
        have h3 := action_sameCnt env .VAR_WORD rfl s2
        simp only [action, e1] at h3
        simp only [Res.andThen, parseLines]
        refine ⟨fun _ h => (by cases h), fun s' h => ?_⟩
        injection h with h
        subst h
        simp [h3.1, h3.2.1, hp2, hv2]
      | ok s3 =>
        have h3 := action_sameCnt env .VAR_WORD rfl s2
        simp only [action, e1] at h3
        simp only [Res.andThen]
        obtain ⟨name, v, ln, hc3, hj3⟩ : ∃ name v ln, s3.code = ⟨.varn name v, ln⟩ :: s2.code ∧
            (s3.jumps = s2.jumps ∧ s3.procStack = s2.procStack) := by
          unfold eVarWord varCheck at e1
          dsimp only at e1
          split at e1
          · cases e1
          · next name hn =>
            split at e1
            · cases e1
            · split at e1
              · cases e1
              · injection e1 with e1
                subst e1
                refine ⟨name, (lookup name ((s2.getIdent.2.addText name).addSVar name).vars).getD 0 / 256,
                  ((s2.getIdent.2.addText name).addSVar name).linenum, ?_, by simp [emitVarn], by simp [emitVarn]⟩
                unfold emitVarn
                rw [emit_code]
                congr 1
                exact code_congr (by simp) (by simp)
        have hr : s3.removeLast = some (⟨.varn name v, ln⟩, s3.setCode s2.code) := by
          unfold PS.removeLast; rw [hc3]
        simp only [ePushVar, hr]
        refine ⟨fun s' h => ?_, fun _ h => (by cases h)⟩
        injection h with h
        subst h
        refine ⟨?_, ?_, ?_, name, v, ln, ?_⟩
        · exact (j1.same hj3.1 hj3.2).same (by simp) (by simp)
        · show (s3.setCode s2.code).curParams = _
          simp [h3.1, hp2]
        · show (s3.setCode s2.code).code = _
          rw [setCode_code, hc2]
        · show _ :: (s3.setCode s2.code).varStk = _
          simp [h3.2.1, hv2]
    · exact ⟨fun _ h => (by cases h), fun _ h => (by cases h)⟩

/-- What a `PROC` statement emits for one parameter. -/
def popTo (v : CK) : List CK := [.tok (.other "POP"), .tok .VAR_STORE, v]

/-- The element is a reference to a variable. -/
def CK.isVarn : CK → Bool
  | .varn _ _ => true
  | _ => false

/-- `OPT_PROC_VAR`: pops a value for each variable that it counts, the last variable first; it counts one more, and the
action `PROC_CHECK` sees that count. -/
theorem t70_shape (hj : ProcJ s) (h : parseTable (action env) AtariFp.grammar n 70 s = .ok s') :
    ProcJ s' ∧ s'.varStk = s.varStk ∧ ∃ vs : List CK, (∀ v ∈ vs, v.isVarn = true) ∧ s'.curParams = s.curParams + 1 + vs.length ∧
      progCode s' = progCode s ++ (vs.reverse.map popTo).flatten ∧
      ∃ y, TableCalls (action env) AtariFp.grammar n 70 s .PROC_CHECK y ∧ y.curParams = s'.curParams ∧
        y.pos = s'.pos ∧ y.linenum = s'.linenum ∧ y.lastLabel = s'.lastLabel := by
  induction n generalizing s s' with
  | zero => cases h
  | succ n ih =>
    obtain ⟨m, hm, hlvl, h⟩ := table_ok (tb := AtariFp.t70) rfl h
    injection hm with hm
    subst hm
    obtain ⟨s0, hs0⟩ : ∃ s0, s0 = enterTable AtariFp.t70 s := ⟨_, rfl⟩
    have hj0 : ProcJ s0 := hs0 ▸ enter_procJ _ hj
    have hp0 : s0.curParams = s.curParams := by rw [hs0]; simp [enterTable]
    have hv0 : s0.varStk = s.varStk := by rw [hs0]; simp [enterTable]
    have hc0 : s0.code = s.code := by rw [hs0]; exact enter_code _ _
    have hcalls : ∀ {y}, LinesCalls (action env) (parseTable (action env) AtariFp.grammar n)
        (TableCalls (action env) AtariFp.grammar n) s0.save AtariFp.t70.lines s0 .PROC_CHECK y →
        TableCalls (action env) AtariFp.grammar (n + 1) 70 s .PROC_CHECK y :=
      fun hy => ⟨AtariFp.t70, rfl, hlvl, hs0 ▸ hy⟩
    rw [← hs0] at h
    unfold AtariFp.t70 at h hcalls
    dsimp only at h hcalls
    -- first alternative
    have l1 : parseLine (action env) (parseTable (action env) AtariFp.grammar n) [.ext .COUNT_PARAM, .ret] s0 =
        .fail { s0 with curParams := s0.curParams + 1 } := rfl
    obtain ⟨t1, j1⟩ := fail_back rfl hj0 l1 rfl
    rw [parseLines, l1] at h
    dsimp only at h
    have hcalls1 := fun {y} hy => hcalls (y := y) (.next l1 hy)
    obtain ⟨s1, hs1⟩ : ∃ s1, s1 = PS.restore { s0 with curParams := s0.curParams + 1 } s0.save := ⟨_, rfl⟩
    have hp1 : s1.curParams = s.curParams + 1 := by rw [hs1, restore_curParams, hp0]
    have hv1 : s1.varStk = s.varStk := by rw [hs1, restore_varStk]; exact hv0
    rw [← hs1] at h t1 j1 hcalls1
    have hc1 : s1.code = s.code := t1.code_eq.trans hc0
    -- second alternative
    unfold parseLines at h
    obtain ⟨k1, k2⟩ := t36_shape (env := env) (n := n) j1
    cases e36 : parseTable (action env) AtariFp.grammar n 36 s1 with
    | err e => simp [parseLine, e36, Res.andThen] at h
    | ok s2 =>
      obtain ⟨j2, hp2, hc2, name, v, ln, hv2⟩ := k1 _ e36
      cases e70 : parseTable (action env) AtariFp.grammar n 70 s2 with
      | err e => simp [parseLine, e36, e70, Res.andThen] at h
      | fail s3 =>
        have := totalTable_sound (act := action env) fp_total n 70 (by decide) s2
        rw [e70] at this
        exact this.elim
      | ok s3 =>
        obtain ⟨j3, hv3, vs, hvs, hp3, hc3, y, hy, hyp, hyq, hyl, hyb⟩ := ih j2 e70
        have e5 : ePopVar (emitBytes [.token (.other "POP"), .token .VAR_STORE] s3) =
            .ok { ((emitBytes [.token (.other "POP"), .token .VAR_STORE] s3).setCode
              (⟨.varn name v, ln⟩ :: (emitBytes [.token (.other "POP"), .token .VAR_STORE] s3).code)) with varStk := s1.varStk } := by
          unfold ePopVar
          rw [emitBytes_varStk, hv3, hv2]
        simp only [parseLine, e36, e70, Res.andThen, action, e5] at h
        injection h with h
        subst h
        refine ⟨j3.same (by simp) (by simp), hv1, .varn name v :: vs, ?_, ?_, ?_, y, hcalls1 (.here (.call e36 (.inside hy))), ?_, ?_, ?_, ?_⟩
        · intro w hw
          rcases List.mem_cons.mp hw with rfl | hw
          · rfl
          · exact hvs w hw
        · dsimp only
          rw [setCode_curParams, emitBytes_curParams, hp3, hp2, hp1, List.length_cons]; omega
        · have : PS.code { (PS.setCode (emitBytes [.token (.other "POP"), .token .VAR_STORE] s3)
              (⟨.varn name v, ln⟩ :: (emitBytes [.token (.other "POP"), .token .VAR_STORE] s3).code)) with varStk := s1.varStk } =
              [⟨.varn name v, ln⟩, ⟨.tok .VAR_STORE, s3.linenum⟩, ⟨.tok (.other "POP"), s3.linenum⟩] ++ s3.code := by
            have hv : ∀ (z : PS) w, PS.code { z with varStk := w } = z.code := fun _ _ => rfl
            rw [hv, setCode_code]
            show _ :: ((s3.emit _).emit _).code = _
            rw [emit_code, emit_code]
            rfl
          refine (progCode_of this).trans ?_
          rw [hc3, progCode_eq hc2, progCode_eq hc1]
          simp [popTo]
        · dsimp only
          rw [hyp, setCode_curParams, emitBytes_curParams]
        · dsimp only
          rw [hyq, setCode_pos, emitBytes_pos]
        · dsimp only
          rw [hyl, setCode_linenum, emitBytes_linenum]
        · dsimp only
          rw [hyb, setCode_lastLabel, emitBytes_lastLabel]
    | fail s2 =>
      obtain ⟨hp2, hv2⟩ := k2 _ e36
      have l2 : parseLine (action env) (parseTable (action env) AtariFp.grammar n)
          [.call 36, .call 70, .emit [.token (.other "POP"), .token .VAR_STORE], .ext .POP_VAR, .ret] s1 = .fail s2 := by
        simp [parseLine, e36, Res.andThen]
      rw [l2] at h
      dsimp only at h
      obtain ⟨t2, j2⟩ := fail_back (by decide) j1 l2 t1.save_eq.symm
      have hcalls2 := fun {y} hy => hcalls1 (y := y) (.next l2 hy)
      obtain ⟨s3, hs3⟩ : ∃ s3, s3 = PS.restore s2 s0.save := ⟨_, rfl⟩
      have hp3 : s3.curParams = s.curParams + 1 := by rw [hs3, restore_curParams, hp2, hp1]
      have hv3 : s3.varStk = s.varStk := by rw [hs3, restore_varStk, hv2, hv1]
      rw [← hs3] at h t2 j2 hcalls2
      have hc3 : s3.code = s.code := t2.code_eq.trans hc1
      unfold parseLines at h
      simp only [parseLine, action, eProcCheck] at h
      have hchk := action_sameCnt env .PROC_CHECK rfl s3
      simp only [action, eProcCheck] at hchk
      split at h
      · next s4 heq =>
        split at heq
        · next hok =>
          rw [if_pos hok] at hchk
          injection h with h
          subst h
          injection heq with heq
          subst heq
          refine ⟨j2.same (by simp [setLabel]) (by simp [setLabel]), hchk.2.1.trans hv3, [], by simp, ?_, ?_, s3,
            hcalls2 (.here .here), hchk.1.symm, rfl, hchk.2.2.symm, rfl⟩
          · exact hchk.1.trans hp3
          · rw [progCode_eq (s := s) (by exact hc3)]
            simp
        · cases heq
      · next s4 heq =>
        split at heq
        · cases heq
        · cases heq
      · cases h

end

end FB.Parse
