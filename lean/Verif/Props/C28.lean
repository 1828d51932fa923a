import Verif.Parse.Params
import Verif.Parse.Unique
import Verif.Props.C27

/-!
# C28: parameters of procedures

`CompileRuns (action env) AtariFp.grammar AtariFp.n_PARSE_START src m l x` says that, while the program `src` is compiled with
the shipped grammar, the alternative `l` of some table is tried in the state `x`.

* `C28_arguments_partial`: in an accepted program, an `EXEC` statement and a `PROC` statement with the same name, in any order: the
  code of the first pushes as many expressions as the code of the second pops to variables. The expressions are pushed in
  order, the variables are popped last to first, so argument `i` goes to parameter `i`.
* `C28_same_arguments_partial`: the same for two `EXEC` statements of the same name, even if there is no such procedure.
* `C28_defined_once_partial`: two `PROC` statements with the same name are the same place of the source.
* `C28_exec_data_refuted`, `C28_undefined_refuted`: the rest of the claim does not hold of the compiler.
-/

namespace FB.Parse

open Frame

/-- The alternative of table `STATEMENT` for `EXEC` (`/repo/src/syntax/basic.syn`, `EXEC_NAME E_LABEL_CREATE …`); see
`execLine_mem`. -/
def execLine : List PCode := [.call 69, .ext .LABEL_CREATE, .call 67, .emit [.token .CALL], .ext .DO_EXEC, .ret]

/-- The alternative of table `STATEMENT` for `PROC`; see `procLine_mem`. -/
def procLine : List PCode := [.lit [80, 82, 111, 99], .ext .LABEL_CREATE, .emit [.token .JUMP], .ext .LABEL_DEF,
  .emit [.byteSym AtariFp.y_LT_PROC_2], .ext .PUSH_LT, .call 70, .ret]

theorem execLine_mem : execLine ∈ AtariFp.t71.lines := by decide +kernel

theorem procLine_mem : procLine ∈ AtariFp.t71.lines := by decide +kernel

/-- The alternative `l` of the shipped grammar is tried in the state `x` and succeeds in the state `x'`. -/
def Statement (env : Env) (src : Str) (l : List PCode) (x x' : PS) : Prop :=
  ∃ m, CompileRuns (action env) AtariFp.grammar AtariFp.n_PARSE_START src m l x ∧
    parseLine (action env) (parseTable (action env) AtariFp.grammar m) l x = .ok x'

/-! ## The name -/

theorem action_lastLabel (env : Env) (a : Act) (ha : (a != .LABEL_CREATE) = true) (s : PS) :
    (action env a s).All (fun s' => s'.lastLabel = s.lastLabel) := by
  cases hl : labelAct a with
  | false => exact (action_sameTy env a s hl).mono fun _ h => h.1
  | true =>
    cases a <;> first | exact absurd hl (by decide) | exact absurd ha (by decide) | simp only [action]
    case DO_EXEC => simp only [eDoExec]; (repeat' split) <;> simp
    case PROC_CHECK => simp only [eProcCheck]; (repeat' split) <;> simp
    case LABEL_SET_TYPE =>
      simp only [eLabelSetType]; (repeat' split) <;> simp
      obtain ⟨c, cs, -, rfl, -⟩ := removeStr_code ‹_›
      simp
    case LABEL_DEF =>
      simp only [eLabelDef]; (repeat' split) <;> simp
      all_goals
        obtain ⟨cs, -, rfl⟩ := removeLast_code ‹_›
        simp

theorem lastLabelRel (env : Env) : OnlyRel (action env) (· != .LABEL_CREATE) (fun s s' => s'.lastLabel = s.lastLabel) where
  refl := fun _ => rfl
  trans := fun h g => g.trans h
  data := fun h => h.lastLabel
  act := fun a ha s => action_lastLabel env a ha s

theorem fp_keepLabel : checkOnly (· != .LABEL_CREATE) AtariFp.grammar (70 :: fpNoLabel) = true := by decide +kernel

/-! ## The code of the two statements -/

section
variable {env : Env} {src : Str} {x x' y y' : PS}

theorem andThen_ok {r : Res} {f : PS → Res} {s' : PS} (h : r.andThen f = .ok s') : ∃ s, r = .ok s ∧ f s = .ok s' := by
  cases r with
  | ok s => exact ⟨s, rfl, h⟩
  | fail s => cases h
  | err e => cases h

/-- The code of an `EXEC` statement. -/
theorem exec_shape (h : Statement env src execLine x x') :
    ∃ es : List (List CK), (∀ e ∈ es, IsExpr env e) ∧
      progCode x' = progCode x ++ (es.map (· ++ [.tok .PUSH])).flatten ++ [.tok .CALL, .wordStr (labelPrefix ++ x'.lastLabel)] ∧
      ∃ z, CompileCalls (action env) AtariFp.grammar AtariFp.n_PARSE_START src .DO_EXEC z ∧ z.curParams = es.length ∧
        z.lastLabel = x'.lastLabel := by
  obtain ⟨m, hr, h⟩ := h
  have hj := fp_runs_procJ hr
  unfold execLine at h
  simp only [parseLine] at h
  obtain ⟨s1, e1, h⟩ := andThen_ok h
  obtain ⟨s2, e2, h⟩ := andThen_ok h
  obtain ⟨s3, e3, h⟩ := andThen_ok h
  obtain ⟨s4, e4, h⟩ := andThen_ok h
  injection h with h
  subst h
  obtain ⟨h1, j1⟩ := table_sound env AtariFp.fpDisciplined m 69 _ rfl x [] x.code rfl .nil hj
  rw [e1] at h1 j1
  obtain ⟨top, rest, k1, k2, k3⟩ := h1
  obtain ⟨-, -, extra, k4, k5⟩ := k3 rfl
  have hc1 : s1.code = x.code := by
    cases k2
    rw [k1, k4, k5 rfl]; rfl
  have key2 : (eLabelCreate s1).All (fun s => s.procStack = s1.procStack ∧ s.procs = s1.procs ∧ s.jumps = s1.jumps) := by
    simp only [eLabelCreate]; (repeat' split) <;> simp [setLabel]
  have key2' : (eLabelCreate s1).Ok (fun s => s.curParams = 0) := by
    simp only [eLabelCreate]; (repeat' split) <;> simp [Res.Ok]
  rw [show eLabelCreate s1 = .ok s2 from e2] at key2 key2'
  obtain ⟨j3, es, hp3, hes, hc3⟩ := t67_shape (j1.same key2.2.2 key2.1) e3
  have e4' : eDoExec (emitBytes [.token .CALL] s3) = .ok s4 := e4
  unfold eDoExec at e4'
  dsimp only at e4'
  split at e4'
  · injection e4' with e4'
    refine ⟨es, hes, ?_, emitBytes [.token .CALL] s3, compileRuns_calls hr ?_, ?_, ?_⟩
    · have hs4 : s4.lastLabel = s3.lastLabel := by rw [← e4']; simp
      have : s4.code = [⟨.wordStr (labelPrefix ++ s4.lastLabel), s3.linenum⟩, ⟨.tok .CALL, s3.linenum⟩] ++ s3.code := by
        rw [hs4, ← e4', emit_code]
        have : ((setLabel (emitBytes [.token .CALL] s3) (emitBytes [.token .CALL] s3).lastLabel
            ((getLabel (emitBytes [.token .CALL] s3) (emitBytes [.token .CALL] s3).lastLabel).addParams
              ((emitBytes [.token .CALL] s3).curParams + 1)).2)).code = ⟨.tok .CALL, s3.linenum⟩ :: s3.code := by
          refine (code_congr (s := emitBytes [.token .CALL] s3) rfl rfl).trans ?_
          show (s3.emit _).code = _
          rw [emit_code]
          rfl
        rw [this]
        simp
      rw [progCode_of this, hc3, progCode_eq (code_congr key2.1 key2.2.1), progCode_eq hc1]
      simp
    · exact .call e1 (.ext e2 (.call e3 (.emit .here)))
    · rw [emitBytes_curParams, hp3, show s2.curParams = 0 from key2', Nat.zero_add]
    · rw [← e4']; simp
  · cases e4'

/-- The first part of a `PROC` statement. -/
theorem procLine_split : procLine = [.lit [80, 82, 111, 99], .ext .LABEL_CREATE, .emit [.token .JUMP], .ext .LABEL_DEF,
  .emit [.byteSym AtariFp.y_LT_PROC_2], .ext .PUSH_LT] ++ [.call 70, .ret] := rfl

/-- The code of a `PROC` statement. -/
theorem proc_shape (h : Statement env src procLine x x') :
    ∃ vs : List CK, (∀ v ∈ vs, v.isVarn = true) ∧
      progCode x' = .label (labelPrefix ++ x'.lastLabel) :: (vs.reverse.map popTo).flatten ∧
      ∃ z, CompileCalls (action env) AtariFp.grammar AtariFp.n_PARSE_START src .PROC_CHECK z ∧ z.curParams = vs.length + 1 ∧
        z.lastLabel = x'.lastLabel ∧ z.pos = x'.pos ∧ z.linenum = x'.linenum := by
  obtain ⟨m, hr, h⟩ := h
  have hj := fp_runs_procJ hr
  unfold procLine at h
  simp only [parseLine] at h
  obtain ⟨s1, e1, h⟩ := andThen_ok h
  obtain ⟨s2, e2, h⟩ := andThen_ok h
  obtain ⟨s3, e3, h⟩ := andThen_ok h
  obtain ⟨s4, e4, h⟩ := andThen_ok h
  obtain ⟨s5, e5, h⟩ := andThen_ok h
  injection h with h
  subst h
  have hpre : parseLine (action env) (parseTable (action env) AtariFp.grammar m) [.lit [80, 82, 111, 99], .ext .LABEL_CREATE,
      .emit [.token .JUMP], .ext .LABEL_DEF, .emit [.byteSym AtariFp.y_LT_PROC_2], .ext .PUSH_LT] x = .ok s4 := by
    simp only [parseLine, e1, e2, e3, e4, Res.andThen]
  have h0 : ASt.Holds ⟨[], true, true⟩ x.code x x :=
    ⟨[], x.code, rfl, .nil, fun _ => ⟨rfl, fun _ _ => rfl, [], rfl, fun _ => rfl⟩⟩
  have j4 : ProcJ s4 := by
    cases hck : checkLine AtariFp.ann [.lit [80, 82, 111, 99], .ext .LABEL_CREATE,
      .emit [.token .JUMP], .ext .LABEL_DEF, .emit [.byteSym AtariFp.y_LT_PROC_2], .ext .PUSH_LT] ⟨[], true, true⟩ with
    | none => exact absurd hck (by decide +kernel)
    | some a =>
      obtain ⟨-, h4⟩ := line_sound env (fun t b hb => table_sound env AtariFp.fpDisciplined m t b hb) hck h0 hj
      rw [hpre] at h4
      exact h4
  obtain ⟨j5, -, vs, hvs, hp5, hc5, z, hz, hz1, hz2, hz3, hz4⟩ := t70_shape j4 e5
  -- the label, in a procedure without code
  have hk2 : KeysOk s2 := by
    have hl : (parseLiteral [80, 82, 111, 99] x).All (Moves env anyItem x) := by
      unfold parseLiteral
      dsimp only
      split
      · exact Moves.same (by constructor <;> simp)
      · exact Moves.same (by constructor <;> simp)
    have ha := action_moves (env := env) (Gd := anyItem) .LABEL_CREATE s1
    rw [e1] at hl
    rw [e2] at ha
    exact (Moves.toF (src := src) (.trans hl ha)).keys ((compileRuns_moves hr).keys .init)
  obtain ⟨hp3, hl3⟩ : s3.code = [⟨.label (labelPrefix ++ s3.lastLabel), s2.linenum⟩] ∧ s3.curParams = 0 := by
    have e3' : eLabelDef (s2.emit (.tok .JUMP)) = .ok s3 := e3
    obtain ⟨g1, g2, -⟩ := eLabelDef_code (hk2.emit _) e3'
    exact ⟨by simpa using g1, g2⟩
  have hk4 : s4.code = s3.code ∧ s4.curParams = s3.curParams ∧ s4.lastLabel = s3.lastLabel := by
    have e4' : ePushLT (emitBytes [.byteSym AtariFp.y_LT_PROC_2] s3) = .ok s4 := e4
    have hr : removeLT (emitBytes [.byteSym AtariFp.y_LT_PROC_2] s3) =
        .ok (.PROC_2, (emitBytes [.byteSym AtariFp.y_LT_PROC_2] s3).setCode s3.code) := by
      have : (emitBytes [.byteSym AtariFp.y_LT_PROC_2] s3).code = ⟨.byteStr AtariFp.y_LT_PROC_2, s3.linenum⟩ :: s3.code := by
        show (s3.emit _).code = _
        rw [emit_code]
        rfl
      unfold removeLT removeStr PS.removeLast
      rw [this]
      rfl
    unfold ePushLT at e4'
    rw [hr] at e4'
    dsimp only at e4'
    injection e4' with e4'
    subst e4'
    refine ⟨?_, by simp, by simp⟩
    rw [code_congr (pushLoop_procStack _ _) (pushLoop_procs _ _), setCode_code]
  have hl5 : s5.lastLabel = s4.lastLabel := by
    have := onlyTable_rel (lastLabelRel env) fp_keepLabel m 70 (by decide) s4
    rw [e5] at this
    exact this
  refine ⟨vs, hvs, ?_, z, compileRuns_calls hr ?_, ?_, ?_, ?_, ?_⟩
  · rw [hc5, progCode_eq hk4.1, hl5, hk4.2.2]
    unfold progCode
    rw [hp3]
    rfl
  · exact .lit e1 (.ext e2 (.emit (.ext e3 (.emit (.ext e4 (.inside hz))))))
  · rw [hz1, hp5, hk4.2.1, hl3]; omega
  · exact hz4
  · exact hz2
  · exact hz3

/-! ## The counts -/

/-- The action records a number of parameters, plus one. -/
def counted : Act → PS → Nat
  | .DO_EXEC, s => s.curParams + 1
  | _, s => s.curParams

/-- Result of recording. -/
theorem counted_ok {a : Act} {z s : PS} (ha : a = .DO_EXEC ∨ a = .PROC_CHECK) (h : action env a z = .ok s) (hl : Lev (needLev a) z) :
    TyRel (labelTy z z.lastLabel) (labelTy s z.lastLabel) ∧ labelTy s z.lastLabel < 128 ∧
      labelTy s z.lastLabel % 64 = counted a z ∧ (a = .PROC_CHECK → 64 ≤ labelTy s z.lastLabel) := by
  rcases ha with rfl | rfl
  · have h : eDoExec z = .ok s := h
    unfold eDoExec at h
    dsimp only at h
    split at h
    · next hok =>
      injection h with h
      obtain ⟨k1, k2, k3, -, -⟩ := addParams_rel hok
      have ht : labelTy s z.lastLabel = ((getLabel z z.lastLabel).addParams (z.curParams + 1)).2.type := by
        rw [← h, labelTy_eq (s := setLabel z z.lastLabel ((getLabel z z.lastLabel).addParams (z.curParams + 1)).2) (by simp),
          labelTy_set, if_pos rfl]
      rw [ht]
      exact ⟨k1, k3 (hl.1 (Nat.le_refl 1)), k2, nofun⟩
    · cases h
  · have h : eProcCheck z = .ok s := h
    unfold eProcCheck at h
    dsimp only at h
    split at h
    · next hok =>
      injection h with h
      obtain ⟨k1, k2, k3, k4, -⟩ := addParams_rel hok
      have ht : labelTy s z.lastLabel = ((getLabel z z.lastLabel).addParams z.curParams).2.define.type := by
        rw [← h, labelTy_set, if_pos rfl]
      obtain ⟨o1, o2, o3, o4⟩ := or64 ((getLabel z z.lastLabel).addParams z.curParams).2.type
      rw [ht]
      refine ⟨k1.trans (define_rel _), ?_, ?_, fun _ => ?_⟩
      · exact o4 (k3 (hl.1 (by decide)))
      · exact o2.trans k2
      · exact o1
    · cases h

/-- Two records for the same name, the first before the second. -/
theorem counted_agree {a b : Act} {z w s t : PS} (ha : a = .DO_EXEC ∨ a = .PROC_CHECK) (hb : b = .DO_EXEC ∨ b = .PROC_CHECK)
    (hza : action env a z = .ok s) (hzb : action env b w = .ok t) (hla : Lev (needLev a) z) (hlb : Lev (needLev b) w)
    (hn : z.lastLabel = w.lastLabel) (hpos : 0 < counted a z) (hr : LabelRel s w) :
    counted a z = counted b w ∧ ¬ (a = .PROC_CHECK ∧ b = .PROC_CHECK) := by
  obtain ⟨-, k2, k3, k4⟩ := counted_ok ha hza hla
  obtain ⟨m1, m2, m3, -⟩ := counted_ok hb hzb hlb
  have h1 := hr z.lastLabel
  rw [← hn] at m1 m2 m3
  obtain ⟨g1, g2, g3⟩ := h1
  obtain ⟨f1, f2, f3⟩ := m1
  have hp : 0 < labelTy s z.lastLabel := by
    rcases Nat.eq_zero_or_pos (labelTy s z.lastLabel) with h | h
    · rw [h] at k3; omega
    · exact h
  have hw : labelTy w z.lastLabel < 128 := by
    rw [hn]
    rcases hb with rfl | rfl
    · exact hlb.1 (Nat.le_refl 1)
    · exact hlb.1 (by decide)
  obtain ⟨g4, g5⟩ := g3 hp
  obtain ⟨f4, f5⟩ := f3 g4
  refine ⟨by omega, ?_⟩
  rintro ⟨rfl, rfl⟩
  have := k4 rfl
  have h2 : labelTy w w.lastLabel < 64 := hlb.2 (Nat.le_refl 2)
  rw [← hn] at h2
  have := g2 this
  omega

/-- What is known of a call in an accepted program. -/
theorem counted_call {a : Act} {z s : PS} (ha : a = .DO_EXEC ∨ a = .PROC_CHECK)
    (hs : compile (fpStart env) src = .ok s)
    (h : CompileCalls (action env) AtariFp.grammar AtariFp.n_PARSE_START src a z) :
    Lev (needLev a) z ∧ ∃ t, action env a z = .ok t := by
  refine ⟨?_, ?_⟩
  · obtain ⟨s', h'⟩ := fileCalls_start h
    exact fp_lev (by decide) h'
  · have := compileCalls_noErr hs h
    have hnf : (action env a z).NoFail := by
      rcases ha with rfl | rfl
      · simp only [action, eDoExec]; split <;> trivial
      · simp only [action, eProcCheck]; split <;> trivial
    cases hr : action env a z with
    | ok t => exact ⟨t, rfl⟩
    | fail t => rw [hr] at hnf; exact hnf.elim
    | err e => exact absurd hr (this e)

/-- Two records for the same name. -/
theorem counted_same {a b : Act} {z w s : PS} (ha : a = .DO_EXEC ∨ a = .PROC_CHECK) (hb : b = .DO_EXEC ∨ b = .PROC_CHECK)
    (hs : compile (fpStart env) src = .ok s)
    (h1 : CompileCalls (action env) AtariFp.grammar AtariFp.n_PARSE_START src a z)
    (h2 : CompileCalls (action env) AtariFp.grammar AtariFp.n_PARSE_START src b w)
    (hn : z.lastLabel = w.lastLabel) (hp : 0 < counted a z) (hq : 0 < counted b w) :
    counted a z = counted b w ∧ (a = .PROC_CHECK → b = .PROC_CHECK → z = w) := by
  obtain ⟨l1, t1, e1⟩ := counted_call ha hs h1
  obtain ⟨l2, t2, e2⟩ := counted_call hb hs h2
  rcases compileCalls_trich (labelFileRel env) h1 h2 with ⟨rfl, rfl⟩ | h | h
  · exact ⟨rfl, fun _ _ => rfl⟩
  · rw [e1] at h
    obtain ⟨k1, k2⟩ := counted_agree ha hb e1 e2 l1 l2 hn hp h
    exact ⟨k1, fun g1 g2 => (k2 ⟨g1, g2⟩).elim⟩
  · rw [e2] at h
    obtain ⟨k1, k2⟩ := counted_agree hb ha e2 e1 l2 l1 hn.symm hq h
    exact ⟨k1.symm, fun g1 g2 => (k2 ⟨g2, g1⟩).elim⟩

/-! ## The theorems -/

/-- In an accepted program, `EXEC` and `PROC` statements with the same name, in any order. -/
theorem C28_arguments_partial {s : PS} (hs : compile (fpStart env) src = .ok s) (he : Statement env src execLine x x')
    (hp : Statement env src procLine y y') (hn : x'.lastLabel = y'.lastLabel) :
    ∃ (es : List (List CK)) (vs : List CK), es.length = vs.length ∧
      (∀ e ∈ es, IsExpr env e) ∧ (∀ v ∈ vs, v.isVarn = true) ∧
      progCode x' = progCode x ++ (es.map (· ++ [.tok .PUSH])).flatten ++ [.tok .CALL, .wordStr (labelPrefix ++ x'.lastLabel)] ∧
      progCode y' = .label (labelPrefix ++ x'.lastLabel) :: (vs.reverse.map popTo).flatten := by
  obtain ⟨es, h1, h2, z, h3, h4, h5⟩ := exec_shape he
  obtain ⟨vs, k1, k2, w, k3, k4, k5, -, -⟩ := proc_shape hp
  obtain ⟨g, -⟩ := counted_same (.inl rfl) (.inr rfl) hs h3 k3 (by rw [h5, k5, hn]) (Nat.succ_pos _)
    (by show 0 < w.curParams; omega)
  have g : z.curParams + 1 = w.curParams := g
  exact ⟨es, vs, by omega, h1, k1, h2, hn ▸ k2⟩

/-- Two `EXEC` statements with the same name. -/
theorem C28_same_arguments_partial {s : PS} (hs : compile (fpStart env) src = .ok s) (he : Statement env src execLine x x')
    (hp : Statement env src execLine y y') (hn : x'.lastLabel = y'.lastLabel) :
    ∃ es fs : List (List CK), es.length = fs.length ∧ (∀ e ∈ es, IsExpr env e) ∧ (∀ e ∈ fs, IsExpr env e) ∧
      progCode x' = progCode x ++ (es.map (· ++ [.tok .PUSH])).flatten ++ [.tok .CALL, .wordStr (labelPrefix ++ x'.lastLabel)] ∧
      progCode y' = progCode y ++ (fs.map (· ++ [.tok .PUSH])).flatten ++ [.tok .CALL, .wordStr (labelPrefix ++ x'.lastLabel)] := by
  obtain ⟨es, h1, h2, z, h3, h4, h5⟩ := exec_shape he
  obtain ⟨fs, k1, k2, w, k3, k4, k5⟩ := exec_shape hp
  obtain ⟨g, -⟩ := counted_same (.inl rfl) (.inl rfl) hs h3 k3 (by rw [h5, k5, hn]) (Nat.succ_pos _) (Nat.succ_pos _)
  have g : z.curParams + 1 = w.curParams + 1 := g
  exact ⟨es, fs, by omega, h1, k1, h2, hn ▸ k2⟩

/-- Two `PROC` statements with the same name are the same statement: they end at the same place of the source. -/
theorem C28_defined_once_partial {s : PS} (hs : compile (fpStart env) src = .ok s) (hx : Statement env src procLine x x')
    (hy : Statement env src procLine y y') (hn : x'.lastLabel = y'.lastLabel) : x'.linenum = y'.linenum ∧ x'.pos = y'.pos := by
  obtain ⟨vs, h1, h2, z, h3, h4, h5, h6, h7⟩ := proc_shape hx
  obtain ⟨ws, k1, k2, w, k3, k4, k5, k6, k7⟩ := proc_shape hy
  obtain ⟨-, g⟩ := counted_same (.inr rfl) (.inr rfl) hs h3 k3 (by rw [h5, k5, hn]) (by show 0 < z.curParams; omega)
    (by show 0 < w.curParams; omega)
  have := g rfl rfl
  subst this
  exact ⟨h7.symm.trans k7, h6.symm.trans k6⟩

end

/-! ## Examples and what does not hold -/

/-- The code of an accepted program and the types of its labels. -/
def codeAndLabels : CRes → Option (List (Str × List CK) × List (Str × Nat))
  | .ok s => some (s.procs.map fun p => (p.1, p.2.reverse.map CW.k), s.labels.map fun p => (p.1, p.2.type))
  | .err _ => none

/-- The hypotheses of the three theorems are met: `EXEC A 1,2` before `PROC A B C`. -/
example : (∃ s, compile (fpStart noEnv) (ofS "EXEC A 1,2\nPROC A B C\nENDPROC\n") = .ok s) ∧
    (∃ x x' y y', Statement noEnv (ofS "EXEC A 1,2\nPROC A B C\nENDPROC\n") execLine x x' ∧
      Statement noEnv (ofS "EXEC A 1,2\nPROC A B C\nENDPROC\n") procLine y y' ∧
      x'.lastLabel = ofS "A" ∧ y'.lastLabel = ofS "A") := by
  refine ⟨?_, ?_⟩
  · have h : (codeAndLabels (compile (fpStart noEnv) (ofS "EXEC A 1,2\nPROC A B C\nENDPROC\n"))).map Prod.snd =
      some [([65], 67)] := by decide +kernel
    revert h
    cases compile (fpStart noEnv) (ofS "EXEC A 1,2\nPROC A B C\nENDPROC\n") with
    | ok s => exact fun _ => ⟨s, rfl⟩
    | err e => exact nofun
  · have key : ∀ l, (compileRunTrace (action noEnv) AtariFp.grammar AtariFp.n_PARSE_START
        (ofS "EXEC A 1,2\nPROC A B C\nENDPROC\n")).any (fun e => e.1.2 = l &&
          match parseLine (action noEnv) (parseTable (action noEnv) AtariFp.grammar e.1.1) l e.2 with
          | .ok x => x.lastLabel = ofS "A"
          | _ => false) = true →
        ∃ x x', Statement noEnv (ofS "EXEC A 1,2\nPROC A B C\nENDPROC\n") l x x' ∧ x'.lastLabel = ofS "A" := by
      intro l hl
      obtain ⟨⟨⟨m, l'⟩, x⟩, hm, hx⟩ := List.any_eq_true.mp hl
      simp only [Bool.and_eq_true, decide_eq_true_eq] at hx
      obtain ⟨rfl, hx⟩ := hx
      split at hx
      · next x' hx' => exact ⟨x, x', ⟨m, compileRunTrace_runs hm, hx'⟩, by simpa using hx⟩
      · cases hx
    obtain ⟨x, x', h1, h2⟩ := key execLine (by decide +kernel)
    obtain ⟨y, y', h3, h4⟩ := key procLine (by decide +kernel)
    exact ⟨x, x', y, y', h1, h3, h2, h4⟩

/-- Other programs are rejected: a wrong number of arguments, a procedure defined twice. -/
example : codeAndLabels (compile (fpStart noEnv) (ofS "EXEC A 1\nPROC A B C\nENDPROC\n")) = none ∧
    codeAndLabels (compile (fpStart noEnv) (ofS "PROC A B\nENDPROC\nPROC A B\nENDPROC\n")) = none := by
  decide +kernel

/-- The claim that every procedure that is used is defined does not hold of the compiler itself: `EXEC A` alone is
accepted, and no label `fb_lbl_A` is in the code. (The assembler rejects the output.) -/
theorem C28_undefined_refuted : codeAndLabels (compile (fpStart noEnv) (ofS "EXEC A\n")) =
    some ([([], [.tok .CALL, .wordStr (labelPrefix ++ ofS "A"), .tok .END])], [(ofS "A", 1)]) := by
  decide +kernel

/-- Nor is it true of the output: `EXEC A` followed by the definition of the data array `A` is accepted, and the program calls
the bytes of the array as if they were code. (The other order is rejected.) -/
theorem C28_exec_data_refuted : codeAndLabels (compile (fpStart noEnv) (ofS "EXEC A\nDATA A()=1,2\n")) =
      some ([([], [.tok .CALL, .wordStr (labelPrefix ++ ofS "A"), .tok .END]),
        (ofS "jump_lbl_1", [.label (labelPrefix ++ ofS "A"), .word 1, .word 2])], [(ofS "A", 128)]) ∧
    codeAndLabels (compile (fpStart noEnv) (ofS "DATA A()=1,2\nEXEC A\n")) = none := by
  decide +kernel

end FB.Parse
