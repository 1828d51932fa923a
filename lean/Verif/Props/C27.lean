import Verif.Parse.Calls
import Verif.Props.C26

/-!
# C27: a variable keeps its type

A *use* of a variable is a successful call of `var_check` (`parser-actions.cc:482-496`), from the actions `VAR_WORD` and
`VAR_SEARCH`, at any moment of the compilation: also in alternatives of the grammar that are abandoned later. `C27_type`
states that in every accepted program, every use of a name has the type that the name has at the end; so two uses never
disagree.
-/

namespace FB.Parse

open Frame

/-- Variables that have a type keep it, and their number. -/
def Keep (v v' : List (Str × Nat)) : Prop := ∀ name y, lookup name v = some y → y % 256 ≠ 0 → lookup name v' = some y

theorem Keep.refl (v : List (Str × Nat)) : Keep v v := fun _ _ h _ => h

theorem Keep.trans {a b c : List (Str × Nat)} (h : Keep a b) (g : Keep b c) : Keep a c :=
  fun n y hy h0 => g n y (h n y hy h0) h0

theorem VStep.keep {v v' : List (Str × Nat)} (h : VStep v v') (hv : VarsOk v) : Keep v v' := by
  obtain ⟨-, w, rfl⟩ := h hv
  intro n y hy _
  rw [lookup_append, hy]

/-- A variable that is being created is not protected. -/
theorem keep_new {v w : List (Str × Nat)} {name : Str} : Keep (v ++ [(name, 256 * v.length)]) (v ++ w) := by
  intro n y hy h0
  rw [lookup_append] at hy ⊢
  cases h : lookup n v with
  | some z => rw [h] at hy; exact hy
  | none =>
    rw [h] at hy
    simp only [lookup] at hy
    split at hy
    · injection hy with hy; subst hy; simp at h0
    · cases hy

/-- Type of the states after a parsing function: `Keep` from `x`. -/
abbrev KeepTo (x : PS) (s : PS) : Prop := Keep x.vars s.vars

section
variable {env : Env} {G : Grammar} {tab : Nat → PS → Res} {tc : Nat → PS → Act → PS → Prop} {P C : List Nat}
  {a : Act} {x : PS}

theorem pureLine_calls (htab : ∀ t ∈ P, ∀ s, (tab t s).All (SameVars s)) (htc : ∀ t ∈ P, ∀ s, tc t s a x → SameVars s x)
    {l : List PCode} {s : PS} (h : LineCalls (action env) tab tc l s a x) (hl : pureLine P l = true) : SameVars s x := by
  induction h with
  | @lit l cs s s1 a x hr _ ih =>
    simp only [pureLine, List.all_cons, Bool.and_eq_true] at hl
    refine SameVars.trans ?_ (ih htc hl.2)
    unfold parseLiteral at hr
    dsimp only at hr
    split at hr
    · cases hr; simp [SameVars]
    · cases hr
  | emit _ ih =>
    simp only [pureLine, List.all_cons, Bool.and_eq_true] at hl
    exact SameVars.trans (by simp [SameVars]) (ih htc hl.2)
  | here => exact sameVars_refl _
  | @ext b cs s s1 a x hr _ ih =>
    simp only [pureLine, List.all_cons, Bool.and_eq_true] at hl
    obtain ⟨h1, h2⟩ := noVarAct_ne hl.1
    have := action_sameVars env b s h1 h2
    rw [hr] at this
    exact SameVars.trans this (ih htc hl.2)
  | @inside t cs s a x h =>
    simp only [pureLine, List.all_cons, Bool.and_eq_true] at hl
    exact htc t (by simpa using hl.1) s h
  | @call t cs s s1 a x hr _ ih =>
    simp only [pureLine, List.all_cons, Bool.and_eq_true] at hl
    have := htab t (by simpa using hl.1) s
    rw [hr] at this
    exact SameVars.trans this (ih htc hl.2)

theorem pureLines_calls (htab : ∀ t ∈ P, ∀ s, (tab t s).All (SameVars s)) (htc : ∀ t ∈ P, ∀ s, tc t s a x → SameVars s x)
    {sp : PS.Saved} {ls : List (List PCode)} {s : PS} (h : LinesCalls (action env) tab tc sp ls s a x)
    (hl : ls.all (pureLine P) = true) : SameVars s x := by
  induction h with
  | here h =>
    simp only [List.all_cons, Bool.and_eq_true] at hl
    exact pureLine_calls htab htc h hl.1
  | @next l ls s s1 a x hr _ ih =>
    simp only [List.all_cons, Bool.and_eq_true] at hl
    have := pureLine_sound (env := env) htab l hl.1 s
    rw [hr] at this
    exact SameVars.trans (SameVars.trans this (by simp [SameVars])) (ih htc hl.2)

theorem pureTable_calls (hP : checkPure G P = true) (n : Nat) :
    ∀ t ∈ P, ∀ s, TableCalls (action env) G n t s a x → SameVars s x := by
  induction n with
  | zero => intro t _ s h; exact h.elim
  | succ n ih =>
    rintro t ht s ⟨tb, htb, -, h⟩
    have hl := List.all_eq_true.mp hP t ht
    rw [htb] at hl
    exact SameVars.trans (by simp [SameVars, enterTable]) (pureLines_calls (pureTable_sound hP n) ih h hl)

/-- The last part of a line that creates a variable. -/
theorem create_tail_calls (hP : ∀ t ∈ P, ∀ s, (tab t s).All (SameVars s))
    (hC : ∀ t ∈ C, ∀ s, (tab t s).All (SameVars s) ∧ (tab t s).NoFail ∧ (tab t s).Ok TypeTop)
    (htc : ∀ t ∈ P, ∀ s, tc t s a x → SameVars s x) (htcC : ∀ t ∈ C, ∀ s, tc t s a x → SameVars s x)
    {t : Nat} (ht : t ∈ C) (cs : List PCode) (hcs : pureLine P cs = true) {s0 s1 : PS} {name : Str} (hi : Ident name)
    (hv0 : VarsOk s0.vars)
    (hn : lookup name s0.vars = none) (hv : s1.vars = s0.vars ++ [(name, 256 * s0.vars.length)]) (hl : s1.lastVar = name)
    (h : LineCalls (action env) tab tc (.call t :: .ext .VAR_SET_TYPE :: cs) s1 a x) :
    (parseLine (action env) tab (.call t :: .ext .VAR_SET_TYPE :: cs) s1).All (KeepTo x) := by
  have hfin := create_tail (env := env) hP hC ht cs hcs hi hn hv hl
  have mid : ∀ x : PS, x.vars = s1.vars → ∀ s', VStep s0.vars s'.vars → KeepTo x s' := by
    intro x hx s' hs'
    obtain ⟨-, w, hw⟩ := hs' hv0
    rw [KeepTo, hx, hv, hw]
    exact keep_new
  cases h with
  | inside h => exact hfin.mono (mid x (htcC t ht s1 h).1)
  | @call _ _ _ s2 _ _ hr h =>
    have h1 := (hC t ht s1).1
    rw [hr] at h1
    cases h with
    | here => exact hfin.mono (mid x h1.1)
    | @ext _ _ _ s3 _ _ hr2 h =>
      have hx := pureLine_calls hP htc h hcs
      have hf := pureLine_sound (env := env) hP cs hcs s3
      simp only [parseLine, hr, hr2, Res.andThen]
      exact hf.mono fun s' hs' => by rw [KeepTo, hx.1, hs'.1]; exact Keep.refl _

theorem createLine_calls (hP : ∀ t ∈ P, ∀ s, (tab t s).All (SameVars s))
    (hC : ∀ t ∈ C, ∀ s, (tab t s).All (SameVars s) ∧ (tab t s).NoFail ∧ (tab t s).Ok TypeTop)
    (htc : ∀ t ∈ P, ∀ s, tc t s a x → SameVars s x) (htcC : ∀ t ∈ C, ∀ s, tc t s a x → SameVars s x)
    (l : List PCode) (hl : createLine P C l = true) {s : PS} (hv : VarsOk s.vars) (h : LineCalls (action env) tab tc l s a x) :
    (parseLine (action env) tab l s).All (KeepTo x) := by
  have hfin := createLine_sound (env := env) hP hC l hl s
  have hcreate : ∀ cs, LineCalls (action env) tab tc (.ext .VAR_CREATE :: cs) s a x →
      (∀ s1 name, action env .VAR_CREATE s = .ok s1 → Ident name → lookup name s.vars = none →
        s1.vars = s.vars ++ [(name, 256 * s.vars.length)] → s1.lastVar = name → LineCalls (action env) tab tc cs s1 a x →
        (parseLine (action env) tab cs s1).All (KeepTo x)) → l = .ext .VAR_CREATE :: cs →
      (parseLine (action env) tab l s).All (KeepTo x) := by
    rintro cs h hcs rfl
    cases h with
    | here => exact hfin.mono fun s' hs' => VStep.keep hs' hv
    | @ext _ _ _ s1 _ _ hr h =>
      have hr' := hr
      simp only [action, eVarCreate] at hr'
      split at hr'
      · cases hr'
      · next name hname =>
        split at hr'
        · cases hr'
        · next hlk =>
          have hlk : lookup name s.vars = none := by simpa using hlk
          simp only [parseLine, hr, Res.andThen]
          injection hr' with hr'
          refine hcs s1 name hr (getIdent_ident hname) hlk ?_ ?_ h
          · rw [← hr']; simp [assign_new hlk]
          · rw [← hr']; simp
  have hl' := hl
  unfold createLine at hl'
  split at hl'
  · next t cs =>
    simp only [Bool.and_eq_true] at hl'
    refine hcreate _ h (fun s1 name _ h1 h2 h3 h4 h5 => ?_) rfl
    exact create_tail_calls hP hC htc htcC (by simpa using hl'.1) cs hl'.2 h1 hv h2 h3 h4 h5
  · next t cs =>
    simp only [Bool.and_eq_true] at hl'
    refine hcreate _ h (fun s1 name _ h1 h2 h3 h4 h5 => ?_) rfl
    have e := action_sameVars env .PUSH_VAR s1 (by decide) (by decide)
    have nf := pushVar_noFail s1
    cases h5 with
    | here =>
      -- the state right after the creation
      have : (parseLine (action env) tab (.ext .PUSH_VAR :: .call t :: .ext .VAR_SET_TYPE :: cs) x).All
          (fun s' => VStep s.vars s'.vars) := by
        simp only [parseLine]
        simp only [action] at e ⊢
        cases hr : ePushVar x with
        | fail s2 => rw [hr] at nf; exact nf.elim
        | err e => trivial
        | ok s2 =>
          rw [hr] at e
          exact create_tail (env := env) hP hC (by simpa using hl'.1) cs hl'.2 h1 h2 (e.1.trans h3) (e.2.trans h4)
      refine this.mono fun s' hs' => ?_
      obtain ⟨-, w, hw⟩ := hs' hv
      rw [KeepTo, h3, hw]
      exact keep_new
    | @ext _ _ _ s2 _ _ hr h5 =>
      rw [hr] at e
      have := create_tail_calls hP hC htc htcC (by simpa using hl'.1) cs hl'.2 h1 hv h2 (e.1.trans h3) (e.2.trans h4) h5
      rw [parseLine, hr]
      exact this
  · cases hl'

theorem plainLine_calls (htab : ∀ t s, (tab t s).All (fun s' => VStep s.vars s'.vars))
    (htc : ∀ t s, VarsOk s.vars → tc t s a x → (tab t s).All (KeepTo x))
    {l : List PCode} {s : PS} (h : LineCalls (action env) tab tc l s a x) (hl : plainLine l = true) (hv : VarsOk s.vars) :
    (parseLine (action env) tab l s).All (KeepTo x) := by
  induction h with
  | @lit l cs s s1 a x hr _ ih =>
    simp only [plainLine, List.all_cons, Bool.and_eq_true] at hl
    have e : s1.vars = s.vars := by
      have := hr
      unfold parseLiteral at this
      dsimp only at this
      split at this
      · cases this; simp
      · cases this
    rw [parseLine, hr]
    exact ih htc hl.2 (e ▸ hv)
  | emit _ ih =>
    simp only [plainLine, List.all_cons, Bool.and_eq_true] at hl
    exact ih htc hl.2 (by simpa using hv)
  | @here a cs s => exact (plainLine_sound htab _ hl s).mono fun s' hs' => VStep.keep hs' hv
  | @ext b cs s s1 a x hr _ ih =>
    simp only [plainLine, List.all_cons, Bool.and_eq_true] at hl
    obtain ⟨h1, h2⟩ := noVarAct_ne hl.1
    have := action_sameVars env b s h1 h2
    rw [hr] at this
    rw [parseLine, hr]
    exact ih htc hl.2 (this.1 ▸ hv)
  | @inside t cs s a x h =>
    simp only [plainLine, List.all_cons, Bool.and_eq_true] at hl
    have h1 := htc t s hv h
    have h2 := htab t s
    simp only [parseLine]
    cases hr : tab t s with
    | err e => trivial
    | fail s1 => rw [hr] at h1; exact h1
    | ok s1 =>
      rw [hr] at h1 h2
      exact (plainLine_sound htab cs hl.2 s1).mono fun s' hs' => Keep.trans h1 (VStep.keep hs' (h2 hv).1)
  | @call t cs s s1 a x hr _ ih =>
    simp only [plainLine, List.all_cons, Bool.and_eq_true] at hl
    have h2 := htab t s
    rw [hr] at h2
    rw [parseLine, hr]
    exact ih htc hl.2 (h2 hv).1

theorem varLines_calls {ls : List (List PCode)}
    (hls : ∀ l ∈ ls, ∀ s, (parseLine (action env) tab l s).All (fun s' => VStep s.vars s'.vars))
    (hlc : ∀ l ∈ ls, ∀ s, VarsOk s.vars → LineCalls (action env) tab tc l s a x → (parseLine (action env) tab l s).All (KeepTo x))
    {sp : PS.Saved} {s : PS} (hv : VarsOk s.vars) (h : LinesCalls (action env) tab tc sp ls s a x) :
    (parseLines (action env) tab sp ls s).All (KeepTo x) := by
  induction h with
  | @here l ls s a x h =>
    have h1 := hlc l (by simp) s hv h
    have h2 := hls l (by simp) s
    unfold parseLines
    split
    · next s1 heq => rw [heq] at h1; exact h1
    · next s1 heq =>
      rw [heq] at h1 h2
      have h3 : VarsOk (s1.restore sp).vars := by simpa using (h2 hv).1
      exact (varLines_sound (fun l hl => hls l (by simp [hl])) sp (s1.restore sp)).mono fun s' hs' =>
        Keep.trans (by simpa using h1) (VStep.keep hs' h3)
    · trivial
  | @next l ls s s1 a x hr _ ih =>
    have h2 := hls l (by simp) s
    unfold parseLines
    rw [hr] at h2 ⊢
    exact ih (fun l hl => hls l (by simp [hl])) (fun l hl => hlc l (by simp [hl])) (by simpa using (h2 hv).1)

theorem varTable_calls {N : Nat} {P T V C : List Nat} (hG : checkVars G N P T V C = true) (hN : ∀ t, N ≤ t → G t = none)
    (n t : Nat) (s : PS) (hv : VarsOk s.vars) (h : TableCalls (action env) G n t s a x) :
    (parseTable (action env) G n t s).All (KeepTo x) := by
  have hG' := hG
  simp only [checkVars, Bool.and_eq_true] at hG
  obtain ⟨⟨⟨⟨h1, h2⟩, h3⟩, h4⟩, h5⟩ := hG
  induction n generalizing t s with
  | zero => exact h.elim
  | succ n ih =>
    obtain ⟨tb, htb, hlv, h⟩ := h
    have hP := pureTable_sound (env := env) h1 n
    have hPc := pureTable_calls (env := env) (a := a) (x := x) h1 n
    have hC : ∀ t ∈ C, ∀ s, (parseTable (action env) G n t s).All (SameVars s) ∧ (parseTable (action env) G n t s).NoFail ∧
        (parseTable (action env) G n t s).Ok TypeTop := by
      intro t ht s
      have h := List.all_eq_true.mp h4 t ht
      simp only [Bool.and_eq_true, List.contains_iff_mem] at h
      exact ⟨hP t h.1.1 s, totalTable_sound h2 n t h.1.2 s, typeTable_sound h3 n t h.2 s⟩
    have hCc : ∀ t ∈ C, ∀ s, TableCalls (action env) G n t s a x → SameVars s x := by
      intro t ht s
      have h := List.all_eq_true.mp h4 t ht
      simp only [Bool.and_eq_true, List.contains_iff_mem] at h
      exact hPc t h.1.1 s
    have ht : t < N := by
      refine Decidable.byContradiction fun h => ?_
      rw [hN t (by omega)] at htb
      cases htb
    have hall := List.all_eq_true.mp h5 t (List.mem_range.mpr ht)
    rw [htb] at hall
    have hall := List.all_eq_true.mp hall
    unfold parseTable
    rw [htb]
    dsimp only
    rw [if_neg (by omega)]
    refine varLines_calls ?_ ?_ (by simpa [enterTable] using hv) h
    · intro l hl s
      have h := hall l hl
      simp only [Bool.or_eq_true] at h
      rcases h with h | h
      · exact plainLine_sound (fun t s => varTable_sound hG' hN n t s) l h s
      · exact createLine_sound hP hC l h s
    · intro l hl s hv hc
      have h := hall l hl
      simp only [Bool.or_eq_true] at h
      rcases h with h | h
      · exact plainLine_calls (fun t s => varTable_sound hG' hN n t s) ih hc h hv
      · exact createLine_calls hP hC hPc hCc l h hv hc

/-! ## The whole compilation -/

theorem loop_calls {start : PS → Res} {sc : PS → Act → PS → Prop} (hst : ∀ s, (start s).All (fun s' => VStep s.vars s'.vars))
    (hsc : ∀ s, VarsOk s.vars → sc s a x → (start s).All (KeepTo x)) {ne : Expand → Expand} {n : Nat} {s s' : PS}
    (hv : VarsOk s.vars) (h : LoopCalls start sc ne n s a x) (hr : lineLoop start ne n s = .ok s') : KeepTo x s' := by
  induction h with
  | @here n s a x hp h =>
    unfold lineLoop at hr
    rw [if_neg hp] at hr
    have h1 := hsc s hv h
    have h2 := hst s
    split at hr
    · cases hr
    · cases hr
    · next s1 heq =>
      rw [heq] at h1 h2
      split at hr
      · cases hr
      · exact Keep.trans h1 (VStep.keep (VStep.trans (VStep.of_eq (by simp)) (lineLoop_vars hst _ _ _ _ hr)) (h2 hv).1)
  | @next n s s1 a x hp hs hc _ ih =>
    unfold lineLoop at hr
    rw [if_neg hp, hs] at hr
    dsimp only at hr
    rw [if_neg hc] at hr
    have h2 := hst s
    rw [hs] at h2
    exact ih hsc (by simpa using (h2 hv).1) hr

theorem file_calls {start : PS → Res} {sc : PS → Act → PS → Prop} (hst : ∀ s, (start s).All (fun s' => VStep s.vars s'.vars))
    (hsc : ∀ s, VarsOk s.vars → sc s a x → (start s).All (KeepTo x)) {n : Nat} {src : Str} {ln : Nat} {s s' : PS}
    (hv : VarsOk s.vars) (h : FileCalls start sc n src ln s a x) (hr : compileLines start n src ln s = .ok s') :
    KeepTo x s' := by
  induction h with
  | @here n src ln s a x hp h =>
    unfold compileLines at hr
    dsimp only at hr
    rw [if_neg hp] at hr
    split at hr
    · cases hr
    · next s1 heq =>
      have h1 := loop_calls hst hsc (by simpa [PS.newLine] using hv) h heq
      exact Keep.trans h1 (VStep.keep (compileLines_vars hst _ _ _ _ _ hr) ((compileLine_vars hst heq) hv).1)
  | @next n src ln s s1 a x hp hs _ ih =>
    unfold compileLines at hr
    dsimp only at hr
    rw [if_neg hp, hs] at hr
    exact ih hsc ((compileLine_vars hst hs) hv).1 hr

end

/-! ## The type asked for -/

/-- In the line, `VAR_SEARCH` comes right after the name of a type. -/
def searchLine (prev : Bool) : List PCode → Bool
  | [] => true
  | .ext .VAR_SEARCH :: cs => prev && searchLine false cs
  | .emit ds :: cs => searchLine ((ds.getLast?.map isTypeSym).getD false) cs
  | _ :: cs => searchLine false cs

theorem searchLine_calls {act : Act → PS → Res} {tab : Nat → PS → Res} {tc : Nat → PS → Act → PS → Prop}
    (htc : ∀ t s x, tc t s .VAR_SEARCH x → TypeTop x) {l : List PCode} {s x : PS} {a : Act}
    (h : LineCalls act tab tc l s a x) (ha : a = .VAR_SEARCH) (prev : Bool) (hs : prev = true → TypeTop s)
    (hl : searchLine prev l = true) : TypeTop x := by
  induction h generalizing prev with
  | lit _ _ ih => exact ih ha false nofun hl
  | emit _ ih => exact ih ha _ (fun h => emitBytes_type h _) hl
  | here =>
    subst ha
    simp only [searchLine, Bool.and_eq_true] at hl
    exact hs hl.1
  | @ext b cs _ _ _ _ _ _ ih =>
    refine ih ha false nofun ?_
    unfold searchLine at hl
    split at hl <;> simp_all
  | inside h => subst ha; exact htc _ _ _ h
  | call _ _ ih => exact ih ha false nofun hl

theorem searchLines_calls {act : Act → PS → Res} {tab : Nat → PS → Res} {tc : Nat → PS → Act → PS → Prop}
    (htc : ∀ t s x, tc t s .VAR_SEARCH x → TypeTop x) {sp : PS.Saved} {ls : List (List PCode)} {s x : PS} {a : Act}
    (h : LinesCalls act tab tc sp ls s a x) (ha : a = .VAR_SEARCH) (hl : ∀ l ∈ ls, searchLine false l = true) : TypeTop x := by
  induction h with
  | here h => exact searchLine_calls htc h ha false nofun (hl _ (by simp))
  | next _ _ ih => exact ih ha fun l hl' => hl l (by simp [hl'])

theorem searchTable_calls {act : Act → PS → Res} {G : Grammar}
    (hG : ∀ t tb, G t = some tb → tb.lines.all (searchLine false) = true) (n : Nat) :
    ∀ t s x, TableCalls act G n t s .VAR_SEARCH x → TypeTop x := by
  induction n with
  | zero => intro t s x h; exact h.elim
  | succ n ih =>
    rintro t s x ⟨tb, htb, -, h⟩
    exact searchLines_calls ih h rfl (List.all_eq_true.mp (hG t tb htb))

theorem fp_search (t : Nat) (tb : Table) (h : AtariFp.grammar t = some tb) : tb.lines.all (searchLine false) = true := by
  have hall : AtariFp.tables.all (fun tb => tb.lines.all (searchLine false)) = true := by decide +kernel
  exact List.all_eq_true.mp hall tb (List.mem_of_getElem? h)

theorem loopCalls_start {start : PS → Res} {sc : PS → Act → PS → Prop} {ne : Expand → Expand} {a : Act} {x : PS} {n : Nat} {s : PS}
    (h : LoopCalls start sc ne n s a x) : ∃ s', sc s' a x := by
  induction h with
  | here _ h => exact ⟨_, h⟩
  | next _ _ _ _ ih => exact ih

theorem fileCalls_start {start : PS → Res} {sc : PS → Act → PS → Prop} {a : Act} {x : PS} {n : Nat} {src : Str} {ln : Nat} {s : PS}
    (h : FileCalls start sc n src ln s a x) : ∃ s', sc s' a x := by
  induction h with
  | here _ h => exact loopCalls_start h
  | next _ _ _ ih => exact ih

/-! ## The property -/

/-- The action `a`, called in the state `x`, is a use of the variable `name` with the type `t`: it is one of the two actions
that call `var_check` (`parser-actions.cc:498-509`), it succeeds, and it adds the variable to the code. -/
inductive Use (env : Env) (x : PS) : Act → Str → VT → Prop
  | word {x' : PS} {c : CW} {cs : List CW} {name : Str} {n : Nat} : action env .VAR_WORD x = .ok x' → x'.code = c :: cs →
      c.k = .varn name n → Use env x .VAR_WORD name .WORD
  | search {x' : PS} {c d : CW} {cs ds : List CW} {ty name : Str} {n : Nat} : x.code = d :: ds → d.k.getStr = some ty →
      action env .VAR_SEARCH x = .ok x' → x'.code = c :: cs → c.k = .varn name n → Use env x .VAR_SEARCH name (getVarType ty)

theorem varCheck_use {t : VT} {x x' : PS} {c : CW} {cs : List CW} {name : Str} {n : Nat} (h : varCheck t x = .ok x')
    (hc : x'.code = c :: cs) (hk : c.k = .varn name n) : ∃ v, lookup name x.vars = some v ∧ v % 256 = t.val := by
  unfold varCheck at h
  dsimp only at h
  split at h
  · cases h
  · next name' hn =>
    split at h
    · cases h
    · next v hv =>
      split at h
      · cases h
      · next ht =>
        injection h with h
        subst h
        unfold emitVarn at hc
        rw [emit_code] at hc
        injection hc with hc _
        subst hc
        injection hk with hk _
        subst hk
        refine ⟨v, by simpa using hv, ?_⟩
        simpa using ht

theorem use_lookup {env : Env} {x : PS} {a : Act} {name : Str} {t : VT} (h : Use env x a name t) :
    ∃ v, lookup name x.vars = some v ∧ v % 256 = t.val := by
  cases h with
  | word h hc hk => exact varCheck_use h hc hk
  | @search x' c d cs ds ty _ n hd hty h hc hk =>
    simp only [action, eVarSearch] at h
    split at h
    · cases h
    · next n s1 hr =>
      obtain ⟨c', cs', h1, h2, h3⟩ := removeStr_code hr
      rw [hd] at h1
      cases h1
      rw [hty] at h3
      cases h3
      obtain ⟨v, h4, h5⟩ := varCheck_use h hc hk
      refine ⟨v, ?_, h5⟩
      rw [h2] at h4
      simpa using h4

/-- **C27.** In a program accepted by the compiler, every use of a variable, at any moment of the compilation, has the type that
the variable has in the end (which is the type of its storage, `C26_storage`). -/
theorem C27_type (env : Env) (src : Str) (s : PS) (h : compile (fpStart env) src = .ok s) (a : Act) (x : PS)
    (hc : CompileCalls (action env) AtariFp.grammar AtariFp.n_PARSE_START src a x) (name : Str) (t : VT)
    (hu : Use env x a name t) : ∃ v, lookup name s.vars = some v ∧ v % 256 = t.val := by
  obtain ⟨v, hv, ht⟩ := use_lookup hu
  refine ⟨v, ?_, ht⟩
  have ht0 : t ≠ .UNDEF := by
    cases hu with
    | word => decide
    | @search x' c d cs ds ty _ n hd hty _ _ _ =>
      obtain ⟨s', hs'⟩ := fileCalls_start hc
      obtain ⟨c', cs', n', h1, h2, h3⟩ := searchTable_calls fp_search _ _ _ _ hs'
      rw [hd] at h1
      cases h1
      rw [h2] at hty
      cases hty
      exact h3
  have hval : v % 256 ≠ 0 := by rw [ht]; cases t <;> first | exact absurd rfl ht0 | decide
  unfold compile at h
  split at h
  · cases h
  · next s1 h1 =>
    have := file_calls (fun s => fp_vars env _ _ s) (fun s hv hs => varTable_calls fp_checkVars fp_tables _ _ s hv hs)
      (by exact .nil) hc h1
    split at h
    · injection h with h
      subst h
      simpa using this name v hv hval
    · cases h

/-- **C27**, two uses: they have the same type. -/
theorem C27_same (env : Env) (src : Str) (s : PS) (h : compile (fpStart env) src = .ok s) (a b : Act) (x y : PS)
    (hx : CompileCalls (action env) AtariFp.grammar AtariFp.n_PARSE_START src a x)
    (hy : CompileCalls (action env) AtariFp.grammar AtariFp.n_PARSE_START src b y) (name : Str) (t u : VT)
    (hu : Use env x a name t) (hw : Use env y b name u) : t = u := by
  obtain ⟨v, h1, h2⟩ := C27_type env src s h a x hx name t hu
  obtain ⟨w, h3, h4⟩ := C27_type env src s h b y hy name u hw
  rw [h1] at h3
  cases h3
  have : t.val = u.val := h2.symm.trans h4
  cases t <;> cases u <;> first | rfl | exact absurd this (by decide)

/-- Test for a use of an integer variable, to show an example. -/
def usesWord (env : Env) (name : Str) (p : Act × PS) : Bool :=
  p.1 = .VAR_WORD && match action env .VAR_WORD p.2 with
    | .ok s => match s.code with
      | c :: _ => match c.k with | .varn n _ => n = name | _ => false
      | [] => false
    | _ => false

theorem usesWord_use {env : Env} {name : Str} {p : Act × PS} (h : usesWord env name p = true) :
    p.1 = .VAR_WORD ∧ Use env p.2 .VAR_WORD name .WORD := by
  simp only [usesWord, Bool.and_eq_true, decide_eq_true_eq] at h
  obtain ⟨h1, h2⟩ := h
  refine ⟨h1, ?_⟩
  split at h2
  · next s hs =>
    split at h2
    · next c cs hc =>
      split at h2
      · next n k hk => exact .word hs hc (by simpa [of_decide_eq_true h2] using hk)
      · cases h2
    · cases h2
  · cases h2

/-- The hypotheses are met: the program `A=1`, `B=A` is accepted and uses `A` as an integer; but after `A=1` the line
`A$="X"` is rejected. -/
example : (∃ s, compile (fpStart noEnv) (ofS "A=1\nB=A\n") = .ok s) ∧
    (∃ x, CompileCalls (action noEnv) AtariFp.grammar AtariFp.n_PARSE_START (ofS "A=1\nB=A\n") .VAR_WORD x ∧
      Use noEnv x .VAR_WORD (ofS "A") .WORD) ∧
    Out.varsOf (compile (fpStart noEnv) (ofS "A=1\nA$=\"X\"\n")) = none := by
  refine ⟨?_, ?_, by decide +kernel⟩
  · have h : Out.varsOf (compile (fpStart noEnv) (ofS "A=1\nB=A\n")) = some [(ofS "A", 1), (ofS "B", 257)] := by decide +kernel
    revert h
    cases compile (fpStart noEnv) (ofS "A=1\nB=A\n") with
    | ok s => exact fun _ => ⟨s, rfl⟩
    | err e => exact nofun
  · have h : (compileTrace (action noEnv) AtariFp.grammar AtariFp.n_PARSE_START (ofS "A=1\nB=A\n")).any
        (usesWord noEnv (ofS "A")) = true := by decide +kernel
    obtain ⟨⟨a, x⟩, hm, hu⟩ := List.any_eq_true.mp h
    obtain ⟨rfl, hu⟩ := usesWord_use hu
    exact ⟨x, compileTrace_calls hm, hu⟩

end FB.Parse
