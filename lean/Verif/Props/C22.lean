import Verif.Parse.Nest
import Verif.Props.C16
import Verif.Props.C17

/-!
# C22: control structures are nested

Claim: if a program is accepted, every loop, `IF`, `PROC` was closed by its terminator in last-in-first-out order.

This is not true of all the programs: an alternative of the grammar that fails after it has opened or closed a structure leaves
that change behind, and the text can still be accepted as an assignment to a variable whose name starts with the keyword
(`C22_if_refuted`, `C22_endproc_refuted`; the reverse, a good program that is rejected, is in `C22_while_refuted`).
`C22_nested_partial` proves the claim for all the programs, of any length and depth, where no abandoned alternative did that. -/

namespace FB.Parse

open Frame

/-- The actions of the program, with the shipped grammar. -/
def fpTrace (env : Env) (src : Str) : List (Act × PS) := okTrace (action env) AtariFp.grammar AtariFp.n_PARSE_START src

/-- No alternative of the shipped grammar was abandoned after it opened or closed a structure. -/
def FpClean (env : Env) (src : Str) : Prop := CleanRun (action env) AtariFp.grammar AtariFp.n_PARSE_START src

/-- The structures opened and closed by the actions of an accepted program are well nested. Missing for the full claim: programs
where an abandoned alternative opens or closes something (`FpClean`); for these it is false. -/
theorem C22_nested_partial {env : Env} {src : Str} {s : PS} (hs : compile (fpStart env) src = .ok s) (hc : FpClean env src) :
    ∃ w, Word (fpTrace env src) w ∧ Nested w := by
  obtain ⟨w, h1, h2⟩ := (okTrace_chain hs hc).word
  exact ⟨w, h1, nested_of_open h2⟩

/-! ## Examples and programs where the claim is false -/

/-- A computable form of `FpClean`. -/
def cleanCheck (env : Env) (src : Str) : Bool :=
  (compileRunTrace (action env) AtariFp.grammar AtariFp.n_PARSE_START src).all fun p =>
    match parseLine (action env) (parseTable (action env) AtariFp.grammar p.1.1) p.1.2 p.2 with
    | .fail x => x.jumps = p.2.jumps
    | _ => true

theorem clean_of_check {env : Env} {src : Str} (h : cleanCheck env src = true) : FpClean env src := by
  intro p hp x hx
  have := List.all_eq_true.mp h p hp
  rw [hx] at this
  simpa using this

/-- Is the program accepted? -/
def accepted (env : Env) (src : Str) : Bool := match compile (fpStart env) src with | .ok _ => true | .err _ => false

theorem accepted_iff {env : Env} {src : Str} : accepted env src = true ↔ ∃ s, compile (fpStart env) src = .ok s := by
  unfold accepted
  cases compile (fpStart env) src <;> simp

/-- The actions that open or close structures in a program. -/
def jumpActs (env : Env) (src : Str) : List (Act × Option LT) :=
  ((fpTrace env src).filter fun (p : Act × PS) => jumpAct p.1).map fun (p : Act × PS) => (p.1, lastLT p.2)

/-- The hypotheses of `C22_nested_partial` are met by a program with an `IF` and an `ELIF` inside of a `FOR`. -/
example : accepted noEnv (ofS "FOR I=0 TO 3\nIF I\nELIF 2\nENDIF\nNEXT\n") = true ∧
    FpClean noEnv (ofS "FOR I=0 TO 3\nIF I\nELIF 2\nENDIF\nNEXT\n") ∧
    (jumpActs noEnv (ofS "FOR I=0 TO 3\nIF I\nELIF 2\nENDIF\nNEXT\n")).map Prod.fst =
      [.PUSH_LT, .PUSH_LT, .PUSH_LT, .ELSEIF, .PUSH_LT, .POP_IF, .POP_FOR] :=
  ⟨by decide +kernel, clean_of_check (by decide +kernel), by decide +kernel⟩

/-- Structures of kind `t` opened in a word. -/
def opened (t : LT) (w : List Ev) : Nat := w.countP fun e => match e with | .op j => j.type = t | .cl _ => false

/-- Structures of kind `t` closed in a word. -/
def closed (t : LT) (w : List Ev) : Nat := w.countP fun e => match e with | .op _ => false | .cl j => j.type = t

theorem Nested.count {w : List Ev} (h : Nested w) (t : LT) : opened t w = closed t w := by
  induction h with
  | nil => rfl
  | wrap j _ _ ih1 ih2 =>
    unfold opened closed at *
    simp only [List.countP_cons, List.countP_append]
    simp only [Bool.false_eq_true, if_false]
    omega

/-- In a word of actions a procedure is closed for each `E_POP_PROC_2`, and opened only by `E_PUSH_LT` and `E_ELSEIF`. -/
theorem Word.procs {tr : List (Act × PS)} {w : List Ev} (h : Word tr w) :
    closed .PROC_2 w = tr.countP (fun (p : Act × PS) => p.1 = .POP_PROC_2) ∧
    opened .PROC_2 w ≤ tr.countP (fun (p : Act × PS) => p.1 = .PUSH_LT ∨ p.1 = .ELSEIF) := by
  induction h with
  | nil => exact ⟨rfl, Nat.le_refl _⟩
  | @cons a x tr w v he _ ih =>
    unfold opened closed at *
    have key : w.countP (fun e => match e with | .op _ => false | .cl j => j.type = .PROC_2) = (if a = .POP_PROC_2 then 1 else 0) ∧
        w.countP (fun e => match e with | .op j => j.type = .PROC_2 | .cl _ => false) ≤
          (if a = .PUSH_LT ∨ a = .ELSEIF then 1 else 0) := by
      cases he with
      | push _ => exact ⟨by simp, by simp [List.countP_cons]; split <;> omega⟩
      | block h => simp [h]
      | loop h => simp [h]
      | «until» h => simp [h]
      | wend h g => simp [h, g]
      | next h g => simp [h, g]
      | @endif j es h g =>
        have hz : ∀ es : List Jump, (∀ e ∈ es, e.type = LT.ELIF) →
            (es.map Ev.cl).countP (fun e => match e with | .op _ => false | .cl j => j.type = .PROC_2) = 0 ∧
            (es.map Ev.cl).countP (fun e => match e with | .op j => j.type = .PROC_2 | .cl _ => false) = 0 := by
          intro es
          induction es with
          | nil => intro _; exact ⟨rfl, rfl⟩
          | cons e es ih =>
            intro h
            obtain ⟨h1, h2⟩ := ih fun e he => h e (List.mem_cons_of_mem _ he)
            have h3 := h e (List.mem_cons_self ..)
            simp [h1, h2, h3]
        obtain ⟨z1, z2⟩ := hz es g
        rw [List.countP_cons, List.countP_cons, z1, z2]
        rcases h with h | h <;> simp [h]
      | «else» h _ => exact ⟨by simp [h], by simp [List.countP_cons]; split <;> omega⟩
      | body h => simp [h]
      | endBlock h => simp [h]
      | other h =>
        refine ⟨?_, Nat.zero_le _⟩
        rw [if_neg (by rintro rfl; cases h)]
        rfl
    simp only [List.countP_append, List.countP_cons]
    refine ⟨?_, ?_⟩
    · rw [key.1, ih.1]; simp [Nat.add_comm]
    · have := key.2
      have := ih.2
      simp only [decide_eq_true_eq]
      omega

/-- The claim is false for this program: it is accepted, and it closes a procedure that was never opened. `PROCA=5` is an assignment
to the variable `PROCA`, but it is first read as the start of a procedure `A`; this is abandoned with the procedure left open. -/
theorem C22_endproc_refuted : (∃ s, compile (fpStart noEnv) (ofS "PROCA=5\nENDPROC\n") = .ok s) ∧
    ¬ ∃ w, Word (fpTrace noEnv (ofS "PROCA=5\nENDPROC\n")) w ∧ Nested w := by
  refine ⟨accepted_iff.mp (by decide +kernel), ?_⟩
  rintro ⟨w, h1, h2⟩
  obtain ⟨h3, h4⟩ := h1.procs
  have h5 : (fpTrace noEnv (ofS "PROCA=5\nENDPROC\n")).countP (fun (p : Act × PS) => p.1 = .POP_PROC_2) = 1 := by decide +kernel
  have h6 : (fpTrace noEnv (ofS "PROCA=5\nENDPROC\n")).countP (fun (p : Act × PS) => p.1 = .PUSH_LT ∨ p.1 = .ELSEIF) = 0 := by
    decide +kernel
  have := h2.count .PROC_2
  omega

/-- Two `IF`s and one `ENDIF`: `ELIF=3` is an assignment, but it turns the open `IF` into an `ELIF`. -/
theorem C22_if_refuted : accepted noEnv (ofS "A=1\nIF A\nELIF=3\nIF A\nENDIF\n") = true ∧
    jumpActs noEnv (ofS "A=1\nIF A\nELIF=3\nIF A\nENDIF\n") =
      [(.PUSH_LT, some .IF), (.PUSH_LT, some .IF), (.POP_IF, none)] :=
  ⟨by decide +kernel, by decide +kernel⟩

/-- A program without loops is rejected because of an open loop. -/
theorem C22_while_refuted : compile (fpStart noEnv) (ofS "WHILE=5\n") = .err (.parseErr (ofS "unclosed loop") 0) := by
  decide +kernel

end FB.Parse
