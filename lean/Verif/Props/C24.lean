import Verif.Props.C22

/-!
# C24: EXIT leaves the innermost loop or procedure

`C24_exit`: `EXIT` writes a jump to the label `jump_lbl_n_x` of the innermost open `FOR`, `WHILE`, `REPEAT`, `DO` or `PROC`, and fails
when there is none. `C24_target_partial`: in an accepted program (where no abandoned alternative opens or closes anything, see C22)
that structure is closed later, by its own terminator, and the last thing that this writes is the definition of the label: the
jump goes to the point after the end of the structure. `C24_outside_refuted`: an `EXIT` that is not inside of anything is
accepted. -/

namespace FB.Parse

open Frame

/-- The structures that `EXIT` leaves. -/
def Leaves (t : LT) : Prop := t = .FOR_1 ∨ t = .WHILE_1 ∨ t = .REPEAT ∨ t = .DO_LOOP ∨ t = .PROC_2

/-- The structures that `EXIT` skips: `IF`s and the second halves of loops. -/
def Skipped (t : LT) : Prop := t = .IF ∨ t = .ELSE ∨ t = .ELIF ∨ t = .FOR_2 ∨ t = .WHILE_2

/-- The kinds of structure that are opened by programs; the two other kinds are marks that are never in the stack. -/
def Kind (t : LT) : Prop := t ≠ .EXIT ∧ t ≠ .LAST_JUMP

/-- The innermost structure of a stack that `EXIT` can leave. -/
inductive Innermost : List Jump → Jump → Prop
  | here {j st} : Leaves j.type → Innermost (j :: st) j
  | skip {i st j} : Skipped i.type → Innermost st j → Innermost (i :: st) j

theorem exitSearch_iff {st : List Jump} (hk : ∀ i ∈ st, Kind i.type) (j : Jump) :
    exitSearch st = some (some j) ↔ Innermost st j := by
  induction st with
  | nil => constructor <;> intro h <;> cases h
  | cons i st ih =>
    have ih := ih fun i h => hk i (List.mem_cons_of_mem _ h)
    have hi := hk i (List.mem_cons_self ..)
    unfold exitSearch
    constructor
    · intro h
      split at h
      · next hc =>
        refine .skip ?_ (ih.mp h)
        unfold Skipped; rcases hc with h | h | h | h | h <;> simp [h]
      · next hc =>
        split at h
        · cases h
        · next hv =>
          cases h
          refine .here ?_
          unfold Leaves
          unfold Kind at hi
          cases ht : j.type <;> simp_all [LT.val]
    · intro h
      cases h with
      | here h =>
        rw [if_neg (by unfold Leaves at h; rcases h with h | h | h | h | h <;> simp [h]),
          if_neg (by unfold Leaves at h; rcases h with h | h | h | h | h <;> simp [h, LT.val])]
      | skip h h' =>
        rw [if_pos (by unfold Skipped at h; rcases h with h | h | h | h | h <;> simp [h])]
        exact ih.mpr h'

/-- `EXIT` jumps to the end of the innermost structure, or fails. -/
theorem C24_exit {env : Env} {x : PS} (hk : ∀ i ∈ x.jumps, Kind i.type) :
    (∃ j, Innermost x.jumps j ∧ action env .EXIT_LOOP x = .ok (x.emit (.wordStr (j.label ++ [95, 120])))) ∨
    ((¬ ∃ j, Innermost x.jumps j) ∧ ∃ y, action env .EXIT_LOOP x = .fail y) := by
  by_cases h : ∃ j, Innermost x.jumps j
  · obtain ⟨j, hj⟩ := h
    refine .inl ⟨j, hj, ?_⟩
    simp only [action, eExitLoop, (exitSearch_iff hk j).mpr hj]
    rfl
  · refine .inr ⟨h, ?_⟩
    simp only [action, eExitLoop]
    split
    · exact ⟨_, rfl⟩
    · exact ⟨_, rfl⟩
    · next j hj => exact absurd ⟨j, (exitSearch_iff hk j).mp hj⟩ h

/-- The terminator of each structure. -/
inductive Ends : LT → Act → Prop
  | loop : Ends .DO_LOOP .POP_LOOP
  | until : Ends .REPEAT .POP_REPEAT
  | wend : Ends .WHILE_1 .POP_WHILE
  | next : Ends .FOR_1 .POP_FOR
  | endproc : Ends .PROC_2 .POP_PROC_2

theorem openAfter_cl {j i : Jump} {w : List Ev} {st st' : List Jump} (h : openAfter (.cl j :: w) (i :: st) = some st') :
    i = j ∧ openAfter w st = some st' := by
  simp only [openAfter] at h
  split at h
  · exact ⟨‹_›, h⟩
  · cases h

/-- A word that closes structures one after the other, starting from `pre ++ j :: post`: `j` is still open, or it is one of those
closed. -/
theorem openAfter_closes (es : List Jump) : ∀ {pre post st' : List Jump} {j : Jump},
    openAfter (es.map .cl) (pre ++ j :: post) = some st' →
    (∃ pre', st' = pre' ++ j :: post) ∨ (∃ k, es = pre ++ j :: k ∧ post = k ++ st') := by
  induction es with
  | nil => intro pre post st' j h; exact .inl ⟨pre, by cases h; rfl⟩
  | cons e es ih =>
    intro pre post st' j h
    cases pre with
    | nil =>
      obtain ⟨rfl, h'⟩ := openAfter_cl h
      have : ∀ (es st : List Jump), openAfter (es.map .cl) st = some st' → st = es ++ st' := by
        intro es
        induction es with
        | nil => intro st h; cases h; rfl
        | cons e es ih =>
          intro st h
          cases st with
          | nil => cases h
          | cons i st =>
            obtain ⟨rfl, h'⟩ := openAfter_cl h
            rw [ih _ h']; rfl
      exact .inr ⟨es, rfl, this _ _ h'⟩
    | cons p pre =>
      obtain ⟨rfl, h'⟩ := openAfter_cl h
      rcases ih h' with h | ⟨k, h1, h2⟩
      · exact .inl h
      · exact .inr ⟨k, by rw [h1]; rfl, h2⟩

/-- An action either leaves a structure open (and all below it), or closes it. If it is one that `EXIT` leaves, the action is its
terminator, and nothing but the second part of a `WHILE` was open inside of it. -/
theorem closes_step {env : Env} {b : Act} {z z' : PS} (h : action env b z = .ok z') {pre post : List Jump} {j : Jump}
    (hj : z.jumps = pre ++ j :: post) :
    (∃ pre', z'.jumps = pre' ++ j :: post) ∨
    (Kind j.type ∧ (Leaves j.type → Ends j.type b ∧ (∀ i ∈ pre, i.type = .WHILE_2) ∧ ∃ k, post = k ++ z'.jumps)) := by
  obtain ⟨w, he, ho⟩ := action_effect h
  rw [hj] at ho
  have one : ∀ {i : Jump}, openAfter [.cl i] (pre ++ j :: post) = some z'.jumps →
      (∃ pre', z'.jumps = pre' ++ j :: post) ∨ (pre = [] ∧ j = i ∧ ∃ k, post = k ++ z'.jumps) := by
    intro i ho
    rcases openAfter_closes [i] ho with h | ⟨k, h1, h2⟩
    · exact .inl h
    · cases pre with
      | nil => simp only [List.nil_append, List.cons.injEq] at h1; exact .inr ⟨rfl, h1.1.symm, k, h2⟩
      | cons p pre => simp at h1
  have two : ∀ {i i' : Jump}, openAfter [.cl i, .cl i'] (pre ++ j :: post) = some z'.jumps →
      (∃ pre', z'.jumps = pre' ++ j :: post) ∨ (∃ k, post = k ++ z'.jumps) ∧ ((pre = [] ∧ j = i) ∨ (pre = [i] ∧ j = i')) := by
    intro i i' ho
    rcases openAfter_closes [i, i'] ho with h | ⟨k, h1, h2⟩
    · exact .inl h
    · refine .inr ⟨⟨k, h2⟩, ?_⟩
      cases pre with
      | nil => simp only [List.nil_append, List.cons.injEq] at h1; exact .inl ⟨rfl, h1.1.symm⟩
      | cons p pre =>
        cases pre with
        | nil => simp only [List.cons_append, List.nil_append, List.cons.injEq] at h1; exact .inr ⟨by rw [h1.1], h1.2.1.symm⟩
        | cons q pre => simp at h1
  cases he with
  | push _ =>
    simp only [openAfter, Option.some.injEq] at ho
    exact .inl ⟨_ :: pre, by rw [← ho]; rfl⟩
  | block _ =>
    simp only [openAfter, Option.some.injEq] at ho
    exact .inl ⟨_ :: pre, by rw [← ho]; rfl⟩
  | loop ht =>
    rcases one ho with h | ⟨rfl, rfl, h⟩
    · exact .inl h
    · exact .inr ⟨by simp [Kind, ht], fun _ => ⟨by rw [ht]; exact .loop, by simp, h⟩⟩
  | «until» ht =>
    rcases one ho with h | ⟨rfl, rfl, h⟩
    · exact .inl h
    · exact .inr ⟨by simp [Kind, ht], fun _ => ⟨by rw [ht]; exact .until, by simp, h⟩⟩
  | body ht =>
    rcases one ho with h | ⟨rfl, rfl, h⟩
    · exact .inl h
    · exact .inr ⟨by simp [Kind, ht], fun _ => ⟨by rw [ht]; exact .endproc, by simp, h⟩⟩
  | endBlock ht =>
    rcases one ho with h | ⟨rfl, rfl, h⟩
    · exact .inl h
    · exact .inr ⟨by simp [Kind, ht], fun hl => by simp [Leaves, ht] at hl⟩
  | wend h1 h2 =>
    rcases two ho with h | ⟨h, ⟨rfl, rfl⟩ | ⟨rfl, rfl⟩⟩
    · exact .inl h
    · exact .inr ⟨by simp [Kind, h1], fun hl => by simp [Leaves, h1] at hl⟩
    · exact .inr ⟨by simp [Kind, h2], fun _ => ⟨by rw [h2]; exact .wend, by simpa using h1, h⟩⟩
  | next h1 h2 =>
    rcases two ho with h | ⟨h, ⟨rfl, rfl⟩ | ⟨rfl, rfl⟩⟩
    · exact .inl h
    · exact .inr ⟨by simp [Kind, h1], fun _ => ⟨by rw [h1]; exact .next, by simp, h⟩⟩
    · exact .inr ⟨by simp [Kind, h2], fun hl => by simp [Leaves, h2] at hl⟩
  | @endif i es ht he =>
    have hz : ∀ e ∈ i :: es, Kind e.type ∧ ¬ Leaves e.type := by
      intro e hm
      rcases List.mem_cons.mp hm with rfl | hm
      · rcases ht with h | h <;> simp [Kind, Leaves, h]
      · simp [Kind, Leaves, he e hm]
    rcases openAfter_closes (i :: es) ho with h | ⟨k, h1, h2⟩
    · exact .inl h
    · have := hz j (by rw [h1]; simp)
      exact .inr ⟨this.1, fun hl => absurd hl this.2⟩
  | @«else» i i' h1 _ =>
    cases pre with
    | nil =>
      obtain ⟨rfl, -⟩ := openAfter_cl ho
      exact .inr ⟨by simp [Kind, h1], fun hl => by simp [Leaves, h1] at hl⟩
    | cons p pre =>
      obtain ⟨rfl, ho'⟩ := openAfter_cl ho
      simp only [openAfter, Option.some.injEq] at ho'
      exact .inl ⟨i' :: pre, by rw [← ho']; rfl⟩
  | other _ =>
    simp only [openAfter, Option.some.injEq] at ho
    exact .inl ⟨pre, ho.symm⟩

/-- The last thing that the terminator of a structure writes is the label of its end. -/
theorem ends_label {env : Env} {b : Act} {z z' : PS} (h : action env b z = .ok z') {pre post : List Jump} {j : Jump}
    (hj : z.jumps = pre ++ j :: post) (he : Ends j.type b) (hp : ∀ i ∈ pre, i.type = .WHILE_2) :
    ∃ cs, z'.code = ⟨.label (j.label ++ [95, 120]), z.linenum⟩ :: cs := by
  have hp0 : ∀ {i : Jump} {js : List Jump}, z.jumps = i :: js → i.type ≠ .WHILE_2 → i = j := by
    intro i js h1 h2
    cases pre with
    | nil => rw [h1] at hj; simp only [List.nil_append, List.cons.injEq] at hj; exact hj.1
    | cons p pre =>
      rw [h1] at hj; simp only [List.cons_append, List.cons.injEq] at hj
      exact absurd (hp p (List.mem_cons_self ..)) (by rw [← hj.1]; exact h2)
  generalize ht : j.type = t at he
  cases he <;> simp only [action] at h
  case loop =>
    simp only [ePopLoop] at h
    rcases popLoop_cases z .DO_LOOP with ⟨h1, h2⟩ | ⟨i, js, hi, hti, h1, h2⟩
    · simp [h1] at h
    · simp only [h1, Res.ok.injEq] at h
      have hti : i.type = .DO_LOOP := by simpa using hti
      obtain rfl := hp0 hi (by rw [hti]; decide)
      subst h
      exact ⟨_, by simp [emit_code, lblX]; rfl⟩
  case «until» =>
    simp only [ePopRepeat] at h
    rcases popLoop_cases z .REPEAT with ⟨h1, h2⟩ | ⟨i, js, hi, hti, h1, h2⟩
    · simp [h1] at h
    · simp only [h1, Res.ok.injEq] at h
      have hti : i.type = .REPEAT := by simpa using hti
      obtain rfl := hp0 hi (by rw [hti]; decide)
      subst h
      exact ⟨_, by simp [emit_code, lblX]; rfl⟩
  case endproc =>
    simp only [ePopProc2] at h
    rcases popLoop_cases z .PROC_2 with ⟨h1, h2⟩ | ⟨i, js, hi, hti, h1, h2⟩
    · simp [h1] at h
    · simp only [h1, Res.ok.injEq] at h
      have hti : i.type = .PROC_2 := by simpa using hti
      obtain rfl := hp0 hi (by rw [hti]; decide)
      subst h
      exact ⟨_, by simp [emit_code, lblX]; rfl⟩
  case next =>
    simp only [ePopFor] at h
    rcases popLoop_cases z .FOR_1 with ⟨h1, h2⟩ | ⟨i, js, hi, hti, h1, h2⟩
    · simp [h1] at h
    · have hti : i.type = .FOR_1 := by simpa using hti
      obtain rfl := hp0 hi (by rw [hti]; decide)
      rcases popLoop_cases (z.popLoop .FOR_1).2 .FOR_2 with ⟨h3, h4⟩ | ⟨j', js', hj', ht', h3, h4⟩
      · simp [h1, h3] at h
      · simp only [h1, h3] at h
        split at h
        · cases h
        · next c s hs =>
          cases h
          obtain ⟨cs, -, rfl⟩ := removeLast_code hs
          exact ⟨_, by simp [emit_code, lblX]; rfl⟩
  case wend =>
    simp only [ePopWhile] at h
    rcases popLoop_cases z .WHILE_2 with ⟨h1, h2⟩ | ⟨i, js, hi, hti, h1, h2⟩
    · simp [h1] at h
    · have hti : i.type = .WHILE_2 := by simpa using hti
      rcases popLoop_cases (z.popLoop .WHILE_2).2 .WHILE_1 with ⟨h3, h4⟩ | ⟨j', js', hj', ht', h3, h4⟩
      · simp [h1, h3] at h
      · simp only [h1, h3, Res.ok.injEq] at h
        subst h
        have ht' : j'.type = .WHILE_1 := by simpa using ht'
        have e : js = j' :: js' := by rw [← hj', h2.jumps]; rfl
        have ej : j' = j := by
          rw [hi, e] at hj
          cases pre with
          | nil =>
            simp only [List.nil_append, List.cons.injEq] at hj
            rw [← hj.1, hti] at ht; cases ht
          | cons p pre =>
            simp only [List.cons_append, List.cons.injEq] at hj
            cases pre with
            | nil => simp only [List.nil_append, List.cons.injEq] at hj; exact hj.2.1
            | cons q pre =>
              simp only [List.cons_append, List.cons.injEq] at hj
              have := hp q (by simp)
              rw [← hj.2.1, ht'] at this; cases this
        subst ej
        exact ⟨_, by simp [emit_code, lblX]; rfl⟩

/-- A structure that is open at some point of a list of calls, and not at the end, is closed by one of the calls. -/
theorem chain_closes {env : Env} {tr : List (Act × PS)} {st : List Jump} (h : Chain (action env) tr st []) :
    ∀ {pre post : List Jump} {j : Jump}, st = pre ++ j :: post →
    Kind j.type ∧ (Leaves j.type → ∃ q1 b z z' q2 pre', tr = q1 ++ (b, z) :: q2 ∧ action env b z = .ok z' ∧
      z.jumps = pre' ++ j :: post ∧ Ends j.type b ∧ (∀ i ∈ pre', i.type = .WHILE_2) ∧ ∃ k, post = k ++ z'.jumps) := by
  generalize he : ([] : List Jump) = fin at h
  induction h with
  | nil => intro pre post j h; rw [← he] at h; simp at h
  | @cons a x y tr k ha hc ih =>
    intro pre post j hj
    rcases closes_step ha hj with ⟨pre', h⟩ | ⟨h1, h2⟩
    · obtain ⟨h3, h4⟩ := ih he h
      refine ⟨h3, fun hl => ?_⟩
      obtain ⟨q1, b, z, z', q2, p2, rfl, h5⟩ := h4 hl
      exact ⟨(a, x) :: q1, b, z, z', q2, p2, rfl, h5⟩
    · refine ⟨h1, fun hl => ?_⟩
      obtain ⟨h3, h4, h5⟩ := h2 hl
      exact ⟨[], a, x, y, tr, pre, rfl, ha, hj, h3, h4, h5⟩

theorem Innermost.split {st : List Jump} {j : Jump} (h : Innermost st j) :
    Leaves j.type ∧ ∃ pre post, st = pre ++ j :: post ∧ ∀ i ∈ pre, Skipped i.type := by
  induction h with
  | @here j st h => exact ⟨h, [], st, rfl, by simp⟩
  | @skip i st j h _ ih =>
    obtain ⟨h1, pre, post, rfl, h2⟩ := ih
    refine ⟨h1, i :: pre, post, rfl, ?_⟩
    intro e he
    rcases List.mem_cons.mp he with rfl | he
    · exact h
    · exact h2 e he

/-- An `EXIT` of an accepted program. `x` is the state where it is read; the open structures are those opened and not closed by
the actions before it. The jump goes to the label of the innermost one, and the terminator of this one, later in the program,
defines that label as the last thing it does. Missing for the full claim: programs where an abandoned alternative opens or
closes something (`FpClean`); for these it is false. -/
theorem C24_target_partial {env : Env} {src : Str} {s : PS} (hs : compile (fpStart env) src = .ok s) (hc : FpClean env src)
    {p q : List (Act × PS)} {x : PS} (ht : fpTrace env src = p ++ (.EXIT_LOOP, x) :: q) :
    ∃ w j pre post, Word p w ∧ openAfter w [] = some x.jumps ∧ x.jumps = pre ++ j :: post ∧
      Leaves j.type ∧ (∀ i ∈ pre, Skipped i.type) ∧
      action env .EXIT_LOOP x = .ok (x.emit (.wordStr (j.label ++ [95, 120]))) ∧
      ∃ q1 b z z' q2 pre', q = q1 ++ (b, z) :: q2 ∧ action env b z = .ok z' ∧ Ends j.type b ∧
        z.jumps = pre' ++ j :: post ∧ (∀ i ∈ pre', i.type = .WHILE_2) ∧ (∃ k, post = k ++ z'.jumps) ∧
        ∃ cs, z'.code = ⟨.label (j.label ++ [95, 120]), z.linenum⟩ :: cs := by
  have hch := okTrace_chain hs hc
  rw [show okTrace (action env) AtariFp.grammar AtariFp.n_PARSE_START src = p ++ (.EXIT_LOOP, x) :: q from ht] at hch
  obtain ⟨st, h1, h2⟩ := hch.split
  have hst : st = x.jumps := by cases h2; rfl
  subst hst
  obtain ⟨w, hw, ho⟩ := h1.word
  have hk : ∀ i ∈ x.jumps, Kind i.type := by
    intro i hi
    obtain ⟨pre, post, e⟩ := List.append_of_mem hi
    exact (chain_closes h2 e).1
  cases h2 with
  | @cons _ _ y _ _ ha h3 =>
    have ha0 := ha
    rcases C24_exit (env := env) hk with ⟨j, hj, he⟩ | ⟨-, y', hy'⟩
    · obtain ⟨hl, pre, post, hpp, hsk⟩ := hj.split
      have hy : y.jumps = pre ++ j :: post := by
        rw [he] at ha; cases ha; rw [emit_jumps, hpp]
      obtain ⟨q1, b, z, z', q2, pre', h4, h5, h6, h7, h8, h9⟩ := (chain_closes h3 hy).2 hl
      exact ⟨w, j, pre, post, hw, ho, hpp, hl, hsk, he, q1, b, z, z', q2, pre', h4, h5, h7, h6, h8, h9, ends_label h5 h6 h7 h8⟩
    · rw [hy'] at ha; cases ha

/-- Positions of `EXIT` in the actions of a program, with the kinds of the open structures. -/
def exits (env : Env) (src : Str) : List (List LT) :=
  ((fpTrace env src).filter fun (p : Act × PS) => p.1 = .EXIT_LOOP).map fun (p : Act × PS) => p.2.jumps.map Jump.type

/-- The hypotheses are met: an `EXIT` inside of an `IF` in a `WHILE` in a `FOR`. -/
example : accepted noEnv (ofS "FOR I=0 TO 3\nWHILE I\nIF I\nEXIT\nENDIF\nWEND\nNEXT\n") = true ∧
    FpClean noEnv (ofS "FOR I=0 TO 3\nWHILE I\nIF I\nEXIT\nENDIF\nWEND\nNEXT\n") ∧
    exits noEnv (ofS "FOR I=0 TO 3\nWHILE I\nIF I\nEXIT\nENDIF\nWEND\nNEXT\n") = [[.IF, .WHILE_2, .WHILE_1, .FOR_1, .FOR_2]] :=
  ⟨by decide +kernel, clean_of_check (by decide +kernel), by decide +kernel⟩

/-- Outside of everything `EXIT` is an error. -/
example : accepted noEnv (ofS "IF 1\nEXIT\nENDIF\n") = false := by decide +kernel

/-- The claim is false for this program: `EXIT` is not inside of a loop or procedure, and it is accepted. -/
theorem C24_outside_refuted : accepted noEnv (ofS "PROCA=5\nEXIT\nENDPROC\n") = true ∧
    jumpActs noEnv (ofS "PROCA=5\nEXIT\nENDPROC\n") = [(.POP_PROC_2, none), (.POP_PROC_DATA, none)] :=
  ⟨by decide +kernel, by decide +kernel⟩

end FB.Parse
