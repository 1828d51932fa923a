import Verif.Safety
import Verif.Eval
/-!
# C03, C04, C05 and C41: the optimizer as a whole

* `Refines P Q` (`Verif.Sim`): under every environment and for every initial memory, if `P` runs without
  undefined behaviour then `Q` does too, one ends iff the other ends, with the same memory and the same
  events, and whatever one has output the other outputs too.
* `optimize Fix.actual fuel P` is the optimizer of `peephole.cc` run for at most `fuel` rounds of its main
  loop; `optimize Fix.fixed` the same with the two constants repaired (C01, C02).
-/
namespace FB
open Peep

/-! ## C03 -/

/-- **C03** for programs that do not use `PRINT COLOR` and on which the two wrong constants make no
difference.  Missing: programs with `PRINT COLOR` (false, see C06) and with the wrong constants (false, see
`C03_optimizer_refuted`). -/
theorem C03_optimizer_preserves_behaviour_partial {P Q : List Codew} {fuel : Nat} (hg : Good P)
    (h : optimize Fix.actual fuel P = some Q) (hfix : optimize Fix.fixed fuel P = some Q) : Refines P Q := by
  have _ := h
  simp only [optimize, Option.map_eq_some_iff] at hfix
  obtain ⟨e, he, rfl⟩ := hfix
  exact (optimizeEd_ok he hg).1

/-- **C03** for the optimizer with the two constants repaired: every program without `PRINT COLOR`. -/
theorem C03_fixed_optimizer_preserves_behaviour_partial {P Q : List Codew} {fuel : Nat} (hg : Good P)
    (h : optimize Fix.fixed fuel P = some Q) : Refines P Q := by
  simp only [optimize, Option.map_eq_some_iff] at h
  obtain ⟨e, he, rfl⟩ := h
  exact (optimizeEd_ok he hg).1

/-- `A = 3 * 4 : REPEAT : A = A - 1 : PUT A : UNTIL A = 0`, as the parser emits it. -/
def exLoop : List Codew :=
  [.tok .VAR_SADDR, .varn 0 "A", .tok .BYTE, .byte 3, .tok .PUSH_BYTE, .byte 4, .tok .MUL, .tok .DPOKE,
   .label "lbl1", .tok .VAR_SADDR, .varn 0 "A", .tok .VAR_LOAD, .varn 0 "A", .tok .PUSH_1, .tok .SUB, .tok .DPOKE,
   .tok .VAR_LOAD, .varn 0 "A", .tok .PUT,
   .tok .VAR_LOAD, .varn 0 "A", .tok .PUSH_0, .tok .EQ, .tok .CJUMP, .wordStr "lbl1", .tok .END]

/-- What it becomes. -/
def exLoopOpt : List Codew :=
  [.tok .VAR_SADDR, .varn 0 "A", .tok .BYTE, .byte 12, .tok .DPOKE,
   .label "lbl1", .tok .DECVAR, .varn 0 "A",
   .tok .VAR_LOAD, .varn 0 "A", .tok .PUT,
   .tok .VAR_LOAD, .varn 0 "A", .tok .COMP_0, .tok .CNJUMP, .wordStr "lbl1", .tok .END]

theorem exLoop_opt : optimizeF Fix.actual 60 6 exLoop = some ⟨exLoopOpt, true, false⟩ ∧
    optimizeF Fix.fixed 60 6 exLoop = some ⟨exLoopOpt, true, false⟩ := by decide +kernel

/-- The hypotheses are met by `exLoop`. -/
example : Good exLoop ∧ optimize Fix.actual 6 exLoop = some exLoopOpt ∧ optimize Fix.fixed 6 exLoop = some exLoopOpt := by
  refine ⟨by decide +kernel, ?_, ?_⟩
  · simp only [optimize, optimizeF_sound exLoop_opt.1]; rfl
  · simp only [optimize, optimizeF_sound exLoop_opt.2]; rfl

/-! ### Refutation -/

/-- An environment for concrete runs. -/
def env0 : Env where
  heap := 0x4000
  byteSym := fun _ => 0
  wordSym := fun _ => 0
  isIO := fun _ => false
  ioVal := fun _ _ => 0
  getVal := fun _ _ => 0
  keyVal := fun _ => 0
  strIdx := fun m _ _ _ => (m, 0)
  arity := fun _ => 0
  ext := fun _ _ _ => none

theorem env0_ok : EnvOK env0 := by
  refine ⟨?_, ?_, ?_, ?_, ?_⟩ <;> intros <;> simp_all [env0]

def Res.isDone : Res → Bool
  | .done _ => true
  | _ => false

theorem Res.isDone_iff {r : Res} (h : r.isDone = true) : ∃ d, r = .done d := by
  cases r <;> simp_all [Res.isDone]

theorem safe_of_done {env : Env} {P : List Codew} {c : Cfg} {n : Nat} {d : D} (h : runN env P n c = .done d) : Safe env P c := by
  intro m hm
  rcases Nat.le_total n m with hle | hle
  · rw [runN_done_le hle h] at hm; simp at hm
  · rw [runN_wrong_le hle hm] at h; simp at h

/-- If both programs stop and their outputs differ, one does not behave like the other. -/
theorem not_refines {P Q : List Codew} {n m : Nat} {m0 : W → B} {o o' : List Event}
    (h1 : (runN env0 P n (initCfg P m0)).isDone = true) (h2 : (runN env0 Q m (initCfg Q m0)).isDone = true)
    (h3 : (runN env0 P n (initCfg P m0)).out? = some o) (h4 : (runN env0 Q m (initCfg Q m0)).out? = some o')
    (hne : o ≠ o') : ¬ Refines P Q := by
  intro hr
  obtain ⟨d, hd⟩ := Res.isDone_iff h1
  obtain ⟨d', hd'⟩ := Res.isDone_iff h2
  rw [hd] at h3
  rw [hd'] at h4
  simp only [Res.out?, Option.some.injEq] at h3 h4
  have b := hr env0 env0_ok m0 (safe_of_done hd)
  obtain ⟨k, d2, e1, _, e3⟩ := (b.ends d.mem o).1 ⟨n, d, hd, rfl, h3⟩
  have : d2 = d' := by
    rcases Nat.le_total k m with hle | hle
    · have := runN_done_le hle e1; rw [hd'] at this; exact (Res.done.inj this).symm
    · have := runN_done_le hle hd'; rw [e1] at this; exact Res.done.inj this
  subst this
  exact hne (e3.symm.trans h4)

/-- `IF A <= 32767 THEN PUT 65`, as the parser emits it. -/
def bug1 : List Codew :=
  [.tok .VAR_LOAD, .varn 0 "A", .tok .PUSH_NUM, .word 32767, .tok .GT, .tok .L_NOT, .tok .CJUMP, .wordStr "lbl1",
   .tok .BYTE, .byte 65, .tok .PUT, .label "lbl1", .tok .END]

def bug1Opt : List Codew :=
  [.tok .VAR_LOAD, .varn 0 "A", .tok .PUSH_NUM, .word 0x8000, .tok .LT, .tok .CJUMP, .wordStr "lbl1",
   .tok .BYTE_PUT, .byte 65, .label "lbl1", .tok .END]

theorem bug1_opt : optimizeF Fix.actual 60 6 bug1 = some ⟨bug1Opt, true, false⟩ := by decide +kernel

/-- **C03 is false of the code**: `IF A <= 32767 THEN PUT 65` prints nothing after optimization. -/
theorem C03_optimizer_refuted :
    ¬ ∀ (P Q : List Codew) (fuel : Nat), Good P → optimize Fix.actual fuel P = some Q → Refines P Q := by
  intro h
  have h1 := h bug1 bug1Opt 6 (by decide +kernel) (by simp only [optimize, optimizeF_sound bug1_opt]; rfl)
  exact not_refines (n := 20) (m := 20) (m0 := fun _ => 0) (o := [.put 0 65]) (o' := []) (by decide +kernel) (by decide +kernel)
    (by decide +kernel) (by decide +kernel) (by simp) h1

/-! ## C04 -/

/-- **C04**: after optimizing (the code as it is, all programs) labels are defined at most once, no label
appears that was not there, and every name used by a jump, call or address literal that was defined in
the program, or elsewhere (`E`), still is. -/
theorem C04_optimizer_keeps_jump_targets {P Q : List Codew} {fuel : Nat} (hg : Wf P) (h : optimize Fix.actual fuel P = some Q) :
    (∀ l, (Q.filter (· == .label l)).length ≤ 1) ∧ (∀ l, .label l ∈ Q → .label l ∈ P) ∧
    ∀ E : String → Prop, (∀ l, .wordStr l ∈ P → .label l ∈ P ∨ E l) → (∀ l, .wordStr l ∈ Q → .label l ∈ Q ∨ E l) := by
  simp only [optimize, Option.map_eq_some_iff] at h
  obtain ⟨e, he, rfl⟩ := h
  obtain ⟨h1, _, h3⟩ := optimizeEd_wf Fix.actual he hg
  refine ⟨fun l => ?_, fun l hl => mem_labels.1 (h3.1 l (mem_labels.2 hl)), fun E hE l hl => ?_⟩
  · have hn := h1.nodup
    generalize e.code = c at hn
    induction c with
    | nil => simp
    | cons a c ih =>
      have hn' : (labels c).Nodup := by
        have : labels (a :: c) = labels [a] ++ labels c := labels_append [a] c
        rw [this] at hn; exact (List.nodup_append.1 hn).2.1
      by_cases ha : a = .label l
      · subst ha
        have : c.filter (· == .label l) = [] := by
          rw [List.filter_eq_nil_iff]
          intro x hx hxl
          have hxl : x = .label l := by simpa using hxl
          subst hxl
          have e1 : labels (.label l :: c) = l :: labels c := rfl
          rw [e1] at hn
          exact (List.nodup_cons.1 hn).1 (mem_labels.2 hx)
        simp [this]
      · have : (a :: c).filter (· == .label l) = c.filter (· == .label l) := by simp [ha]
        rw [this]; exact ih hn'
  · have := h3.2 E (fun l hl => (hE l hl).imp mem_labels.2 id) l hl
    exact this.imp mem_labels.1 id

/-- The hypotheses are met by `exLoop`, whose jump is to `lbl1`. -/
example : Wf exLoop ∧ optimize Fix.actual 6 exLoop = some exLoopOpt ∧ .wordStr "lbl1" ∈ exLoop ∧ .label "lbl1" ∈ exLoop := by
  refine ⟨by decide +kernel, ?_, by decide +kernel, by decide +kernel⟩
  simp only [optimize, optimizeF_sound exLoop_opt.1]; rfl

/-! ## C41 -/

/-- **C41**: on every well-formed program the optimizer as it is never reads or writes outside of the code
vector, and leaves every instruction with its operands. -/
theorem C41_optimizer_stays_in_bounds {P : List Codew} {fuel : Nat} {e : Ed} (hg : Wf P) (h : optimizeEd Fix.actual fuel P = some e) :
    e.ub = false ∧ wf e.code = true :=
  let x := optimizeEd_wf Fix.actual h hg
  ⟨x.2.1, x.1.ops⟩

example : Wf exLoop ∧ optimizeEd Fix.actual 6 exLoop = some ⟨exLoopOpt, true, false⟩ :=
  ⟨by decide +kernel, optimizeF_sound exLoop_opt.1⟩

/-! ## C05 -/

/-- **C05, the part that holds**: on every well-formed program each round of the main loop of the
optimizer, however many there are, ends: every iteration of every pass leaves less to do (`ub` would be set
otherwise).  Missing: that the number of rounds is finite, which is false in general. -/
theorem C05_every_round_terminates_partial (P : List Codew) (hg : Wf P) (n : Nat) :
    (Nat.repeat (round Fix.actual) n (prepare ⟨P, false, false⟩)).ub = false ∧
    (finish (Nat.repeat (round Fix.actual) n (prepare ⟨P, false, false⟩))).ub = false := by
  have h : ∀ n, Wf (Nat.repeat (round Fix.actual) n (prepare ⟨P, false, false⟩)).code ∧
      (Nat.repeat (round Fix.actual) n (prepare ⟨P, false, false⟩)).ub = false := by
    intro n
    induction n with
    | zero => have := prepare_wf ⟨P, false, false⟩ hg; exact ⟨this.1, this.2.1⟩
    | succ n ih => have := round_wf Fix.actual _ ih.1; exact ⟨this.1, this.2.1.trans ih.2⟩
  exact ⟨(h n).2, ((finish_wf _ (h n).1).2.1).trans (h n).2⟩

/-- Three procedures that call each other in a cycle as their last action, placed apart:
`PROC A : EXEC B : ENDPROC`, `PROC P : GET K : ENDPROC`, `PROC B : EXEC C : ENDPROC`, … -/
def cyc : List Codew :=
  [.tok .CALL, .wordStr "lblA", .tok .CALL, .wordStr "lblp", .tok .CALL, .wordStr "lblq", .tok .END,
   .label "lblA", .tok .CALL, .wordStr "lblB", .tok .RET, .label "lblp", .tok .GET, .tok .RET,
   .label "lblB", .tok .CALL, .wordStr "lblC", .tok .RET, .label "lblq", .tok .GET, .tok .RET,
   .label "lblC", .tok .CALL, .wordStr "lblA", .tok .RET]

def cyc1 : List Codew :=
  [.tok .CALL, .wordStr "lblA", .tok .CALL, .wordStr "lblp", .tok .CALL, .wordStr "lblq", .tok .END,
   .label "lblA", .tok .JUMP, .wordStr "lblB", .label "lblp", .tok .GET, .tok .RET,
   .label "lblB", .tok .JUMP, .wordStr "lblC", .label "lblq", .tok .GET, .tok .RET,
   .label "lblC", .tok .JUMP, .wordStr "lblA"]

def cyc2 : List Codew :=
  [.tok .CALL, .wordStr "lblA", .tok .CALL, .wordStr "lblp", .tok .CALL, .wordStr "lblq", .tok .END,
   .label "lblA", .tok .JUMP, .wordStr "lblC", .label "lblp", .tok .GET, .tok .RET,
   .label "lblB", .tok .JUMP, .wordStr "lblA", .label "lblq", .tok .GET, .tok .RET,
   .label "lblC", .tok .JUMP, .wordStr "lblB"]

theorem cyc_prepare : prepareF 60 ⟨cyc, false, false⟩ = some ⟨cyc, false, false⟩ := by decide +kernel
theorem cyc_0 : roundF Fix.actual 60 ⟨cyc, false, false⟩ = some ⟨cyc1, true, false⟩ := by decide +kernel
theorem cyc_1 : roundF Fix.actual 60 ⟨cyc1, true, false⟩ = some ⟨cyc2, true, false⟩ := by decide +kernel
theorem cyc_2 : roundF Fix.actual 60 ⟨cyc2, true, false⟩ = some ⟨cyc1, true, false⟩ := by decide +kernel

theorem cyc_rounds : ∀ fuel, rounds Fix.actual fuel ⟨cyc1, true, false⟩ = none ∧ rounds Fix.actual fuel ⟨cyc2, true, false⟩ = none := by
  intro fuel
  induction fuel with
  | zero => exact ⟨rfl, rfl⟩
  | succ n ih =>
    simp only [rounds, roundF_sound cyc_1, roundF_sound cyc_2, if_true]
    exact ⟨ih.2, ih.1⟩

/-- **C05 is false of the code**: on this well-formed program the optimizer never stops. -/
theorem C05_termination_refuted : Good cyc ∧ ∀ fuel, optimize Fix.actual fuel cyc = none := by
  refine ⟨by decide +kernel, fun fuel => ?_⟩
  simp only [optimize, optimizeEd, prepareF_sound cyc_prepare, Option.map_map, Option.map_eq_none_iff]
  cases fuel with
  | zero => rfl
  | succ n =>
    simp only [rounds, roundF_sound cyc_0, if_true]
    exact (cyc_rounds n).1

end FB
