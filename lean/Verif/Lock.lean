import Verif.Simulation
/-! Lock-step lemmas: two programs that execute the same instruction stay related. -/
namespace FB

/-- Return stacks related entry by entry; the source may hold extra entries that return at once
(left behind by a call in tail position). -/
inductive RetRel (S : W → List Codew → List Codew → Prop) : List (List Codew) → List (List Codew) → Prop
  | nil : RetRel S [] []
  | cons {a b r1 r2} : S 0 a b → RetRel S r1 r2 → RetRel S (a :: r1) (b :: r2)
  | drop {q r1 r2} : RetRel S r1 r2 → RetRel S ((.tok .RET :: q) :: r1) r2

/-- Related configurations, given a relation on code positions (that may depend on the I/O channel). -/
structure CR (S : W → List Codew → List Codew → Prop) (c1 c2 : Cfg) : Prop where
  code : S c1.d.iochn c1.code c2.code
  rets : RetRel S c1.rets c2.rets
  d : LessDef c1.d c2.d
  color : c1.d.color = 0

variable {env : Env} {P Q : List Codew} {S : W → List Codew → List Codew → Prop} {c1 c2 : Cfg}

theorem runN_one (env : Env) (P : List Codew) (c : Cfg) : runN env P 1 c = step env P c := by
  simp only [runN]; cases step env P c <;> rfl

theorem runN_succ_of_step {n c c'} (h : step env P c = .run c') :
    runN env P (n + 1) c = runN env P n c' := by simp only [runN, h]

theorem sim_wrong {R} (h : step env P c1 = .wrong) : SimStep env P Q R c1 c2 :=
  .inl ⟨1, by rw [runN_one, h]⟩

theorem sim_step {R c1' c2'} (h1 : step env P c1 = .run c1') (h2 : step env Q c2 = .run c2')
    (h : R c1' c2') : SimStep env P Q R c1 c2 :=
  .inr (.inr ⟨0, 1, c1', c2', by rw [runN_one, h1], by rw [runN_one, h2], h, .inl (by omega)⟩)

theorem sim_run {R n m c1' c2'} (h1 : runN env P (n+1) c1 = .run c1') (h2 : runN env Q (m+1) c2 = .run c2')
    (h : R c1' c2') : SimStep env P Q R c1 c2 :=
  .inr (.inr ⟨n, m+1, c1', c2', h1, h2, h, .inl (by omega)⟩)

theorem sim_stutter {R n c1'} (h1 : runN env P (n+1) c1 = .run c1') (h : R c1' c2)
    (hl : c1'.code.length < c1.code.length) : SimStep env P Q R c1 c2 :=
  .inr (.inr ⟨n, 0, c1', c2, h1, rfl, h, .inr hl⟩)

/-- Several source steps first. -/
theorem sim_after {R n c1'} (h1 : runN env P n c1 = .run c1') 
    (h : SimStep env P Q R c1' c2) (hl : c1'.code.length ≤ c1.code.length) : SimStep env P Q R c1 c2 := by
  rcases h with ⟨k, hk⟩ | ⟨k, m, d1, d2, h2, h3⟩ | ⟨k, m, x1, x2, h2, h3, h4, h5⟩
  · exact .inl ⟨n + k, by rw [runN_add_run h1, hk]⟩
  · exact .inr (.inl ⟨n + k, m, d1, d2, by rw [runN_add_run h1, h2], h3⟩)
  · refine .inr (.inr ⟨n + k, m, x1, x2, by rw [Nat.add_assoc, runN_add_run h1, h2], h3, h4, ?_⟩)
    omega

theorem findLabel_head {l : String} {P k : List Codew} (h : findLabel l P = some k) : ∃ r, k = .label l :: r := by
  induction P with
  | nil => simp [findLabel] at h
  | cons a P ih =>
    simp only [findLabel] at h
    split at h
    · simp only [Option.some.injEq] at h; subst_vars; exact ⟨_, rfl⟩
    · exact ih h

theorem LessDef.axBool {d1 d2 : D} (hl : LessDef d1 d2) {b} (h : d1.axBool = some b) : d2.axBool = some b := by
  rcases hl.ax with h1 | h1
  · simp [D.axBool, h1] at h
  · simpa [D.axBool, h1] using h

/-- A jump to a label in both programs. -/
theorem sim_goto {x1 x2 : Cfg} {l : String} {R}
    (h1 : step env P c1 = goto P x1 l) (h2 : step env Q c2 = goto Q x2 l)
    (hlab : ∀ k1, findLabel l P = some k1 → ∃ k2, findLabel l Q = some k2 ∧
      (x1.d.iochn = 0 → R { x1 with code := k1, d := x1.d.killAx } { x2 with code := k2, d := x2.d.killAx })) :
    SimStep env P Q R c1 c2 := by
  cases hf : findLabel l P with
  | none => exact sim_wrong (by rw [h1]; simp [goto, hf])
  | some k1 =>
    obtain ⟨k2, hk2, hR⟩ := hlab k1 hf
    by_cases hio : x1.d.iochn = 0
    · exact sim_step (by rw [h1]; simp only [goto, hf]) (by rw [h2]; simp only [goto, hk2]) (hR hio)
    · obtain ⟨r, rfl⟩ := findLabel_head hf
      refine .inl ⟨2, ?_⟩
      have : step env P c1 = .run { x1 with code := .label l :: r, d := x1.d.killAx } := by
        rw [h1]; simp only [goto, hf]
      rw [runN_succ_of_step this, runN_one]
      show (if x1.d.killAx.iochn = 0 then _ else _) = _
      exact if_neg hio

/-- Returning: the source may return several times. -/
theorem run_ret {r1 r2 : List (List Codew)} (hr : RetRel S r1 r2) (q : List Codew) (d : D) (hio : d.iochn = 0) :
    (∃ n, runN env P n ⟨.tok .RET :: q, r1, d⟩ = .wrong) ∨
    (∃ n k1 k2 r1' r2', runN env P (n+1) ⟨.tok .RET :: q, r1, d⟩ = .run ⟨k1, r1', d.killAx⟩ ∧ r2 = k2 :: r2' ∧
       S 0 k1 k2 ∧ RetRel S r1' r2') := by
  have hstep : ∀ q r (d : D), step env P ⟨.tok .RET :: q, r, d⟩ = doRet ⟨.tok .RET :: q, r, d⟩ := fun _ _ _ => rfl
  induction hr generalizing q d with
  | nil => exact .inl ⟨1, by rw [runN_one, hstep]; simp [doRet, hio]⟩
  | @cons a b r1 r2 h1 h2 ih =>
    refine .inr ⟨0, a, b, r1, r2, ?_, rfl, h1, h2⟩
    rw [runN_one, hstep]; simp [doRet, hio]
  | @drop q' r1 r2 h ih =>
    have h0 : step env P ⟨.tok .RET :: q, (.tok .RET :: q') :: r1, d⟩ = .run ⟨.tok .RET :: q', r1, d.killAx⟩ := by
      rw [hstep]; simp [doRet, hio]
    rcases ih q' d.killAx hio with ⟨n, hn⟩ | ⟨n, k1, k2, r1', r2', hn, h2, h3, h4⟩
    · exact .inl ⟨n+1, by rw [runN_succ_of_step h0, hn]⟩
    · exact .inr ⟨n+1, k1, k2, r1', r2', by rw [runN_succ_of_step h0, hn]; rfl, h2, h3, h4⟩

/-- Both programs return. -/
theorem sim_ret (h1 : step env P c1 = doRet c1) (h2 : step env Q c2 = doRet c2) (hr : RetRel S c1.rets c2.rets)
    (hd : LessDef c1.d c2.d) (hc : c1.d.color = 0) : SimStep env P Q (CR S) c1 c2 := by
  by_cases hio : c1.d.iochn = 0
  · have e : ∀ n, runN env P (n+1) c1 = runN env P (n+1) ⟨.tok .RET :: [], c1.rets, c1.d⟩ := by
      intro n
      simp only [runN, h1]
      have : step env P ⟨.tok .RET :: [], c1.rets, c1.d⟩ = doRet ⟨.tok .RET :: [], c1.rets, c1.d⟩ := rfl
      rw [this]; rfl
    rcases run_ret (env := env) (P := P) hr [] c1.d hio with ⟨n, hn⟩ | ⟨n, k1, k2, r1', r2', hn, h3, h4, h5⟩
    · cases n with
      | zero => simp [runN] at hn
      | succ n => exact .inl ⟨n+1, by rw [e, hn]⟩
    · refine sim_run (m := 0) (n := n) (c1' := ⟨k1, r1', c1.d.killAx⟩) (by rw [e, hn]) (c2' := ⟨k2, r2', c2.d.killAx⟩) ?_ ⟨?_, h5, hd.killAx, hc⟩
      · have hio2 : c2.d.iochn = 0 := by rw [← hd.iochn, hio]
        rw [runN_one, h2]; simp [doRet, hio2, h3]
      · show S c1.d.iochn k1 k2
        exact hio ▸ h4
  · exact sim_wrong (by rw [h1]; exact if_neg hio)

/-- The same data instruction in both programs. -/
theorem lock_data (he : EnvOK env) {t ops x1 x2 r1 r2} (hR : CR S c1 c2)
    (hc1 : c1.code = .tok t :: x1) (hc2 : c2.code = .tok t :: x2)
    (ho1 : splitOps (arity env t) x1 = some (ops, r1)) (ho2 : splitOps (arity env t) x2 = some (ops, r2))
    (ht : isCtl t = false) (hcol : Codew.byteStr "PRINT_COLOR" ∉ ops)
    (hS : ∀ d', sem env t ops c1.d = some d' → S d'.iochn r1 r2) : SimStep env P Q (CR S) c1 c2 := by
  cases hs : sem env t ops c1.d with
  | none => exact sim_wrong (by simp [step, hc1, ho1, ht, hs])
  | some d1 =>
    obtain ⟨d2, hs2, hl⟩ := sem_mono' he hR.d d1 hs
    refine sim_step (c1' := { c1 with code := r1, d := d1 }) (c2' := { c2 with code := r2, d := d2 })
      (by simp [step, hc1, ho1, ht, hs]) (by simp [step, hc2, ho2, ht, hs2]) ⟨hS d1 hs, hR.rets, hl, ?_⟩
    show d1.color = 0
    rw [sem_color he hs hcol, hR.color]

/-- The same label in both programs. -/
theorem lock_label {l l' r1 r2} (hR : CR S c1 c2) (hc1 : c1.code = .label l :: r1) (hc2 : c2.code = .label l' :: r2)
    (hS : c1.d.iochn = 0 → S 0 r1 r2) : SimStep env P Q (CR S) c1 c2 := by
  by_cases hio : c1.d.iochn = 0
  · have hio2 : c2.d.iochn = 0 := by rw [← hR.d.iochn, hio]
    refine sim_step (c1' := { c1 with code := r1 }) (c2' := { c2 with code := r2 })
      (by simp [step, hc1, hio]) (by simp [step, hc2, hio2]) ⟨by simpa [hio] using hS hio, hR.rets, hR.d, hR.color⟩
  · exact sim_wrong (by simp only [step, hc1]; exact if_neg hio)

/-- The same control instruction in both programs. -/
theorem lock_ctl {t ops x1 x2 r1 r2} (hR : CR S c1 c2)
    (hc1 : c1.code = .tok t :: x1) (hc2 : c2.code = .tok t :: x2)
    (ho1 : splitOps (arity env t) x1 = some (ops, r1)) (ho2 : splitOps (arity env t) x2 = some (ops, r2))
    (ht : isCtl t = true)
    (hS : t ≠ .CALL → S c1.d.iochn r1 r2) (hS0 : t = .CALL → S 0 r1 r2)
    (hlab : ∀ l, ops = [.wordStr l] → ∀ k1, findLabel l P = some k1 →
       ∃ k2, findLabel l Q = some k2 ∧ S 0 k1 k2) :
    SimStep env P Q (CR S) c1 c2 := by
  have s1 : step env P c1 = ctl P t ops r1 c1 := by simp [step, hc1, ho1, ht]
  have s2 : step env Q c2 = ctl Q t ops r2 c2 := by simp [step, hc2, ho2, ht]
  have fall : t ≠ .CALL → CR S { c1 with code := r1, d := c1.d.killAx } { c2 with code := r2, d := c2.d.killAx } :=
    fun ht => ⟨hS ht, hR.rets, hR.d.killAx, hR.color⟩
  have jmp : ∀ l, ops = [.wordStr l] → ∀ k1, findLabel l P = some k1 → ∃ k2, findLabel l Q = some k2 ∧
      (c1.d.iochn = 0 → CR S { c1 with code := k1, d := c1.d.killAx } { c2 with code := k2, d := c2.d.killAx }) := by
    intro l hl k1 hk1
    obtain ⟨k2, hk2, hS⟩ := hlab l hl k1 hk1
    exact ⟨k2, hk2, fun hio => ⟨by simpa [D.killAx, hio] using hS, hR.rets, hR.d.killAx, hR.color⟩⟩
  have hbool : ∀ b, c1.d.axBool = some b → c2.d.axBool = some b := fun b => hR.d.axBool
  unfold ctl at s1 s2
  split at s1
  · exact sim_goto s1 s2 (jmp _ rfl)
  · cases hb : c1.d.axBool with
    | none => exact sim_wrong (by rw [s1, hb])
    | some b =>
      simp only [hb, hbool b hb] at s1 s2
      cases b
      · exact sim_goto s1 s2 (jmp _ rfl)
      · exact sim_step s1 s2 (fall (by simp))
  · cases hb : c1.d.axBool with
    | none => exact sim_wrong (by rw [s1, hb])
    | some b =>
      simp only [hb, hbool b hb] at s1 s2
      cases b
      · exact sim_step s1 s2 (fall (by simp))
      · exact sim_goto s1 s2 (jmp _ rfl)
  · rename_i l
    refine sim_goto s1 s2 fun k1 hk1 => ?_
    obtain ⟨k2, hk2, hS⟩ := hlab l rfl k1 hk1
    exact ⟨k2, hk2, fun hio => ⟨by simp [D.killAx] at hio ⊢; simpa [hio] using hS, .cons (hS0 rfl) hR.rets, hR.d.killAx, hR.color⟩⟩
  · exact sim_ret s1 s2 hR.rets hR.d hR.color
  · cases hb : c1.d.axBool with
    | none => exact sim_wrong (by rw [s1, hb])
    | some b =>
      simp only [hb, hbool b hb] at s1 s2
      cases b
      · exact sim_ret s1 s2 hR.rets hR.d hR.color
      · exact sim_step s1 s2 (fall (by simp))
  · cases hb : c1.d.axBool with
    | none => exact sim_wrong (by rw [s1, hb])
    | some b =>
      simp only [hb, hbool b hb] at s1 s2
      cases b
      · exact sim_step s1 s2 (fall (by simp))
      · exact sim_ret s1 s2 hR.rets hR.d hR.color
  · exact .inr (.inl ⟨1, 1, c1.d, c2.d, by rw [runN_one, s1], by rw [runN_one, s2], hR.d.mem, hR.d.out⟩)
  · exact sim_wrong s1

end FB
