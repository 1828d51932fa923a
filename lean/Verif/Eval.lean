import Verif.Peephole
/-!
Evaluation of the optimizer on concrete programs: a copy of its loops that recurses on a counter, so
that the kernel can compute it, and the proof that it yields the same results.  No new model here.
-/
namespace FB.Peep

/-- `loop` with a counter. -/
def loopF {σ : Type} (body : σ → Ed → σ × Ed × Nat) : Nat → σ → List Codew → Ed → Option Ed
  | 0, _, _, _ => none
  | n + 1, s, acc, e =>
    if e.code = [] then some { e with code := acc }
    else
      let r := body s e
      if weight (r.2.1.code.drop r.2.2) < weight e.code then
        loopF body n r.1 (acc ++ r.2.1.code.take r.2.2) { r.2.1 with code := r.2.1.code.drop r.2.2 }
      else some { r.2.1 with code := acc ++ r.2.1.code, ub := true }

theorem loopF_sound {σ : Type} {body : σ → Ed → σ × Ed × Nat} : ∀ n s acc e r,
    loopF body n s acc e = some r → loop body s acc e = r := by
  intro n
  induction n with
  | zero => intro s acc e r h; simp [loopF] at h
  | succ n ih =>
    intro s acc e r h
    rw [loop]
    simp only [loopF] at h
    split at h
    · rename_i hc; rw [if_pos hc]; exact Option.some.inj h
    · rename_i hc
      rw [if_neg hc]
      simp only
      split at h
      · rename_i hw; rw [dif_pos hw]; exact ih _ _ _ _ h
      · rename_i hw; rw [dif_neg hw]; exact Option.some.inj h

/-- `round` with a counter for each loop. -/
def roundF (fx : Fix) (n : Nat) (e : Ed) : Option Ed := do
  let e := { e with changed := false }
  let e ← loopF (removeLabelsBody (usedLabels e.code)) n () [] e
  let e ← loopF (replaceBody (targets e.code)) n () [] e
  let e ← loopF traceIochnBody n 0 [] e
  loopF (mainBody fx) n 0 [] e

theorem roundF_sound {fx n e r} (h : roundF fx n e = some r) : round fx e = r := by
  simp only [roundF, Option.bind_eq_bind, Option.bind_eq_some_iff] at h
  obtain ⟨e1, h1, e2, h2, e3, h3, h4⟩ := h
  simp only [round, removeUnusedLabels, replaceLabelTargets, traceIochn]
  rw [loopF_sound _ _ _ _ _ h1, loopF_sound _ _ _ _ _ h2, loopF_sound _ _ _ _ _ h3, loopF_sound _ _ _ _ _ h4]

/-- `rounds` with a counter for each loop. -/
def roundsF (fx : Fix) (n : Nat) : Nat → Ed → Option Ed
  | 0, _ => none
  | fuel + 1, e => do
      let e' ← roundF fx n e
      if e'.changed then roundsF fx n fuel e' else some e'

theorem roundsF_sound {fx n} : ∀ fuel e r, roundsF fx n fuel e = some r → rounds fx fuel e = some r := by
  intro fuel
  induction fuel with
  | zero => intro e r h; simp [roundsF] at h
  | succ f ih =>
    intro e r h
    simp only [roundsF, Option.bind_eq_bind, Option.bind_eq_some_iff] at h
    obtain ⟨e', h1, h2⟩ := h
    simp only [rounds, roundF_sound h1]
    split at h2
    · rename_i hc; rw [if_pos hc]; exact ih _ _ h2
    · rename_i hc; rw [if_neg hc]; exact h2

/-- `prepare` with a counter. -/
def prepareF (n : Nat) (e : Ed) : Option Ed := do
  let e ← loopF expandPushBody n () [] e
  loopF expandNumbersBody n () [] e

/-- `finish` with a counter. -/
def finishF (n : Nat) (e : Ed) : Option Ed := do
  let e ← loopF printCharsBody n 0 [] e
  let e ← loopF shortenNumbersBody n () [] e
  let e ← loopF foldPushBody n () [] e
  loopF foldSaddrBody n () [] e

theorem prepareF_sound {n e r} (h : prepareF n e = some r) : prepare e = r := by
  simp only [prepareF, Option.bind_eq_bind, Option.bind_eq_some_iff] at h
  obtain ⟨e1, h1, h2⟩ := h
  simp only [prepare, loopF_sound _ _ _ _ _ h1, loopF_sound _ _ _ _ _ h2]

theorem finishF_sound {n e r} (h : finishF n e = some r) : finish e = r := by
  simp only [finishF, Option.bind_eq_bind, Option.bind_eq_some_iff] at h
  obtain ⟨e1, h1, e2, h2, e3, h3, h4⟩ := h
  simp only [finish, loopF_sound _ _ _ _ _ h1, loopF_sound _ _ _ _ _ h2, loopF_sound _ _ _ _ _ h3, loopF_sound _ _ _ _ _ h4]

/-- `optimizeEd` with a counter. -/
def optimizeF (fx : Fix) (n fuel : Nat) (P : List Codew) : Option Ed := do
  let e ← prepareF n ⟨P, false, false⟩
  let e ← roundsF fx n fuel e
  finishF n e

theorem optimizeF_sound {fx n fuel P e} (h : optimizeF fx n fuel P = some e) : optimizeEd fx fuel P = some e := by
  simp only [optimizeF, Option.bind_eq_bind, Option.bind_eq_some_iff] at h
  obtain ⟨e1, h1, e2, h2, h3⟩ := h
  simp only [optimizeEd, prepareF_sound h1, roundsF_sound _ _ _ h2, Option.map_some, finishF_sound h3]

end FB.Peep
