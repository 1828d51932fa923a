import Verif.SemLemmas
/-! A simulation between two programs gives the same behaviour (`sim_behaves`). -/
namespace FB

theorem goto_out {P c l c'} (h : goto P c l = .run c') : c'.d.out = c.d.out := by
  unfold goto at h; split at h <;> simp_all; subst h; rfl

theorem goto_not_done {P c l d} : goto P c l ≠ .done d := by
  unfold goto; split <;> simp

theorem doRet_not_done {c d} : doRet c ≠ .done d := by
  unfold doRet; split
  · split <;> simp
  · simp

theorem doRet_out {c c'} (h : doRet c = .run c') : c'.d.out = c.d.out := by
  unfold doRet at h; split at h
  · split at h <;> simp_all; subst h; rfl
  · simp at h

theorem ctl_out {P t ops r c c'} (h : ctl P t ops r c = .run c') : c'.d.out = c.d.out := by
  unfold ctl at h
  split at h
  · exact goto_out h
  · split at h
    · split at h
      · simp only [Res.run.injEq] at h; subst h; rfl
      · exact goto_out h
    · simp at h
  · split at h
    · split at h
      · exact goto_out h
      · simp only [Res.run.injEq] at h; subst h; rfl
    · simp at h
  · exact goto_out (c := { c with rets := r :: c.rets }) h
  · exact doRet_out h
  · split at h
    · split at h
      · simp only [Res.run.injEq] at h; subst h; rfl
      · exact doRet_out h
    · simp at h
  · split at h
    · split at h
      · exact doRet_out h
      · simp only [Res.run.injEq] at h; subst h; rfl
    · simp at h
  · simp at h
  · simp at h

theorem ctl_done {P t ops r c d} (h : ctl P t ops r c = .done d) : t = .END ∧ ops = [] ∧ d = c.d := by
  unfold ctl at h
  split at h
  · exact absurd h goto_not_done
  · split at h
    · split at h
      · simp at h
      · exact absurd h goto_not_done
    · simp at h
  · split at h
    · split at h
      · exact absurd h goto_not_done
      · simp at h
    · simp at h
  · exact absurd h goto_not_done
  · exact absurd h doRet_not_done
  · split at h
    · split at h
      · simp at h
      · exact absurd h doRet_not_done
    · simp at h
  · split at h
    · split at h
      · exact absurd h doRet_not_done
      · simp at h
    · simp at h
  · simp_all
  · simp at h

theorem step_out {env : Env} (he : EnvOK env) {P c c'} (h : step env P c = .run c') : c.d.out <+: c'.d.out := by
  unfold step at h
  split at h
  · simp at h
  · split at h <;> simp at h; subst h; simp
  · split at h
    · simp at h
    · split at h
      · rw [ctl_out h]; exact List.prefix_refl _
      · split at h
        · simp only [Res.run.injEq] at h; subst h; exact sem_out he ‹_›
        · simp at h
  · simp at h

theorem step_done {env : Env} {P c d} (h : step env P c = .done d) : d = c.d := by
  unfold step at h
  split at h
  · simp at h
  · split at h <;> simp at h
  · split at h
    · simp at h
    · split at h
      · exact (ctl_done h).2.2
      · split at h <;> simp at h
  · simp at h

theorem runN_out {env : Env} (he : EnvOK env) {P n c o} (h : (runN env P n c).out? = some o) : c.d.out <+: o := by
  induction n generalizing c with
  | zero => simp [runN, Res.out?] at h; simp [h]
  | succ n ih =>
    simp only [runN] at h
    cases hs : step env P c with
    | run c' => rw [hs] at h; exact (step_out he hs).trans (ih h)
    | done d => rw [hs] at h; simp [Res.out?] at h; subst h; rw [step_done hs]; exact List.prefix_refl _
    | wrong => rw [hs] at h; simp [Res.out?] at h

theorem runN_out_mono {env : Env} (he : EnvOK env) {P a b c o o'} (hab : a ≤ b)
    (h1 : (runN env P a c).out? = some o) (h2 : (runN env P b c).out? = some o') : o <+: o' := by
  obtain ⟨k, rfl⟩ := Nat.exists_eq_add_of_le hab
  rw [runN_add] at h2
  cases h : runN env P a c with
  | run c' => rw [h] at h1 h2; simp [Res.out?] at h1; subst h1; exact runN_out he h2
  | done d => rw [h] at h1 h2; simp_all
  | wrong => rw [h] at h1; simp [Res.out?] at h1

/-- One round of a simulation: the source goes wrong, or both end alike, or both advance to related
configurations, and the target advances unless the source moves towards the end of its code. -/
def SimStep (env : Env) (P Q : List Codew) (R : Cfg → Cfg → Prop) (c1 c2 : Cfg) : Prop :=
  (∃ n, runN env P n c1 = .wrong) ∨
  (∃ n m d1 d2, runN env P n c1 = .done d1 ∧ runN env Q m c2 = .done d2 ∧ d1.mem = d2.mem ∧ d1.out = d2.out) ∨
  (∃ n m c1' c2', runN env P (n+1) c1 = .run c1' ∧ runN env Q m c2 = .run c2' ∧ R c1' c2' ∧
     (0 < m ∨ c1'.code.length < c1.code.length))

section
variable {env : Env} {P Q : List Codew} {R : Cfg → Cfg → Prop} 

theorem sim_fwd_done (hstep : ∀ c1 c2, R c1 c2 → SimStep env P Q R c1 c2) :
    ∀ n c1 c2 d, R c1 c2 → runN env P n c1 = .done d →
      ∃ m d2, runN env Q m c2 = .done d2 ∧ d.mem = d2.mem ∧ d.out = d2.out := by
  intro n
  induction n using Nat.strongRecOn with
  | ind n ih =>
    intro c1 c2 d hR hd
    rcases hstep c1 c2 hR with ⟨k, hk⟩ | ⟨k, m, d1, d2, h1, h2, h3⟩ | ⟨k, m, c1', c2', h1, h2, h3, h4⟩
    · exfalso
      have a := runN_done_le (Nat.le_max_left n k) hd
      have b := runN_wrong_le (Nat.le_max_right n k) hk
      simp [a] at b
    · have a := runN_done_le (Nat.le_max_left n k) hd
      have b := runN_done_le (Nat.le_max_right n k) h1
      rw [a] at b; cases b
      exact ⟨m, d2, h2, h3⟩
    · by_cases hk : k + 1 ≤ n
      · obtain ⟨j, rfl⟩ := Nat.exists_eq_add_of_le hk
        rw [runN_add_run h1] at hd
        obtain ⟨m', d2, hm, he⟩ := ih j (by omega) c1' c2' d h3 hd
        exact ⟨m + m', d2, by rw [runN_add_run h2, hm], he⟩
      · have := runN_done_le (b := k+1) (by omega) hd
        simp [h1] at this

theorem sim_bwd (hstep : ∀ c1 c2, R c1 c2 → SimStep env P Q R c1 c2) :
    ∀ m l c1 c2, c1.code.length = l → R c1 c2 → Safe env P c1 →
      (∀ d2, runN env Q m c2 = .done d2 → ∃ n d1, runN env P n c1 = .done d1 ∧ d1.mem = d2.mem ∧ d1.out = d2.out) ∧
      runN env Q m c2 ≠ .wrong := by
  intro m
  induction m using Nat.strongRecOn with
  | ind m ihm =>
  intro l
  induction l using Nat.strongRecOn with
  | ind l ihl =>
    intro c1 c2 hl hR hs
    rcases hstep c1 c2 hR with ⟨k, hk⟩ | ⟨k, j, d1, d2, h1, h2, h3⟩ | ⟨k, j, c1', c2', h1, h2, h3, h4⟩
    · exact absurd hk (hs k)
    · constructor
      · intro d2' hd
        have a := runN_done_le (Nat.le_max_left m j) hd
        have b := runN_done_le (Nat.le_max_right m j) h2
        rw [a] at b; cases b
        exact ⟨k, d1, h1, h3⟩
      · intro hw
        have a := runN_wrong_le (Nat.le_max_left m j) hw
        have b := runN_done_le (Nat.le_max_right m j) h2
        simp [a] at b
    · have hs' := hs.after h1
      by_cases hj : j ≤ m
      · obtain ⟨i, rfl⟩ := Nat.exists_eq_add_of_le hj
        rw [runN_add_run h2]
        have key : (∀ d2, runN env Q i c2' = .done d2 → ∃ n d1, runN env P n c1' = .done d1 ∧ d1.mem = d2.mem ∧ d1.out = d2.out) ∧
            runN env Q i c2' ≠ .wrong := by
          by_cases hj0 : 0 < j
          · exact ihm i (by omega) _ c1' c2' rfl h3 hs'
          · have hlt : c1'.code.length < c1.code.length := by omega
            have : j = 0 := by omega
            subst this
            simp only [Nat.zero_add] at ihl
            exact ihl _ (by omega) c1' c2' rfl h3 hs'
        refine ⟨fun d2 hd => ?_, key.2⟩
        obtain ⟨n, d1, hn, h⟩ := key.1 d2 hd
        exact ⟨k + 1 + n, d1, by rw [runN_add_run h1, hn], h⟩
      · constructor
        · intro d2 hd
          have := runN_done_le (b := j) (by omega) hd; simp [h2] at this
        · intro hw
          have := runN_wrong_le (b := j) (by omega) hw; simp [h2] at this

theorem sim_does_fwd (he : EnvOK env) (hout : ∀ c1 c2, R c1 c2 → c1.d.out = c2.d.out)
    (hstep : ∀ c1 c2, R c1 c2 → SimStep env P Q R c1 c2) :
    ∀ n c1 c2 o, R c1 c2 → Safe env P c1 → (runN env P n c1).out? = some o → Does env Q c2 o := by
  intro n
  induction n using Nat.strongRecOn with
  | ind n ih =>
    intro c1 c2 o hR hs ho
    rcases hstep c1 c2 hR with ⟨k, hk⟩ | ⟨k, m, d1, d2, h1, h2, _, h3⟩ | ⟨k, m, c1', c2', h1, h2, h3, h4⟩
    · exact absurd hk (hs k)
    · refine ⟨m, d2.out, by simp [h2, Res.out?], ?_⟩
      rw [← h3]
      by_cases hnk : n ≤ k
      · exact runN_out_mono he hnk ho (by simp [h1, Res.out?])
      · rw [runN_done_le (b := n) (by omega) h1] at ho; simp [Res.out?] at ho; simp [ho]
    · by_cases hk : k + 1 ≤ n
      · obtain ⟨j, rfl⟩ := Nat.exists_eq_add_of_le hk
        rw [runN_add_run h1] at ho
        obtain ⟨m', o', hm, hp⟩ := ih j (by omega) c1' c2' o h3 (hs.after h1) ho
        exact ⟨m + m', o', by rw [runN_add_run h2, hm], hp⟩
      · refine ⟨m, c2'.d.out, by simp [h2, Res.out?], ?_⟩
        rw [← hout _ _ h3]
        exact runN_out_mono he (b := k+1) (by omega) ho (by simp [h1, Res.out?])

theorem sim_does_bwd (he : EnvOK env) (hout : ∀ c1 c2, R c1 c2 → c1.d.out = c2.d.out)
    (hstep : ∀ c1 c2, R c1 c2 → SimStep env P Q R c1 c2) :
    ∀ m l c1 c2 o, c1.code.length = l → R c1 c2 → Safe env P c1 → (runN env Q m c2).out? = some o → Does env P c1 o := by
  intro m
  induction m using Nat.strongRecOn with
  | ind m ihm =>
  intro l
  induction l using Nat.strongRecOn with
  | ind l ihl =>
    intro c1 c2 o hl hR hs ho
    rcases hstep c1 c2 hR with ⟨k, hk⟩ | ⟨k, j, d1, d2, h1, h2, _, h3⟩ | ⟨k, j, c1', c2', h1, h2, h3, h4⟩
    · exact absurd hk (hs k)
    · refine ⟨k, d1.out, by simp [h1, Res.out?], ?_⟩
      rw [h3]
      by_cases hnk : m ≤ j
      · exact runN_out_mono he hnk ho (by simp [h2, Res.out?])
      · rw [runN_done_le (b := m) (by omega) h2] at ho; simp [Res.out?] at ho; simp [ho]
    · have hs' := hs.after h1
      by_cases hj : j ≤ m
      · obtain ⟨i, rfl⟩ := Nat.exists_eq_add_of_le hj
        rw [runN_add_run h2] at ho
        have key : Does env P c1' o := by
          by_cases hj0 : 0 < j
          · exact ihm i (by omega) _ c1' c2' o rfl h3 hs' ho
          · have : j = 0 := by omega
            subst this
            simp only [Nat.zero_add] at ihl
            exact ihl _ (by omega) c1' c2' o rfl h3 hs' ho
        obtain ⟨n, o', hn, h⟩ := key
        exact ⟨k + 1 + n, o', by rw [runN_add_run h1, hn], h⟩
      · refine ⟨k+1, c1'.d.out, by simp [h1, Res.out?], ?_⟩
        rw [hout _ _ h3]
        exact runN_out_mono he (b := j) (by omega) ho (by simp [h2, Res.out?])

/-- A simulation gives the same behaviour. -/
theorem sim_behaves (he : EnvOK env) (hout : ∀ c1 c2, R c1 c2 → c1.d.out = c2.d.out)
    (hstep : ∀ c1 c2, R c1 c2 → SimStep env P Q R c1 c2) {c1 c2} (hR : R c1 c2) (hs : Safe env P c1) :
    Behaves env P c1 Q c2 := by
  refine ⟨fun m => (sim_bwd hstep m _ c1 c2 rfl hR hs).2, fun m o => ⟨?_, ?_⟩, fun o => ⟨?_, ?_⟩⟩
  · rintro ⟨n, d, hn, rfl, rfl⟩
    obtain ⟨m, d2, hm, h1, h2⟩ := sim_fwd_done hstep n c1 c2 d hR hn
    exact ⟨m, d2, hm, h1.symm, h2.symm⟩
  · rintro ⟨n, d, hn, rfl, rfl⟩
    exact (sim_bwd hstep n _ c1 c2 rfl hR hs).1 d hn
  · rintro ⟨n, o', hn, hp⟩
    obtain ⟨m, o2, hm, hp'⟩ := sim_does_fwd he hout hstep n c1 c2 o' hR hs hn
    exact ⟨m, o2, hm, hp.trans hp'⟩
  · rintro ⟨n, o', hn, hp⟩
    obtain ⟨m, o2, hm, hp'⟩ := sim_does_bwd he hout hstep n _ c1 c2 o' rfl hR hs hn
    exact ⟨m, o2, hm, hp.trans hp'⟩

end
end FB
