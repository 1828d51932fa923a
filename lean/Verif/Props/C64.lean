import Verif.Rt.Clock
/-!
# C64: the clock
-/
namespace FB.Rt

/-! ## Specification -/

/-- Specification: value of the three bytes of the clock. -/
def clock (r : W → B) : Nat := (r 20#16).toNat + 256 * (r 19#16).toNat + 65536 * (r 18#16).toNat

/-- Specification: number of interruptions at times from `s` on, before `t`. -/
def ticks (tk : Nat → Bool) (s t : Nat) : Nat := ((List.range (t - s)).filter fun i => tk (s + i)).length

/-- Specification: two interruptions are at least `d` steps apart. -/
def Spaced (tk : Nat → Bool) (d : Nat) : Prop := ∀ s t, s < t → tk s = true → tk t = true → s + d ≤ t

/-! ## The clock -/

theorem clock_tick (r : W → B) : clock (tickRam r) = (clock r + 1) % 16777216 := by
  rw [clock, clock, tickRam20, tickRam19, tickRam18]
  have h0 := (r 20#16).isLt
  have h1 := (r 19#16).isLt
  have h2 := (r 18#16).isLt
  generalize r 20#16 = a at *
  generalize r 19#16 = b at *
  generalize r 18#16 = c at *
  have e1 : a + 1#8 = 0#8 ↔ a.toNat = 255 := by
    rw [← BitVec.toNat_inj, BitVec.toNat_add]
    show (a.toNat + 1) % 256 = 0 ↔ _
    omega
  have e2 : b + 1#8 = 0#8 ↔ b.toNat = 255 := by
    rw [← BitVec.toNat_inj, BitVec.toNat_add]
    show (b.toNat + 1) % 256 = 0 ↔ _
    omega
  simp only [e1, BitVec.toNat_add]
  by_cases x : a.toNat = 255
  · simp only [x, if_true, true_and, e2]
    by_cases y : b.toNat = 255
    · simp [y]; omega
    · simp [y]; omega
  · simp [x]; omega

/-- In `D` steps there is at most one interruption. -/
theorem one_tick (tk : Nat → Bool) (D : Nat) (h : Spaced tk D) (s : Nat) : ∃ i ≤ D, ∀ j < D, tk (s + j) = decide (j = i) := by
  by_cases h1 : ∃ i < D, tk (s + i) = true
  · obtain ⟨i, hi, ht⟩ := h1
    refine ⟨i, by omega, fun j hj => ?_⟩
    by_cases e : j = i
    · simp [e, ht]
    · simp only [e, decide_false]
      cases hc : tk (s + j) with
      | false => rfl
      | true =>
        rcases Nat.lt_or_ge i j with l | l
        · have := h _ _ (by omega : s + i < s + j) ht hc; omega
        · have := h _ _ (by omega : s + j < s + i) hc ht; omega
  · refine ⟨D, by omega, fun j hj => ?_⟩
    simp only [not_exists, not_and] at h1
    have := h1 j hj
    simp only [Bool.not_eq_true] at this
    rw [this]; simp; omega

theorem clock_word (r : W → B) : word (r 20#16) (r 19#16) = BitVec.ofNat 16 (clock r) := by
  have h0 := (r 20#16).isLt
  have h1 := (r 19#16).isLt
  apply BitVec.eq_of_toNat_eq
  rw [word_toNat, BitVec.toNat_ofNat, clock]; omega

theorem clock_word1 (r : W → B) : word (tickRam r 20#16) (tickRam r 19#16) = BitVec.ofNat 16 (clock r + 1) := by
  rw [clock_word, clock_tick]
  apply BitVec.eq_of_toNat_eq
  rw [BitVec.toNat_ofNat, BitVec.toNat_ofNat]; omega

theorem tick_other (r : W → B) (a : W) (h1 : a ≠ 18#16) (h2 : a ≠ 19#16) (h3 : a ≠ 20#16) : tickRam r a = r a := by simp [tickRam, h1, h2, h3]

/-- What the two functions of time have in common: the memory at the end is that of before or that after one interruption. -/
structure TimeKept (m m' : M) : Prop where
  stk : m'.stk = m.stk
  zp : m'.zp = m.zp
  sl : m'.sl = m.sl
  sh : m'.sh = m.sh
  ram : ∀ a, a ≠ 18#16 → a ≠ 19#16 → a ≠ 20#16 → m'.ram a = m.ram a

theorem ticks_at (tk : Nat → Bool) (D i : Nat) (h : ∀ j < D, tk j = decide (j = i)) (t : Nat) (ht : t ≤ D) : ticks tk 0 t = if i < t then 1 else 0 := by
  have e : ((List.range t).filter fun j => tk (0 + j)) = (List.range t).filter fun j => decide (j = i) := by
    apply List.filter_congr
    intro x hx
    rw [Nat.zero_add, h x (by have := List.mem_range.1 hx; omega)]
  rw [ticks, Nat.sub_zero, e]
  clear e
  induction t with
  | zero => simp
  | succ t ih =>
    rw [List.range_succ, List.filter_append, List.length_append, ih (by omega)]
    by_cases c : t = i
    · simp [c]
    · simp only [List.filter_cons, c, decide_false, List.filter_nil]
      simp
      by_cases c2 : i < t
      · rw [if_pos c2, if_pos (by omega)]
      · rw [if_neg c2, if_neg (by omega)]

/-- `TIME`, for the steps with an interruption given. -/
theorem time_run (m : M) (tk : Nat → Bool) (i : Nat) (hi : i ≤ 10) (ht : ∀ j < 10, tk j = decide (j = i)) :
    ∃ n m' t, trun tmCode tk n 0 tmCode.EXE_TIME m = .halt m' ∧ n ≤ 9 ∧ t ≤ n ∧ t ≤ 10 ∧ m'.ax = BitVec.ofNat 16 (clock m.ram + if i < t then 1 else 0) ∧ TimeKept m m' := by
  have h0 := ht 0 (by omega)
  have h1 := ht 1 (by omega)
  have h2 := ht 2 (by omega)
  have h3 := ht 3 (by omega)
  have h4 := ht 4 (by omega)
  have h5 := ht 5 (by omega)
  have h6 := ht 6 (by omega)
  have h7 := ht 7 (by omega)
  have h8 := ht 8 (by omega)
  have w0 := clock_word m.ram
  have w1 := clock_word1 m.ram
  have k20 := tickRam20 m.ram
  have k19 := tickRam19 m.ram
  by_cases c : m.ram 20#16 + 1#8 = 0#8
  · rw [if_pos c] at k19
    have ne1 : ¬ m.ram 19#16 - (m.ram 19#16 + 1#8) = 0#8 := by generalize m.ram 19#16 = b; revert b; decide +kernel
    have ne2 : ¬ m.ram 19#16 + 1#8 - m.ram 19#16 = 0#8 := by generalize m.ram 19#16 = b; revert b; decide +kernel
    have : i = 0 ∨ i = 1 ∨ i = 2 ∨ i = 3 ∨ i = 4 ∨ 4 < i := by omega
    rcases this with rfl | rfl | rfl | rfl | rfl | h
    · simp at h0 h1 h2 h3 h4
      refine ⟨5, ?_, 2, ?_, by omega, by omega, by omega, ?_, ?_⟩
      rotate_left
      · rt_exec [trun, tmCode.EXE_TIME.eq, h0, h1, h2, h3, h4, M.tick]
        rfl
      · exact w1
      · exact ⟨rfl, rfl, rfl, rfl, tick_other m.ram⟩
    · simp at h0 h1 h2 h3 h4 h5 h6 h7 h8
      refine ⟨9, ?_, 6, ?_, by omega, by omega, by omega, ?_, ?_⟩
      rotate_left
      · rt_exec [trun, tmCode.EXE_TIME.eq, h0, h1, h2, h3, h4, h5, h6, h7, h8, M.tick, k19, ne1]
        rfl
      · rw [k19] at w1; exact w1
      · exact ⟨rfl, rfl, rfl, rfl, tick_other m.ram⟩
    · simp at h0 h1 h2 h3 h4 h5 h6 h7 h8
      refine ⟨9, ?_, 6, ?_, by omega, by omega, by omega, ?_, ?_⟩
      rotate_left
      · rt_exec [trun, tmCode.EXE_TIME.eq, h0, h1, h2, h3, h4, h5, h6, h7, h8, M.tick, k19, ne1]
        rfl
      · rw [k19] at w1; exact w1
      · exact ⟨rfl, rfl, rfl, rfl, tick_other m.ram⟩
    · simp at h0 h1 h2 h3 h4
      refine ⟨5, ?_, 2, ?_, by omega, by omega, by omega, ?_, ?_⟩
      rotate_left
      · rt_exec [trun, tmCode.EXE_TIME.eq, h0, h1, h2, h3, h4, M.tick]
        rfl
      · exact w0
      · exact ⟨rfl, rfl, rfl, rfl, tick_other m.ram⟩
    · simp at h0 h1 h2 h3 h4
      refine ⟨5, ?_, 2, ?_, by omega, by omega, by omega, ?_, ?_⟩
      rotate_left
      · rt_exec [trun, tmCode.EXE_TIME.eq, h0, h1, h2, h3, h4, M.tick]
        rfl
      · exact w0
      · exact ⟨rfl, rfl, rfl, rfl, tick_other m.ram⟩
    · rw [decide_eq_false (by omega)] at h0 h1 h2 h3 h4
      refine ⟨5, ?_, 2, ?_, by omega, by omega, by omega, ?_, ?_⟩
      rotate_left
      · rt_exec [trun, tmCode.EXE_TIME.eq, h0, h1, h2, h3, h4, M.tick]
        rfl
      · rw [if_neg (by omega)]; exact w0
      · exact ⟨rfl, rfl, rfl, rfl, fun _ _ _ _ => rfl⟩
  · rw [if_neg c, BitVec.add_zero] at k19
    have : i = 0 ∨ i = 1 ∨ i = 2 ∨ i = 3 ∨ i = 4 ∨ 4 < i := by omega
    rcases this with rfl | rfl | rfl | rfl | rfl | h
    · simp at h0 h1 h2 h3 h4
      refine ⟨5, ?_, 2, ?_, by omega, by omega, by omega, ?_, ?_⟩
      rotate_left
      · rt_exec [trun, tmCode.EXE_TIME.eq, h0, h1, h2, h3, h4, M.tick]
        rfl
      · exact w1
      · exact ⟨rfl, rfl, rfl, rfl, tick_other m.ram⟩
    · simp at h0 h1 h2 h3 h4
      refine ⟨5, ?_, 2, ?_, by omega, by omega, by omega, ?_, ?_⟩
      rotate_left
      · rt_exec [trun, tmCode.EXE_TIME.eq, h0, h1, h2, h3, h4, M.tick, k19]
        rfl
      · rw [k19] at w1; exact w1
      · exact ⟨rfl, rfl, rfl, rfl, tick_other m.ram⟩
    · simp at h0 h1 h2 h3 h4
      refine ⟨5, ?_, 2, ?_, by omega, by omega, by omega, ?_, ?_⟩
      rotate_left
      · rt_exec [trun, tmCode.EXE_TIME.eq, h0, h1, h2, h3, h4, M.tick, k19]
        rfl
      · exact w0
      · exact ⟨rfl, rfl, rfl, rfl, tick_other m.ram⟩
    · simp at h0 h1 h2 h3 h4
      refine ⟨5, ?_, 2, ?_, by omega, by omega, by omega, ?_, ?_⟩
      rotate_left
      · rt_exec [trun, tmCode.EXE_TIME.eq, h0, h1, h2, h3, h4, M.tick]
        rfl
      · exact w0
      · exact ⟨rfl, rfl, rfl, rfl, tick_other m.ram⟩
    · simp at h0 h1 h2 h3 h4
      refine ⟨5, ?_, 2, ?_, by omega, by omega, by omega, ?_, ?_⟩
      rotate_left
      · rt_exec [trun, tmCode.EXE_TIME.eq, h0, h1, h2, h3, h4, M.tick]
        rfl
      · exact w0
      · exact ⟨rfl, rfl, rfl, rfl, tick_other m.ram⟩
    · rw [decide_eq_false (by omega)] at h0 h1 h2 h3 h4
      refine ⟨5, ?_, 2, ?_, by omega, by omega, by omega, ?_, ?_⟩
      rotate_left
      · rt_exec [trun, tmCode.EXE_TIME.eq, h0, h1, h2, h3, h4, M.tick]
        rfl
      · rw [if_neg (by omega)]; exact w0
      · exact ⟨rfl, rfl, rfl, rfl, fun _ _ _ _ => rfl⟩

/-- **C64, TIME**: with interruptions at any times at least ten instructions apart, `TIME` ends (in at most nine instructions), and its value is the clock at some time during its execution: it never mixes bytes of two values. -/
theorem C64_time (m : M) (tk : Nat → Bool) (h : Spaced tk 10) :
    ∃ n m' t, trun tmCode tk n 0 tmCode.EXE_TIME m = .halt m' ∧ n ≤ 9 ∧ t ≤ n ∧ m'.ax = BitVec.ofNat 16 (clock m.ram + ticks tk 0 t) ∧ TimeKept m m' := by
  obtain ⟨i, hi, ht⟩ := one_tick tk 10 h 0
  simp only [Nat.zero_add] at ht
  obtain ⟨n, m', t, r, n9, t1, t2, v, k⟩ := time_run m tk i hi ht
  exact ⟨n, m', t, r, n9, t1, by rw [v, ticks_at tk 10 i ht t t2], k⟩

theorem ne_tick (b : B) : ¬ b - (b + 1#8) = 0#8 := by revert b; decide +kernel

/-- **C64, %TIME**: the same for the three bytes that `%TIME` reads, lowest first in `A`, `Y` and `X`, with interruptions at least twelve instructions apart. -/
theorem C64_fptime (m : M) (tk : Nat → Bool) (h : Spaced tk 12) :
    ∃ n m' t, trun tmCode tk n 0 tmCode.FP_TIME m = .halt m' ∧ n ≤ 11 ∧ t ≤ n ∧ m'.a.toNat + 256 * m'.y.toNat + 65536 * m'.x.toNat = (clock m.ram + ticks tk 0 t) % 16777216 ∧ TimeKept m m' := by
  obtain ⟨i, hi, ht⟩ := one_tick tk 12 h 0
  simp only [Nat.zero_add] at ht
  have tc := ticks_at tk 12 i ht
  have h0 := ht 0 (by omega)
  have h1 := ht 1 (by omega)
  have h2 := ht 2 (by omega)
  have h3 := ht 3 (by omega)
  have h4 := ht 4 (by omega)
  have h5 := ht 5 (by omega)
  have h6 := ht 6 (by omega)
  have h7 := ht 7 (by omega)
  have h8 := ht 8 (by omega)
  have h9 := ht 9 (by omega)
  have h10 := ht 10 (by omega)
  have w0 : clock m.ram = clock m.ram % 16777216 := by
    have l0 := (m.ram 20#16).isLt
    have l1 := (m.ram 19#16).isLt
    have l2 := (m.ram 18#16).isLt
    rw [clock]; omega
  have w1 := clock_tick m.ram
  have k20 := tickRam20 m.ram
  have ne := ne_tick (m.ram 20#16)
  have : i = 0 ∨ i = 1 ∨ i = 2 ∨ i = 3 ∨ i = 4 ∨ i = 5 ∨ 5 < i := by omega
  rcases this with rfl | rfl | rfl | rfl | rfl | rfl | h
  · simp at h0 h1 h2 h3 h4 h5
    refine ⟨6, ?_, 4, ?_, by omega, by omega, ?_, ?_⟩
    rotate_left
    · rt_exec [trun, tmCode.FP_TIME.eq, h0, h1, h2, h3, h4, h5, M.tick]
      rfl
    · rw [tc 4 (by omega)]; exact w1
    · exact ⟨rfl, rfl, rfl, rfl, tick_other m.ram⟩
  iterate 3
    · simp at h0 h1 h2 h3 h4 h5 h6 h7 h8 h9 h10
      refine ⟨11, ?_, 9, ?_, by omega, by omega, ?_, ?_⟩
      rotate_left
      · rt_exec [trun, tmCode.FP_TIME.eq, h0, h1, h2, h3, h4, h5, h6, h7, h8, h9, h10, M.tick, k20, ne]
        rfl
      · rw [tc 9 (by omega)]; rw [clock, k20] at w1; exact w1
      · exact ⟨rfl, rfl, rfl, rfl, tick_other m.ram⟩
  iterate 2
    · simp at h0 h1 h2 h3 h4 h5
      refine ⟨6, ?_, 4, ?_, by omega, by omega, ?_, ?_⟩
      rotate_left
      · rt_exec [trun, tmCode.FP_TIME.eq, h0, h1, h2, h3, h4, h5, M.tick]
        rfl
      · rw [tc 4 (by omega)]; exact w0
      · exact ⟨rfl, rfl, rfl, rfl, tick_other m.ram⟩
  · rw [decide_eq_false (by omega)] at h0 h1 h2 h3 h4 h5
    refine ⟨6, ?_, 4, ?_, by omega, by omega, ?_, ?_⟩
    rotate_left
    · rt_exec [trun, tmCode.FP_TIME.eq, h0, h1, h2, h3, h4, h5, M.tick]
      rfl
    · rw [tc 4 (by omega), if_neg (by omega)]; exact w0
    · exact ⟨rfl, rfl, rfl, rfl, fun _ _ _ _ => rfl⟩

/-! ## PAUSE -/

theorem ticks_add (tk : Nat → Bool) (s t u : Nat) (h1 : s ≤ t) (h2 : t ≤ u) : ticks tk s u = ticks tk s t + ticks tk t u := by
  have e : u - s = (t - s) + (u - t) := by omega
  rw [ticks, e, List.range_add, List.filter_append, List.length_append, ticks, ticks, List.filter_map, List.length_map]
  have f : ((fun i => tk (s + i)) ∘ fun x => t - s + x) = fun i => tk (t + i) := by
    funext x
    show tk (s + (t - s + x)) = _
    congr 1; omega
  rw [f]

theorem ticks_none (tk : Nat → Bool) (s t : Nat) (h : ∀ i, s ≤ i → i < t → tk i = false) : ticks tk s t = 0 := by
  rw [ticks, List.length_eq_zero_iff, List.filter_eq_nil_iff]
  intro x hx
  rw [h _ (by omega) (by have := List.mem_range.1 hx; omega)]; simp

theorem ticks_self (tk : Nat → Bool) (u : Nat) (h : tk u = true) : ticks tk u (u + 1) = 1 := by
  rw [ticks, Nat.add_sub_cancel_left]
  simp [h]

theorem TimeKept.refl (m : M) : TimeKept m m := ⟨rfl, rfl, rfl, rfl, fun _ _ _ _ => rfl⟩
theorem TimeKept.trans {m m1 m2 : M} (h : TimeKept m m1) (k : TimeKept m1 m2) : TimeKept m m2 :=
  ⟨k.stk.trans h.stk, k.zp.trans h.zp, k.sl.trans h.sl, k.sh.trans h.sh, fun a h1 h2 h3 => (k.ram a h1 h2 h3).trans (h.ram a h1 h2 h3)⟩

theorem trun_go {P : Code} {tk : Nat → Bool} {a b s : Nat} {k k1 : Code} {m m1 : M} (h : trun P tk a s k m = .go k1 m1) : trun P tk (a + b) s k m = trun P tk b (s + a) k1 m1 := by
  rw [trun_add, h]

/-- The loop that waits: it sees the interruption, at most three steps after. -/
theorem pa_poll (tk : Nat → Bool) (d : Nat) : ∀ (s : Nat) (m : M), (∀ t, s ≤ t → t < s + d → tk t = false) → tk (s + d) = true → (∀ t, s + d < t → t < s + d + 10 → tk t = false) → m.a = m.ram 20#16 →
    ∃ n m1, d + 1 ≤ n ∧ n ≤ d + 4 ∧ trun tmCode tk n s tmCode.pa_same m = .go tmCode.pa_seen m1 ∧ m1.x = m.x ∧ m1.y = m.y ∧ TimeKept m m1 := by
  induction d using Nat.strongRecOn with
  | ind d ih =>
    intro s m h0 h1 h2 ha
    have k20 := tickRam20 m.ram
    have ne := ne_tick (m.ram 20#16)
    rcases (by omega : d = 0 ∨ d = 1 ∨ 2 ≤ d) with rfl | rfl | hd
    · have b0 : tk s = true := h1
      have b1 := h2 (s + 1) (by omega) (by omega)
      have b2 := h2 (s + 1 + 1) (by omega) (by omega)
      refine ⟨3, ?_, by omega, by omega, ?_, ?_⟩
      rotate_left
      · rt_exec [trun, tmCode.pa_same.eq, b0, b1, b2, M.tick, k20, ha, ne]
        rfl
      · exact ⟨rfl, rfl, rfl, rfl, rfl, rfl, tick_other m.ram⟩
    · have b0 := h0 s (by omega) (by omega)
      have b1 : tk (s + 1) = true := h1
      have b2 := h2 (s + 1 + 1) (by omega) (by omega)
      have b3 := h2 (s + 1 + 1 + 1) (by omega) (by omega)
      have b4 := h2 (s + 1 + 1 + 1 + 1) (by omega) (by omega)
      refine ⟨5, ?_, by omega, by omega, ?_, ?_⟩
      rotate_left
      · rt_exec [trun, tmCode.pa_same.eq, b0, b1, b2, b3, b4, M.tick, k20, ha, ne]
        rfl
      · exact ⟨rfl, rfl, rfl, rfl, rfl, rfl, tick_other m.ram⟩
    · have b0 := h0 s (by omega) (by omega)
      have b1 := h0 (s + 1) (by omega) (by omega)
      obtain ⟨m1, r1, a1, x1, y1, u1, k1⟩ : ∃ m1, trun tmCode tk 2 s tmCode.pa_same m = .go tmCode.pa_same m1 ∧ m1.a = m.a ∧ m1.x = m.x ∧ m1.y = m.y ∧ m1.ram = m.ram ∧ TimeKept m m1 := by
        refine ⟨?_, ?_, ?_⟩
        rotate_left
        · rt_exec [trun, tmCode.pa_same.eq, b0, b1, ha]
          rfl
        · exact ⟨ha.symm, rfl, rfl, rfl, rfl, rfl, rfl, rfl, fun _ _ _ _ => rfl⟩
      obtain ⟨n, m2, n1, n2, r2, x2, y2, k2⟩ := ih (d - 2) (by omega) (s + 2) m1 (fun t t1 t2 => h0 t (by omega) (by omega)) (by rw [show s + 2 + (d - 2) = s + d by omega]; exact h1)
        (fun t t1 t2 => h2 t (by omega) (by omega)) (by rw [a1, u1, ha])
      exact ⟨2 + n, m2, by omega, by omega, by rw [trun_go r1, r2], x2.trans x1, y2.trans y1, k1.trans k2⟩

/-- One interruption, from the place where the clock is read, at the time `s`; it comes at the time `s + d + 1`. -/
theorem pa_round (tk : Nat → Bool) (d s : Nat) (m : M) (h0 : ∀ t, s < t → t < s + d + 1 → tk t = false) (h1 : tk (s + d + 1) = true) (h2 : ∀ t, s + d + 1 < t → t < s + d + 11 → tk t = false) :
    ∃ n m1, d + 2 ≤ n ∧ n ≤ d + 5 ∧ trun tmCode tk n s tmCode.pa_wait m = .go tmCode.pa_seen m1 ∧ m1.x = m.x ∧ m1.y = m.y ∧ TimeKept m m1 := by
  obtain ⟨m0, e0, x0, y0, k0⟩ : ∃ m0, (if tk s then m.tick else m) = m0 ∧ m0.x = m.x ∧ m0.y = m.y ∧ TimeKept m m0 := by
    cases tk s
    · exact ⟨m, rfl, rfl, rfl, TimeKept.refl m⟩
    · exact ⟨m.tick, rfl, rfl, rfl, rfl, rfl, rfl, rfl, tick_other m.ram⟩
  have k20 := tickRam20 m0.ram
  have ne := ne_tick (m0.ram 20#16)
  rcases Nat.eq_zero_or_pos d with rfl | hd
  · have b1 : tk (s + 1) = true := h1
    have b2 := h2 (s + 1 + 1) (by omega) (by omega)
    have b3 := h2 (s + 1 + 1 + 1) (by omega) (by omega)
    have b4 := h2 (s + 1 + 1 + 1 + 1) (by omega) (by omega)
    obtain ⟨m1, r1, x1, y1, k1⟩ : ∃ m1, trun tmCode tk 5 s tmCode.pa_wait m = .go tmCode.pa_seen m1 ∧ m1.x = m0.x ∧ m1.y = m0.y ∧ TimeKept m0 m1 := by
      refine ⟨?_, ?_, ?_⟩
      rotate_left
      · rw [trun, e0]
        rt_exec [trun, tmCode.pa_wait.eq, tmCode.pa_same.eq, b1, b2, b3, b4, M.tick, k20, ne]
        rfl
      · exact ⟨rfl, rfl, rfl, rfl, rfl, rfl, tick_other m0.ram⟩
    exact ⟨5, m1, by omega, by omega, r1, x1.trans x0, y1.trans y0, k0.trans k1⟩
  · have b1 := h0 (s + 1) (by omega) (by omega)
    obtain ⟨m1, r1, a1, x1, y1, k1⟩ : ∃ m1, trun tmCode tk 2 s tmCode.pa_wait m = .go tmCode.pa_same m1 ∧ m1.a = m1.ram 20#16 ∧ m1.x = m0.x ∧ m1.y = m0.y ∧ TimeKept m0 m1 := by
      refine ⟨?_, ?_, ?_⟩
      rotate_left
      · rw [trun, e0]
        rt_exec [trun, tmCode.pa_wait.eq, b1]
        rfl
      · exact ⟨rfl, rfl, rfl, rfl, rfl, rfl, rfl, fun _ _ _ _ => rfl⟩
    obtain ⟨n, m2, n1, n2, r2, x2, y2, k2⟩ := pa_poll tk (d - 1) (s + 2) m1 (fun t t1 t2 => h0 t (by omega) (by omega)) (by rw [show s + 2 + (d - 1) = s + d + 1 by omega]; exact h1)
      (fun t t1 t2 => h2 t (by omega) (by omega)) a1
    exact ⟨2 + n, m2, by omega, by omega, by rw [trun_go r1, r2], (x2.trans x1).trans x0, (y2.trans y1).trans y0, (k0.trans k1).trans k2⟩

/-- The next interruption. -/
theorem next_tick (tk : Nat → Bool) (h : Spaced tk 10) (inf : ∀ s, ∃ t, s < t ∧ tk t = true) (s : Nat) :
    ∃ d, (∀ t, s < t → t < s + d + 1 → tk t = false) ∧ tk (s + d + 1) = true ∧ (∀ t, s + d + 1 < t → t < s + d + 11 → tk t = false) := by
  have ex : ∃ d, tk (s + d + 1) = true := by
    obtain ⟨t, h1, h2⟩ := inf s
    exact ⟨t - s - 1, by rw [show s + (t - s - 1) + 1 = t by omega]; exact h2⟩
  refine ⟨Nat.find ex, fun t t1 t2 => ?_, Nat.find_spec ex, fun t t1 t2 => ?_⟩
  · have := Nat.find_min ex (m := t - s - 1) (by omega)
    rw [show s + (t - s - 1) + 1 = t by omega] at this
    simpa using this
  · cases c : tk t with
    | false => rfl
    | true => have := h _ _ t1 (Nat.find_spec ex) c; omega

/-- The whole wait, from the place where the clock is read. -/
theorem pa_all (tk : Nat → Bool) (h : Spaced tk 10) (inf : ∀ s, ∃ t, s < t ∧ tk t = true) (c : Nat) : ∀ (s : Nat) (m : M), (m.y - 1#8).toNat + 256 * (m.x - 1#8).toNat = c →
    ∃ n m', trun tmCode tk n s tmCode.pa_wait m = .halt m' ∧ ticks tk (s + 1) (s + n) = c + 1 ∧ (∃ u, s < u ∧ tk u = true ∧ u < s + n ∧ s + n ≤ u + 10) ∧ TimeKept m m' := by
  induction c with
  | zero =>
    intro s m hc
    obtain ⟨d, h0, h1, h2⟩ := next_tick tk h inf s
    obtain ⟨n, m1, n1, n2, r1, x1, y1, k1⟩ := pa_round tk d s m h0 h1 h2
    have b0 := h2 (s + n) (by omega) (by omega)
    have b1 := h2 (s + n + 1) (by omega) (by omega)
    have b2 := h2 (s + n + 1 + 1) (by omega) (by omega)
    have b3 := h2 (s + n + 1 + 1 + 1) (by omega) (by omega)
    have b4 := h2 (s + n + 1 + 1 + 1 + 1) (by omega) (by omega)
    have cy : m1.y - 1#8 = 0#8 := BitVec.eq_of_toNat_eq (by rw [y1]; show _ = 0; omega)
    have cx : m1.x - 1#8 = 0#8 := BitVec.eq_of_toNat_eq (by rw [x1]; show _ = 0; omega)
    obtain ⟨m2, r2, k2⟩ : ∃ m2, trun tmCode tk 5 (s + n) tmCode.pa_seen m1 = .halt m2 ∧ TimeKept m1 m2 := by
      refine ⟨?_, ?_, ?_⟩
      rotate_left
      · rt_exec [trun, tmCode.pa_seen.eq, b0, b1, b2, b3, b4, cy, cx]
        rfl
      · exact ⟨rfl, rfl, rfl, rfl, fun _ _ _ _ => rfl⟩
    refine ⟨n + 5, m2, by rw [trun_go r1, r2], ?_, ⟨s + d + 1, by omega, h1, by omega, by omega⟩, k1.trans k2⟩
    rw [ticks_add tk (s + 1) (s + d + 1) _ (by omega) (by omega), ticks_add tk (s + d + 1) (s + d + 1 + 1) _ (by omega) (by omega), ticks_self tk _ h1,
      ticks_none tk _ _ (fun i i1 i2 => h0 i (by omega) (by omega)), ticks_none tk _ _ (fun i i1 i2 => h2 i (by omega) (by omega))]
  | succ c ih =>
    intro s m hc
    obtain ⟨d, h0, h1, h2⟩ := next_tick tk h inf s
    obtain ⟨n, m1, n1, n2, r1, x1, y1, k1⟩ := pa_round tk d s m h0 h1 h2
    have b0 := h2 (s + n) (by omega) (by omega)
    have b1 := h2 (s + n + 1) (by omega) (by omega)
    have b2 := h2 (s + n + 1 + 1) (by omega) (by omega)
    have b3 := h2 (s + n + 1 + 1 + 1) (by omega) (by omega)
    obtain ⟨j, m2, j4, r2, c2, k2⟩ : ∃ j m2, j ≤ 4 ∧ trun tmCode tk j (s + n) tmCode.pa_seen m1 = .go tmCode.pa_wait m2 ∧ (m2.y - 1#8).toNat + 256 * (m2.x - 1#8).toNat = c ∧ TimeKept m1 m2 := by
      rw [← x1, ← y1] at hc
      by_cases cy : m1.y - 1#8 = 0#8
      · have cx : ¬ m1.x - 1#8 = 0#8 := fun e => by rw [cy, e] at hc; simp at hc
        refine ⟨4, ?_, by omega, ?_, ?_⟩
        rotate_left
        · rt_exec [trun, tmCode.pa_seen.eq, b0, b1, b2, b3, cy, cx]
          rfl
        · refine ⟨?_, rfl, rfl, rfl, rfl, fun _ _ _ _ => rfl⟩
          show (0#8 - 1#8 : B).toNat + 256 * (m1.x - 1#8 - 1#8).toNat = c
          rw [cy] at hc
          have e : (m1.x - 1#8).toNat ≠ 0 := fun e => cx (BitVec.eq_of_toNat_eq e)
          have f : (m1.x - 1#8 - 1#8).toNat = (m1.x - 1#8).toNat - 1 := by
            generalize m1.x - 1#8 = b at *
            have := b.isLt
            rw [BitVec.toNat_sub]; show (256 - 1 + b.toNat) % 256 = _; omega
          have g : (0#8 - 1#8 : B).toNat = 255 := rfl
          have g0 : (0#8 : B).toNat = 0 := rfl
          omega
      · refine ⟨2, ?_, by omega, ?_, ?_⟩
        rotate_left
        · rt_exec [trun, tmCode.pa_seen.eq, b0, b1, cy]
          rfl
        · refine ⟨?_, rfl, rfl, rfl, rfl, fun _ _ _ _ => rfl⟩
          show (m1.y - 1#8 - 1#8).toNat + 256 * (m1.x - 1#8).toNat = c
          have e : (m1.y - 1#8).toNat ≠ 0 := fun e => cy (BitVec.eq_of_toNat_eq e)
          have f : (m1.y - 1#8 - 1#8).toNat = (m1.y - 1#8).toNat - 1 := by
            generalize m1.y - 1#8 = b at *
            have := b.isLt
            rw [BitVec.toNat_sub]; show (256 - 1 + b.toNat) % 256 = _; omega
          omega
    obtain ⟨n', m', r3, t3, ⟨u, u0, u1, u2, u3⟩, k3⟩ := ih (s + (n + j)) m2 c2
    refine ⟨n + j + n', m', ?_, ?_, ⟨u, by omega, u1, by omega, by omega⟩, (k1.trans k2).trans k3⟩
    · rw [trun_go (show trun tmCode tk (n + j) s tmCode.pa_wait m = .go tmCode.pa_wait m2 by rw [trun_go r1, r2]), r3]
    · rw [ticks_add tk (s + 1) (s + d + 1) _ (by omega) (by omega), ticks_add tk (s + d + 1) (s + d + 1 + 1) _ (by omega) (by omega), ticks_self tk _ h1,
        ticks_none tk (s + 1) (s + d + 1) (fun i i1 i2 => h0 i (by omega) (by omega)), ticks_add tk (s + d + 1 + 1) (s + (n + j) + 1) _ (by omega) (by omega),
        ticks_none tk (s + d + 1 + 1) _ (fun i i1 i2 => h2 i (by omega) (by omega)), show s + (n + j + n') = s + (n + j) + n' by omega, t3]
      omega

/-- **C64, PAUSE**: with interruptions without end, at least ten instructions apart, `PAUSE n` ends after `n + 1` interruptions from the first read of the clock (at the time 4), just after the last one (so that it waits between `n` and `n + 1` scans); `PAUSE 0` waits for the next one. -/
theorem C64_pause (m : M) (tk : Nat → Bool) (h : Spaced tk 10) (inf : ∀ s, ∃ t, s < t ∧ tk t = true) :
    ∃ n m', trun tmCode tk n 0 tmCode.EXE_PAUSE m = .halt m' ∧ ticks tk 5 n = m.ax.toNat + 1 ∧ (∃ u, tk u = true ∧ u < n ∧ n ≤ u + 10) ∧ TimeKept m m' := by
  obtain ⟨m1, r1, c1, k1⟩ : ∃ m1, trun tmCode tk 4 0 tmCode.EXE_PAUSE m = .go tmCode.pa_wait m1 ∧ (m1.y = m.a + 1#8 ∧ m1.x = m.x + 1#8) ∧ TimeKept m m1 := by
    rcases b0 : tk 0 <;> rcases b1 : tk 1 <;> rcases b2 : tk 2 <;> rcases b3 : tk 3
    all_goals
      refine ⟨?_, ?_, ?_⟩
      rotate_left
      · rt_exec [trun, tmCode.EXE_PAUSE.eq, b0, b1, b2, b3, M.tick]
        rfl
      · exact ⟨⟨rfl, rfl⟩, rfl, rfl, rfl, rfl, fun a h1 h2 h3 => by simp [tick_other, h1, h2, h3]⟩
  obtain ⟨n, m', r, t, ⟨u, u0, u1, u2, u3⟩, k⟩ := pa_all tk h inf m.ax.toNat 4 m1 (by rw [c1.1, c1.2, BitVec.add_sub_cancel, BitVec.add_sub_cancel, M.ax, word_toNat])
  exact ⟨4 + n, m', by rw [trun_go r1]; exact r, t, ⟨u, u1, by omega, by omega⟩, k1.trans k⟩

/-! ## TIMER -/

/-- **C64, TIMER**: without an interruption between its two stores (the times 2 and 3), after `TIMER` the lower two bytes of the clock are 0, or 1 if the clock has already been incremented. -/
theorem C64_timer (m : M) (tk : Nat → Bool) (h2 : tk 2 = false) (h3 : tk 3 = false) :
    ∃ m', trun tmCode tk 5 0 tmCode.TIMER m = .halt m' ∧ clock m'.ram % 65536 = ticks tk 4 5 := by
  rcases h0 : tk 0 <;> rcases h1 : tk 1 <;> rcases h4 : tk 4
  all_goals
    refine ⟨?_, ?_, ?_⟩
    rotate_left
    · rt_exec [trun, tmCode.TIMER.eq, h0, h1, h2, h3, h4, M.tick]
      rfl
    · simp [clock, ticks, h4, upd_app, tickRam20, tickRam19, tickRam18]

/-- **C64, the race of TIMER**: if the lowest byte of the clock wraps between the two stores, the time after `TIMER` is 256 instead of 0. -/
theorem C64_timer_race (m : M) (h : m.ram 20#16 = 255#8) (tk : Nat → Bool) (ht : ∀ t, tk t = decide (t = 2)) :
    ∃ m', trun tmCode tk 5 0 tmCode.TIMER m = .halt m' ∧ clock m'.ram % 65536 = 256 := by
  refine ⟨?_, ?_, ?_⟩
  rotate_left
  · rt_exec [trun, tmCode.TIMER.eq, ht, M.tick]
    rfl
  · simp [clock, upd_app, tickRam20, tickRam19, tickRam18, h]

/-! ## Cases -/

/-- An interruption every twenty steps. -/
def exTick (t : Nat) : Bool := decide (t % 20 = 1)

theorem exTick_spaced : Spaced exTick 12 := by
  intro s t h h1 h2
  simp only [exTick, decide_eq_true_eq] at h1 h2
  omega

theorem exTick_inf (s : Nat) : ∃ t, s < t ∧ exTick t = true := ⟨20 * s + 21, by omega, by simp only [exTick, decide_eq_true_eq]; omega⟩

/-- The clock is 511 when `TIME` starts, and becomes 512 between the reads of the two bytes: the value is 511 or 512 (not 256, that is what the first two reads give). `PAUSE 2` ends after three interruptions. -/
example (m : M) (h0 : m.ram 20#16 = 255#8) (h1 : m.ram 19#16 = 1#8) (h2 : m.ram 18#16 = 0#8) (ha : m.a = 2#8) (hx : m.x = 0#8) :
    (∃ n m', trun tmCode exTick n 0 tmCode.EXE_TIME m = .halt m' ∧ (m'.ax.toNat = 511 ∨ m'.ax.toNat = 512)) ∧
    (∃ n m', trun tmCode exTick n 0 tmCode.EXE_PAUSE m = .halt m' ∧ ticks exTick 5 n = 3) := by
  have sp : Spaced exTick 10 := fun s t a b c => by have := exTick_spaced s t a b c; omega
  have hc : clock m.ram = 511 := by rw [clock, h0, h1, h2]; rfl
  constructor
  · obtain ⟨n, m', t, r, n9, t1, v, -⟩ := C64_time m exTick sp
    refine ⟨n, m', r, ?_⟩
    have ht : ∀ t < 10, ticks exTick 0 t = 0 ∨ ticks exTick 0 t = 1 := by decide
    rw [v, hc]
    rcases ht t (by omega) with e | e <;> rw [e] <;> simp
  · obtain ⟨n, m', r, t, -⟩ := C64_pause m exTick sp exTick_inf
    exact ⟨n, m', r, by rw [t, M.ax, ha, hx]; rfl⟩

/-- The hypotheses of the theorems of `TIMER` and `%TIME` are possible. -/
example : (fun t => decide (t = 7) : Nat → Bool) 2 = false ∧ Spaced exTick 12 ∧ exTick 1 = true := ⟨rfl, exTick_spaced, rfl⟩

end FB.Rt
