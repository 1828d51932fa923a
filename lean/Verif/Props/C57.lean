import Verif.Rt.Sqrt
import Mathlib.Analysis.Real.Sqrt
import Mathlib.Tactic.Linarith
import Mathlib.Tactic.NormNum
import Mathlib.Tactic.Positivity
import Mathlib.Tactic.FieldSimp
import Mathlib.Tactic.Ring
import Mathlib.Algebra.Order.Archimedean.Basic
import Mathlib.Algebra.Order.Floor.Ring
/-!
# C57: the square root
-/
namespace FB.Rt

/-- Specification: the value of a byte with two decimal digits. -/
def bcd (b : B) : Nat := 10 * (b.toNat / 16) + b.toNat % 16

/-- Specification: a byte has two decimal digits. -/
def Bcd (b : B) : Prop := b.toNat / 16 ≤ 9 ∧ b.toNat % 16 ≤ 9

/-- Specification: the digits after the first byte of digits. -/
noncomputable def Num.frac (n : Num) : ℝ := ((bcd n.d2 * 1000000 + bcd n.d3 * 10000 + bcd n.d4 * 100 + bcd n.d5 : ℕ) : ℝ) / 100000000

/-- Specification: the value of a number that is not negative: digits, with the point after the first byte, and a power of 100. -/
noncomputable def Num.val (n : Num) : ℝ := (bcd n.d1 + n.frac) * (100 : ℝ) ^ ((n.e.toNat : ℤ) - 64)

/-- Specification: a positive number, normalized. -/
structure Num.Norm (n : Num) : Prop where
  e1 : 1 ≤ n.e.toNat
  e2 : n.e.toNat < 128
  d0 : 1 ≤ bcd n.d1
  d1 : Bcd n.d1
  d2 : Bcd n.d2
  d3 : Bcd n.d3
  d4 : Bcd n.d4
  d5 : Bcd n.d5

/-- Specification: `v` is an approximation of `x`. -/
def Approx (ε x : ℝ) (v : Option Num) : Prop := ∃ n, v = some n ∧ n.Norm ∧ |n.val - x| ≤ ε * x

/-- Specification: numbers far from an overflow. -/
def InRange (x : ℝ) : Prop := (100 : ℝ) ^ (-60 : ℤ) ≤ x ∧ x ≤ (100 : ℝ) ^ (60 : ℤ)

/-- Specification: the arithmetic of the OS, with positive numbers and when the result is far from an overflow, has a relative error of at most `ε`. -/
structure NGood (O : NOps) (ε : ℝ) : Prop where
  add : ∀ a b : Num, a.Norm → b.Norm → InRange (a.val + b.val) → Approx ε (a.val + b.val) (O.add a b)
  mul : ∀ a b : Num, a.Norm → b.Norm → InRange (a.val * b.val) → Approx ε (a.val * b.val) (O.mul a b)
  div : ∀ a b : Num, a.Norm → b.Norm → InRange (a.val / b.val) → Approx ε (a.val / b.val) (O.div a b)

/-- Specification: one half. -/
def half : Num := ⟨0x3F#8, 0x50#8, 0#8, 0#8, 0#8, 0#8⟩

theorem bcd_lt {b : B} (h : Bcd b) : bcd b ≤ 99 := by
  obtain ⟨h1, h2⟩ := h
  rw [bcd]; omega

theorem frac_bound {n : Num} (h2 : Bcd n.d2) (h3 : Bcd n.d3) (h4 : Bcd n.d4) (h5 : Bcd n.d5) : 0 ≤ n.frac ∧ n.frac ≤ 1 := by
  have a2 := bcd_lt h2
  have a3 := bcd_lt h3
  have a4 := bcd_lt h4
  have a5 := bcd_lt h5
  have h : bcd n.d2 * 1000000 + bcd n.d3 * 10000 + bcd n.d4 * 100 + bcd n.d5 ≤ 100000000 := by omega
  have h' : ((bcd n.d2 * 1000000 + bcd n.d3 * 10000 + bcd n.d4 * 100 + bcd n.d5 : ℕ) : ℝ) ≤ 100000000 := by exact_mod_cast h
  rw [Num.frac]
  constructor
  · positivity
  · rw [div_le_one (by norm_num)]; exact h'

theorem half_norm : half.Norm := by
  refine ⟨?_, ?_, ?_, ⟨?_, ?_⟩, ⟨?_, ?_⟩, ⟨?_, ?_⟩, ⟨?_, ?_⟩, ⟨?_, ?_⟩⟩ <;> simp [half, bcd]

theorem half_val : half.val = 1 / 2 := by
  rw [Num.val, Num.frac]
  simp [half, bcd]
  norm_num

/-! ### Newton's method -/

/-- Between two points where it holds, a bound on the distance to the root holds. -/
theorem nt_mid {a b K r y : ℝ} (hr : 0 < r) (hab : a < b) (ha : (a - 1) ^ 2 ≤ K * a) (hb : (b - 1) ^ 2 ≤ K * b) (h1 : a * r ≤ y) (h2 : y ≤ b * r) : (y - r) ^ 2 ≤ K * y * r := by
  have h3 : 0 ≤ (b * r - y) * (y - a * r) := mul_nonneg (by linarith) (by linarith)
  have h4 : ((a - 1) ^ 2 - K * a) * (b * r - y) ≤ 0 := mul_nonpos_of_nonpos_of_nonneg (by linarith) (by linarith)
  have h5 : ((b - 1) ^ 2 - K * b) * (y - a * r) ≤ 0 := mul_nonpos_of_nonpos_of_nonneg (by linarith) (by linarith)
  have h6 : (((y - r) ^ 2 - K * y * r)) * (b - a) = ((a - 1) ^ 2 - K * a) * (b * r - y) * r + ((b - 1) ^ 2 - K * b) * (y - a * r) * r - (b - a) * ((b * r - y) * (y - a * r)) := by ring
  have h7 : ((y - r) ^ 2 - K * y * r) * (b - a) ≤ 0 := by
    rw [h6]
    have := mul_nonpos_of_nonpos_of_nonneg h4 hr.le
    have := mul_nonpos_of_nonpos_of_nonneg h5 hr.le
    have := mul_nonneg (sub_pos.2 hab).le h3
    linarith
  by_contra hc
  have := mul_pos (show 0 < (y - r) ^ 2 - K * y * r by linarith) (sub_pos.2 hab)
  linarith

/-- One step, with errors. -/
theorem nt_step {ε r y K q u v : ℝ} (hε : 0 ≤ ε) (hε1 : ε ≤ 1) (hr : 0 < r) (hy : 0 < y) (hK : (y - r) ^ 2 ≤ K * y * r) (hq : |q - r ^ 2 / y| ≤ ε * (r ^ 2 / y)) (hu : |u - (q + y)| ≤ ε * (q + y)) (hv : |v - u * (1 / 2)| ≤ ε * (u * (1 / 2))) :
    (1 - ε) ^ 3 * r ≤ v ∧ v ≤ (1 + ε) ^ 3 * (1 + K / 2) * r := by
  rw [abs_le] at hq hu hv
  have hw : 0 < r ^ 2 / y := by positivity
  have hS : r ^ 2 / y + y = 2 * r + (y - r) ^ 2 / y := by field_simp; ring
  have h1 : 0 ≤ (y - r) ^ 2 / y := by positivity
  have h2 : (y - r) ^ 2 / y ≤ K * r := by rw [div_le_iff₀ hy]; linarith
  generalize hw' : r ^ 2 / y = w at *
  have hεy : 0 ≤ ε * y := by positivity
  have l1 : (1 - ε) * (w + y) ≤ q + y := by nlinarith [hq.1]
  have u1 : q + y ≤ (1 + ε) * (w + y) := by nlinarith [hq.2]
  have l2 : (1 - ε) * ((1 - ε) * (w + y)) ≤ u := by
    have := mul_le_mul_of_nonneg_left l1 (show (0 : ℝ) ≤ 1 - ε by linarith)
    linarith [hu.1]
  have u2 : u ≤ (1 + ε) * ((1 + ε) * (w + y)) := by
    have := mul_le_mul_of_nonneg_left u1 (show (0 : ℝ) ≤ 1 + ε by linarith)
    linarith [hu.2]
  have l3 : (1 - ε) * ((1 - ε) * ((1 - ε) * (w + y))) ≤ 2 * v := by
    have := mul_le_mul_of_nonneg_left l2 (show (0 : ℝ) ≤ 1 - ε by linarith)
    linarith [hv.1]
  have u3 : 2 * v ≤ (1 + ε) * ((1 + ε) * ((1 + ε) * (w + y))) := by
    have := mul_le_mul_of_nonneg_left u2 (show (0 : ℝ) ≤ 1 + ε by linarith)
    linarith [hv.2]
  have p1 : 0 ≤ (1 - ε) ^ 3 := pow_nonneg (by linarith) 3
  have p2 : 0 ≤ (1 + ε) ^ 3 := pow_nonneg (by linarith) 3
  constructor
  · have := mul_le_mul_of_nonneg_left (show 2 * r ≤ w + y by linarith) p1
    nlinarith [this]
  · have := mul_le_mul_of_nonneg_left (show w + y ≤ 2 * r + K * r by linarith) p2
    nlinarith [this]

/-- Facts about the table of the first guess, for all the first bytes of digits. -/
theorem sq_table (b : B) (h : Bcd b) (h0 : 1 ≤ bcd b) : 1 ≤ sqDig b.toNat 8 ∧ sqDig b.toNat 8 ≤ 9 ∧
    (4 * sqDig b.toNat 8 ^ 2 ≤ 9 * bcd b ∧ 4 * (sqDig b.toNat 8 + 1) ^ 2 ≤ 9 * (bcd b + 1) ∧ 289 * bcd b ≤ 625 * sqDig b.toNat 8 ^ 2 ∧ 289 * (bcd b + 1) ≤ 625 * (sqDig b.toNat 8 ^ 2 + 2 * sqDig b.toNat 8)) ∧
    ((11 * sqDig b.toNat 8) ^ 2 ≤ 225 * bcd b ∧ (11 * sqDig b.toNat 8 + 1) ^ 2 ≤ 225 * (bcd b + 1) ∧ 28900 * bcd b ≤ 625 * (11 * sqDig b.toNat 8) ^ 2 ∧
      28900 * (bcd b + 1) ≤ 625 * ((11 * sqDig b.toNat 8) ^ 2 + 2 * (11 * sqDig b.toNat 8))) := by
  revert b
  unfold Bcd bcd
  decide

/-- The first byte of digits of the first guess. -/
theorem guess_digit (X G : Num) (h : X.Norm) (hG : SqGuess X G) : bcd G.d1 = (if X.e.toNat % 2 = 0 then 1 else 11) * sqDig X.d1.toNat 8 ∧ Bcd G.d1 := by
  obtain ⟨-, hd, -⟩ := hG
  obtain ⟨l, u, -⟩ := sq_table X.d1 h.d1 h.d0
  have e17 : ∀ g : Nat, g ≤ 9 → (17 * g) / 16 = g ∧ (17 * g) % 16 = g := by decide
  obtain ⟨e1, e2⟩ := e17 _ u
  rw [bcd, Bcd, hd]
  split
  · omega
  · rw [e1, e2]; omega

theorem guess_norm (X G : Num) (h : X.Norm) (hG : SqGuess X G) : G.Norm := by
  obtain ⟨b1, b2⟩ := guess_digit X G h hG
  obtain ⟨l, u, -⟩ := sq_table X.d1 h.d1 h.d0
  obtain ⟨he, -, g2, g3, g4, g5⟩ := hG
  have := h.e1
  have := h.e2
  refine ⟨by omega, by omega, ?_, b2, g2 ▸ h.d2, g3 ▸ h.d3, g4 ▸ h.d4, g5 ▸ h.d5⟩
  rw [b1]; split <;> omega

/-- The square of the first guess. -/
theorem guess_sq (X G : Num) (h : X.Norm) (hG : SqGuess X G) : 289 / 625 * X.val ≤ G.val ^ 2 ∧ G.val ^ 2 ≤ 9 / 4 * X.val := by
  obtain ⟨b1, -⟩ := guess_digit X G h hG
  obtain ⟨-, -, ⟨t1, t2, t3, t4⟩, t5, t6, t7, t8⟩ := sq_table X.d1 h.d1 h.d0
  obtain ⟨f0, f1⟩ := frac_bound h.d2 h.d3 h.d4 h.d5
  obtain ⟨he, -, g2, g3, g4, g5⟩ := hG
  have hf : G.frac = X.frac := by rw [Num.frac, Num.frac, g2, g3, g4, g5]
  rw [Num.val, Num.val, hf, b1, he]
  generalize X.frac = f at *
  generalize sqDig X.d1.toNat 8 = g at *
  generalize bcd X.d1 = m at *
  have r1 : (4 : ℝ) * g ^ 2 ≤ 9 * m := by exact_mod_cast t1
  have r2 : (4 : ℝ) * (g + 1) ^ 2 ≤ 9 * (m + 1) := by exact_mod_cast t2
  have r3 : (289 : ℝ) * m ≤ 625 * g ^ 2 := by exact_mod_cast t3
  have r4 : (289 : ℝ) * (m + 1) ≤ 625 * (g ^ 2 + 2 * g) := by exact_mod_cast t4
  have r5 : ((11 : ℝ) * g) ^ 2 ≤ 225 * m := by exact_mod_cast t5
  have r6 : ((11 : ℝ) * g + 1) ^ 2 ≤ 225 * (m + 1) := by exact_mod_cast t6
  have r7 : (28900 : ℝ) * m ≤ 625 * (11 * g) ^ 2 := by exact_mod_cast t7
  have r8 : (28900 : ℝ) * (m + 1) ≤ 625 * ((11 * g) ^ 2 + 2 * (11 * g)) := by exact_mod_cast t8
  have ff : f ^ 2 ≤ f := by nlinarith
  have fp : 0 ≤ f ^ 2 := by positivity
  split
  · next hev =>
    obtain ⟨k, hk⟩ : ∃ k : ℤ, ((X.e.toNat : ℤ) - 64) = 2 * k := ⟨(X.e.toNat : ℤ) / 2 - 32, by omega⟩
    have hk' : (((X.e.toNat + 64) / 2 : ℕ) : ℤ) - 64 = k := by omega
    rw [hk, hk', Nat.one_mul, mul_pow, ← zpow_natCast ((100 : ℝ) ^ k), ← zpow_mul, mul_comm k, show ((2 : ℕ) : ℤ) * k = 2 * k from rfl]
    have hz : (0 : ℝ) < 100 ^ (2 * k) := zpow_pos (by norm_num) _
    generalize (100 : ℝ) ^ (2 * k) = z at *
    have a1 : 289 / 625 * (m + f) ≤ (g + f) ^ 2 := by nlinarith [mul_nonneg f0 (sub_nonneg.2 r4), mul_nonneg (sub_nonneg.2 f1) (sub_nonneg.2 r3)]
    have a2 : (g + f) ^ 2 ≤ 9 / 4 * (m + f) := by nlinarith [mul_nonneg f0 (sub_nonneg.2 r2), mul_nonneg (sub_nonneg.2 f1) (sub_nonneg.2 r1)]
    constructor
    · have := mul_le_mul_of_nonneg_right a1 hz.le; linarith
    · have := mul_le_mul_of_nonneg_right a2 hz.le; linarith
  · next hod =>
    obtain ⟨k, hk⟩ : ∃ k : ℤ, ((X.e.toNat : ℤ) - 64) = 2 * k + 1 := ⟨(X.e.toNat : ℤ) / 2 - 32, by omega⟩
    have hk' : (((X.e.toNat + 64) / 2 : ℕ) : ℤ) - 64 = k := by omega
    rw [hk, hk', mul_pow, ← zpow_natCast ((100 : ℝ) ^ k), ← zpow_mul, mul_comm k, show ((2 : ℕ) : ℤ) * k = 2 * k from rfl, zpow_add₀ (by norm_num), zpow_one, Nat.cast_mul]
    have hz : (0 : ℝ) < 100 ^ (2 * k) := zpow_pos (by norm_num) _
    generalize (100 : ℝ) ^ (2 * k) = z at *
    have a1 : 289 / 625 * 100 * (m + f) ≤ ((11 : ℕ) * g + f) ^ 2 := by push_cast; nlinarith [mul_nonneg f0 (sub_nonneg.2 r8), mul_nonneg (sub_nonneg.2 f1) (sub_nonneg.2 r7)]
    have a2 : ((11 : ℕ) * g + f) ^ 2 ≤ 9 / 4 * 100 * (m + f) := by push_cast; nlinarith [mul_nonneg f0 (sub_nonneg.2 r6), mul_nonneg (sub_nonneg.2 f1) (sub_nonneg.2 r5)]
    constructor
    · have := mul_le_mul_of_nonneg_right a1 hz.le; linarith
    · have := mul_le_mul_of_nonneg_right a2 hz.le; linarith

theorem val_bound {X : Num} (h : X.Norm) : (100 : ℝ) ^ (-63 : ℤ) ≤ X.val ∧ X.val ≤ (100 : ℝ) ^ (64 : ℤ) := by
  obtain ⟨f0, f1⟩ := frac_bound h.d2 h.d3 h.d4 h.d5
  have m0 : (1 : ℝ) ≤ bcd X.d1 := by exact_mod_cast h.d0
  have m1 : (bcd X.d1 : ℝ) ≤ 99 := by exact_mod_cast bcd_lt h.d1
  have := h.e1
  have := h.e2
  have z0 : (100 : ℝ) ^ (-63 : ℤ) ≤ 100 ^ ((X.e.toNat : ℤ) - 64) := zpow_le_zpow_right₀ (by norm_num) (by omega)
  have z1 : (100 : ℝ) ^ ((X.e.toNat : ℤ) - 64) ≤ 100 ^ (63 : ℤ) := zpow_le_zpow_right₀ (by norm_num) (by omega)
  have e1 : (100 : ℝ) ^ (64 : ℤ) = 100 * 100 ^ (63 : ℤ) := by norm_num
  rw [Num.val, e1]
  have hp : (0 : ℝ) < 100 ^ ((X.e.toNat : ℤ) - 64) := by positivity
  generalize (100 : ℝ) ^ ((X.e.toNat : ℤ) - 64) = z at *
  constructor
  · nlinarith
  · nlinarith

theorem val_pos {X : Num} (h : X.Norm) : 0 < X.val := lt_of_lt_of_le (by positivity) (val_bound h).1

theorem root_bound {X : Num} (h : X.Norm) : (100 : ℝ) ^ (-32 : ℤ) ≤ √X.val ∧ √X.val ≤ (100 : ℝ) ^ (32 : ℤ) := by
  obtain ⟨h1, h2⟩ := val_bound h
  constructor
  · apply Real.le_sqrt_of_sq_le
    refine le_trans ?_ h1
    norm_num
  · rw [Real.sqrt_le_left (by positivity)]
    refine le_trans h2 ?_
    norm_num

theorem guess_near (X G : Num) (h : X.Norm) (hG : SqGuess X G) : 17 / 25 * √X.val ≤ G.val ∧ G.val ≤ 3 / 2 * √X.val := by
  obtain ⟨h1, h2⟩ := guess_sq X G h hG
  have hp := val_pos (guess_norm X G h hG)
  have hx := Real.sq_sqrt (val_pos h).le
  have hr : 0 ≤ √X.val := Real.sqrt_nonneg _
  constructor
  · refine le_of_sq_le_sq ?_ hp.le
    rw [mul_pow, hx]; linarith
  · refine le_of_sq_le_sq ?_ (by positivity)
    rw [mul_pow, hx]; linarith

theorem inRange_root {r x : ℝ} (h1 : (100 : ℝ) ^ (-32 : ℤ) ≤ r) (h2 : r ≤ (100 : ℝ) ^ (32 : ℤ)) (h3 : r / 100 ≤ x) (h4 : x ≤ 100 * r) : InRange x := by
  have e1 : (100 : ℝ) ^ (-60 : ℤ) ≤ 100 ^ (-32 : ℤ) / 100 := by norm_num
  have e2 : 100 * (100 : ℝ) ^ (32 : ℤ) ≤ 100 ^ (60 : ℤ) := by norm_num
  refine ⟨?_, ?_⟩
  · generalize (100 : ℝ) ^ (-60 : ℤ) = w at *
    generalize (100 : ℝ) ^ (-32 : ℤ) = w' at *
    linarith
  · generalize (100 : ℝ) ^ (60 : ℤ) = w at *
    generalize (100 : ℝ) ^ (32 : ℤ) = w' at *
    linarith

/-- One iteration with the arithmetic of the OS. -/
theorem sq_newton {O : NOps} {ε a b K : ℝ} (hO : NGood O ε) (hε : 0 ≤ ε) (hε1 : ε ≤ 1 / 10) {X Y : Num} (hX : X.Norm) (hY : Y.Norm) (hab : a < b) (ha : (a - 1) ^ 2 ≤ K * a) (hb : (b - 1) ^ 2 ≤ K * b)
    (a1 : 1 / 2 ≤ a) (b1 : b ≤ 2) (h1 : a * √X.val ≤ Y.val) (h2 : Y.val ≤ b * √X.val) :
    ∃ q u v, O.div X Y = some q ∧ O.add q Y = some u ∧ O.mul u half = some v ∧ v.Norm ∧ (1 - ε) ^ 3 * √X.val ≤ v.val ∧ v.val ≤ (1 + ε) ^ 3 * (1 + K / 2) * √X.val := by
  obtain ⟨r1, r2⟩ := root_bound hX
  have hx := Real.sq_sqrt (val_pos hX).le
  have hy := val_pos hY
  have hr : 0 < √X.val := lt_of_lt_of_le (by positivity) r1
  generalize √X.val = r at *
  have k1 : 1 / 2 * r ≤ Y.val := by nlinarith
  have k2 : Y.val ≤ 2 * r := by nlinarith
  have w1 : r ^ 2 / Y.val ≤ 2 * r := by rw [div_le_iff₀ hy]; nlinarith
  have w2 : 1 / 2 * r ≤ r ^ 2 / Y.val := by rw [le_div_iff₀ hy]; nlinarith
  obtain ⟨q, eq, nq, aq⟩ := hO.div X Y hX hY (by rw [← hx]; exact inRange_root r1 r2 (by linarith) (by linarith))
  rw [← hx] at aq
  have aq' := abs_le.1 aq
  have q1 : 1 / 4 * r ≤ q.val := by nlinarith [aq'.1]
  have q2 : q.val ≤ 3 * r := by nlinarith [aq'.2]
  obtain ⟨u, eu, nu, au⟩ := hO.add q Y nq hY (inRange_root r1 r2 (by linarith) (by linarith))
  have au' := abs_le.1 au
  have u1 : 1 / 2 * r ≤ u.val := by nlinarith [au'.1]
  have u2 : u.val ≤ 6 * r := by nlinarith [au'.2]
  obtain ⟨v, ev, nv, av⟩ := hO.mul u half nu half_norm (by rw [half_val]; exact inRange_root r1 r2 (by linarith) (by linarith))
  rw [half_val] at av
  exact ⟨q, u, v, eq, eu, ev, nv, nt_step hε (by linarith) hr hy (nt_mid hr hab ha hb h1 h2) aq au av⟩

theorem cube_bounds {ε : ℝ} (hε : 0 ≤ ε) (hε1 : ε ≤ 1 / 10000000) : 1 - 3 * ε ≤ (1 - ε) ^ 3 ∧ (1 + ε) ^ 3 ≤ 1 + 3 * ε + ε / 1000000 := by
  have h2 : 0 ≤ ε ^ 2 := by positivity
  have h3 : ε ^ 2 ≤ ε / 10000000 := by nlinarith
  have h4 : ε ^ 3 ≤ ε ^ 2 := by nlinarith
  constructor
  · nlinarith
  · nlinarith

/-- `SQR` of a positive number: the routine ends, without an error, and `FR0` has the root with a relative error of at most 2 parts in 10^11 and some 3 times the error of one operation of the OS.  The stacks
do not change, and the memory changes only in the cells of the OS for floating point. -/
theorem C57_root {T : W} {O : NOps} {ε : ℝ} (hO : NGood O ε) (hε : 0 ≤ ε) (hε1 : ε ≤ 1 / 10000000) (s : QS) (hT : SqTab T s.m.ram) (hX : s.m.fr0.Norm) (hH : numAt s.m.ram 0xDF6C#16 = half) :
    ∃ s', QHalts (sqCode T) O (sqCode.EXE_FP_SQRT T) s s' ∧ s'.m.fr0.Norm ∧ |s'.m.fr0.val - √s.m.fr0.val| ≤ (31 / 10 * ε + 2 / 100000000000) * √s.m.fr0.val ∧ s'.m.zp.ioerr = s.m.zp.ioerr ∧
      s'.m.sl = s.m.sl ∧ s'.m.sh = s.m.sh ∧ s'.m.stk = s.m.stk ∧ SqKeep s.m.ram s'.m.ram := by
  obtain ⟨s1, r1, g1, x1, z1, k1⟩ := sq_guess (T := T) (O := O) s hT hX.e1 hX.e2
  obtain ⟨c1, c2⟩ := cube_bounds hε hε1
  have hr : 0 < √s.m.fr0.val := lt_of_lt_of_le (by positivity) (root_bound hX).1
  have hk : ∀ {r' : W → B}, SqKeep s.m.ram r' → numAt r' 0xDF6C#16 = half := fun h => by
    rw [← hH]
    refine numAt_congr ?_ ?_ ?_ ?_ ?_ ?_ <;> exact h _ (by decide)
  have hn := guess_norm _ _ hX g1
  obtain ⟨n1, n2⟩ := guess_near _ _ hX g1
  -- the four iterations
  obtain ⟨q, u, v, eq, eu, ev, nv, l1, u1⟩ := sq_newton (K := 1 / 6) hO hε (by linarith) hX hn (by norm_num) (by norm_num) (by norm_num) (by norm_num) (by norm_num) n1 n2
  obtain ⟨s2, r2, f2, x2, k2, C2⟩ := sq_iter (T := T) (O := O) s1 x1 rfl (hk k1.2.2.2) eq eu ev
  have K2 := k1.2.2.2.trans k2
  obtain ⟨s3, r3, m3, z3, k3⟩ := sq_back (T := T) (O := O) s2 (by rw [C2.zp, z1]; exact (by decide : (9#8 : B).toNat < 64))
  have L1 : (1 - 4 / 10000000) * √s.m.fr0.val ≤ v.val := le_trans (mul_le_mul_of_nonneg_right (by linarith) hr.le) l1
  have U1 : v.val ≤ 10834 / 10000 * √s.m.fr0.val := le_trans u1 (mul_le_mul_of_nonneg_right (by linarith) hr.le)
  obtain ⟨q', u', v', eq', eu', ev', nv', l2, u2⟩ := sq_newton (K := 643 / 100000) hO hε (by linarith) hX nv (by norm_num) (by norm_num) (by norm_num) (by norm_num) (by norm_num) L1 U1
  rw [← m3] at K2 x2
  obtain ⟨s4, r4, f4, x4, k4, C4⟩ := sq_iter (T := T) (O := O) s3 x2 (by rw [M.fr0, m3]; exact f2) (hk K2) eq' eu' ev'
  have K4 := K2.trans k4
  obtain ⟨s5, r5, m5, z5, k5⟩ := sq_back (T := T) (O := O) s4 (by rw [C4.zp, z3, C2.zp, z1]; exact (by decide : (18#8 : B).toNat < 64))
  have L2 : (1 - 4 / 10000000) * √s.m.fr0.val ≤ v'.val := le_trans (mul_le_mul_of_nonneg_right (by linarith) hr.le) l2
  have U2 : v'.val ≤ 100322 / 100000 * √s.m.fr0.val := le_trans u2 (mul_le_mul_of_nonneg_right (by linarith) hr.le)
  obtain ⟨q3, u3, v3, eq3, eu3, ev3, nv3, l3, u3'⟩ := sq_newton (K := 104 / 10000000) hO hε (by linarith) hX nv' (by norm_num) (by norm_num) (by norm_num) (by norm_num) (by norm_num) L2 U2
  rw [← m5] at K4 x4
  obtain ⟨s6, r6, f6, x6, k6, C6⟩ := sq_iter (T := T) (O := O) s5 x4 (by rw [M.fr0, m5]; exact f4) (hk K4) eq3 eu3 ev3
  have K6 := K4.trans k6
  obtain ⟨s7, r7, m7, z7, k7⟩ := sq_back (T := T) (O := O) s6 (by rw [C6.zp, z5, C4.zp, z3, C2.zp, z1]; exact (by decide : (36#8 : B).toNat < 64))
  have L3 : (1 - 4 / 10000000) * √s.m.fr0.val ≤ v3.val := le_trans (mul_le_mul_of_nonneg_right (by linarith) hr.le) l3
  have U3 : v3.val ≤ (1 + 56 / 10000000) * √s.m.fr0.val := le_trans u3' (mul_le_mul_of_nonneg_right (by linarith) hr.le)
  obtain ⟨q4, u4, v4, eq4, eu4, ev4, nv4, l4, u4'⟩ := sq_newton (K := 32 / 1000000000000) hO hε (by linarith) hX nv3 (by norm_num) (by norm_num) (by norm_num) (by norm_num) (by norm_num) L3 U3
  rw [← m7] at K6 x6
  obtain ⟨s8, r8, f8, x8, k8, C8⟩ := sq_iter (T := T) (O := O) s7 x6 (by rw [M.fr0, m7]; exact f6) (hk K6) eq4 eu4 ev4
  obtain ⟨s9, r9, m9, z9, k9⟩ := sq_end (T := T) (O := O) s8 (by rw [C8.zp, z7, C6.zp, z5, C4.zp, z3, C2.zp, z1]; rfl)
  have F9 : s9.m.fr0 = v4 := by rw [M.fr0, m9]; exact f8
  refine ⟨s9, (r1.trans (.trans ⟨1, rfl⟩ (r2.trans (r3.trans (r4.trans (r5.trans (r6.trans (r7.trans r8)))))))).halts r9, by rw [F9]; exact nv4, ?_, ?_, ?_, ?_, ?_, ?_⟩
  · rw [F9, abs_le]
    constructor
    · have := mul_le_mul_of_nonneg_right c1 hr.le
      have := mul_nonneg hε hr.le
      linarith
    · have h1 : (1 + ε) ^ 3 * (1 + 32 / 1000000000000 / 2) ≤ 1 + (31 / 10 * ε + 2 / 100000000000) := by linarith
      have := mul_le_mul_of_nonneg_right h1 hr.le
      linarith
  · rw [z9, C8.zp, z7, C6.zp, z5, C4.zp, z3, C2.zp, z1]
  · rw [k9.1, C8.sl, k7.1, C6.sl, k5.1, C4.sl, k3.1, C2.sl, k1.1]
  · rw [k9.2.1, C8.sh, k7.2.1, C6.sh, k5.2.1, C4.sh, k3.2.1, C2.sh, k1.2.1]
  · rw [k9.2.2, C8.stk, k7.2.2, C6.stk, k5.2.2, C4.stk, k3.2.2, C2.stk, k1.2.2.1]
  · rw [m9]; exact K6.trans k8

/-- `SQR` of zero is zero, and of a negative number is error 3; no other thing changes. -/
theorem C57_other {T : W} {O : NOps} (s : QS) (h : s.m.fr0.e = 0#8 ∨ 128 ≤ s.m.fr0.e.toNat) : ∃ s', QHalts (sqCode T) O (sqCode.EXE_FP_SQRT T) s s' ∧ s'.m.fr0 = s.m.fr0 ∧
    s'.m.zp.ioerr = (if s.m.fr0.e = 0#8 then s.m.zp.ioerr else 3#8) ∧ s'.m.sl = s.m.sl ∧ s'.m.sh = s.m.sh ∧ s'.m.stk = s.m.stk ∧ SqKeep s.m.ram s'.m.ram := sq_triv s h

/-! ### The hypotheses hold for an arithmetic that drops the digits that do not fit -/

/-- Two digits. -/
def enc (d : Nat) : B := BitVec.ofNat 8 (16 * (d / 10) + d % 10)

theorem enc_ok {d : Nat} (h : d < 100) : Bcd (enc d) ∧ bcd (enc d) = d := by
  have : (enc d).toNat = 16 * (d / 10) + d % 10 := by rw [enc, BitVec.toNat_ofNat, Nat.mod_eq_of_lt (by omega)]
  rw [Bcd, bcd, this]
  omega

/-- Ten digits and an exponent. -/
def mkNum (e N : Nat) : Num := ⟨BitVec.ofNat 8 e, enc (N / 100000000), enc (N / 1000000 % 100), enc (N / 10000 % 100), enc (N / 100 % 100), enc (N % 100)⟩

theorem mkNum_ok {e N : Nat} (e1 : 1 ≤ e) (e2 : e < 128) (h1 : 100000000 ≤ N) (h2 : N < 10000000000) : (mkNum e N).Norm ∧ (mkNum e N).val = (N : ℝ) / 100000000 * 100 ^ ((e : ℤ) - 64) := by
  have he : (mkNum e N).e.toNat = e := by simp [mkNum]; omega
  obtain ⟨a1, b1⟩ := enc_ok (show N / 100000000 < 100 by omega)
  obtain ⟨a2, b2⟩ := enc_ok (show N / 1000000 % 100 < 100 by omega)
  obtain ⟨a3, b3⟩ := enc_ok (show N / 10000 % 100 < 100 by omega)
  obtain ⟨a4, b4⟩ := enc_ok (show N / 100 % 100 < 100 by omega)
  obtain ⟨a5, b5⟩ := enc_ok (show N % 100 < 100 by omega)
  refine ⟨⟨by omega, by omega, ?_, a1, a2, a3, a4, a5⟩, ?_⟩
  · show 1 ≤ bcd (enc (N / 100000000))
    rw [b1]; omega
  · rw [Num.val, he, Num.frac]
    show ((bcd (enc (N / 100000000)) : ℝ) + ((bcd (enc (N / 1000000 % 100)) * 1000000 + bcd (enc (N / 10000 % 100)) * 10000 + bcd (enc (N / 100 % 100)) * 100 + bcd (enc (N % 100)) : ℕ) : ℝ) / 100000000) * _ = _
    rw [b1, b2, b3, b4, b5]
    have hN : N = N / 100000000 * 100000000 + (N / 1000000 % 100 * 1000000 + N / 10000 % 100 * 10000 + N / 100 % 100 * 100 + N % 100) := by omega
    have hR : (N : ℝ) = (N / 100000000 : ℕ) * 100000000 + (N / 1000000 % 100 * 1000000 + N / 10000 % 100 * 10000 + N / 100 % 100 * 100 + N % 100 : ℕ) := by exact_mod_cast hN
    congr 1
    linarith

/-- For every number far from an overflow there is a normalized one near. -/
theorem exists_num {x : ℝ} (h : InRange x) : ∃ n : Num, n.Norm ∧ |n.val - x| ≤ 1 / 100000000 * x := by
  obtain ⟨h1, h2⟩ := h
  have hx : 0 < x := lt_of_lt_of_le (by positivity) h1
  obtain ⟨k, k1, k2⟩ := exists_mem_Ico_zpow hx (show (1 : ℝ) < 100 by norm_num)
  have hk1 : -61 < k := by
    by_contra hc
    have : (100 : ℝ) ^ (k + 1) ≤ 100 ^ (-60 : ℤ) := zpow_le_zpow_right₀ (by norm_num) (by omega)
    exact absurd (h1.trans_lt (k2.trans_le this)) (lt_irrefl _)
  have hk2 : k ≤ 60 := by
    by_contra hc
    have : (100 : ℝ) ^ (61 : ℤ) ≤ 100 ^ k := zpow_le_zpow_right₀ (by norm_num) (by omega)
    have e : (100 : ℝ) ^ (60 : ℤ) < 100 ^ (61 : ℤ) := zpow_lt_zpow_right₀ (by norm_num) (by norm_num)
    exact absurd ((e.trans_le this).trans_le (k1.trans h2)) (lt_irrefl _)
  rw [zpow_add₀ (by norm_num), zpow_one] at k2
  have hz : (0 : ℝ) < 100 ^ k := zpow_pos (by norm_num) _
  have y1 : (1 : ℝ) ≤ x / 100 ^ k := by rw [le_div_iff₀ hz]; linarith
  have y2 : x / 100 ^ k < 100 := by rw [div_lt_iff₀ hz]; linarith
  have f1 := Nat.floor_le (show 0 ≤ x / 100 ^ k * 100000000 by positivity)
  have f2 := Nat.lt_floor_add_one (x / 100 ^ k * 100000000)
  have n1 : 100000000 ≤ ⌊x / 100 ^ k * 100000000⌋₊ := Nat.le_floor (by push_cast; linarith)
  have n2 : ⌊x / 100 ^ k * 100000000⌋₊ < 10000000000 := (Nat.floor_lt (by positivity)).2 (by push_cast; linarith)
  generalize ⌊x / 100 ^ k * 100000000⌋₊ = N at *
  obtain ⟨e, he⟩ : ∃ e : ℕ, (e : ℤ) = k + 64 := ⟨(k + 64).toNat, by omega⟩
  obtain ⟨hn, hv⟩ := mkNum_ok (e := e) (N := N) (by omega) (by omega) n1 n2
  refine ⟨_, hn, ?_⟩
  rw [hv, he, add_sub_cancel_right]
  have hxe : x = x / 100 ^ k * 100 ^ k := by field_simp
  generalize x / 100 ^ k = y at *
  rw [hxe]
  generalize (100 : ℝ) ^ k = z at *
  rw [abs_le]
  constructor
  · nlinarith
  · nlinarith

open Classical in
/-- A number near. -/
noncomputable def rnd (x : ℝ) : Option Num := if h : InRange x then some (exists_num h).choose else none

theorem rnd_ok {x : ℝ} (h : InRange x) : Approx (1 / 100000000) x (rnd x) := ⟨_, by rw [rnd, dif_pos h], (exists_num h).choose_spec⟩

/-- An arithmetic with ten digits. -/
noncomputable def rndOps : NOps := ⟨fun a b => rnd (a.val + b.val), fun a b => rnd (a.val - b.val), fun a b => rnd (a.val * b.val), fun a b => rnd (a.val / b.val), fun _ => none, fun _ => half⟩

theorem rndOps_good : NGood rndOps (1 / 100000000) := ⟨fun _ _ _ _ h => rnd_ok h, fun _ _ _ _ h => rnd_ok h, fun _ _ _ _ h => rnd_ok h⟩

/-- A memory with the table at `$2000`, the number `X` in `FR0` and one half in the ROM. -/
def sqRam (X : Num) : W → B :=
  fun a => if (a - 0xD4#16).toNat < 6 then X.get (a - 0xD4#16).toNat else if (a - 0xDF6C#16).toNat < 6 then half.get (a - 0xDF6C#16).toNat
    else if (a - 0x2000#16).toNat < 9 then BitVec.ofNat 8 (sqTab.getD (a - 0x2000#16).toNat 0) else 0#8

theorem sqRam_tab (X : Num) : SqTab 0x2000#16 (sqRam X) := by
  refine ⟨fun i hi => ?_, by decide, by decide⟩
  have : ∀ j : Fin 9, (sqRam X (0x2000#16 + BitVec.ofNat 16 j.val)).toNat = sqTab.getD j.val 0 := by
    intro j
    match j with
    | 0 | 1 | 2 | 3 | 4 | 5 | 6 | 7 | 8 => rfl
  exact this ⟨i, hi⟩

/-- The root of two, to nine digits, with an arithmetic that has errors of one part in 10^8. -/
example (m : M) (j : Nat → QJ) (hm : m.ram = sqRam ⟨0x40#8, 2#8, 0#8, 0#8, 0#8, 0#8⟩) : ∃ s', QHalts (sqCode 0x2000#16) rndOps (sqCode.EXE_FP_SQRT 0x2000#16) ⟨m, j⟩ s' ∧ |s'.m.fr0.val - √2| ≤ 5 / 100000000 := by
  have hf : m.fr0 = ⟨0x40#8, 2#8, 0#8, 0#8, 0#8, 0#8⟩ := by rw [M.fr0, hm]; rfl
  have hv : m.fr0.val = 2 := by rw [hf, Num.val, Num.frac]; simp [bcd]
  obtain ⟨s', h, -, he, -⟩ := C57_root rndOps_good (by norm_num) (by norm_num) ⟨m, j⟩ (T := 0x2000#16) (by rw [show (⟨m, j⟩ : QS).m.ram = _ from hm]; exact sqRam_tab _)
    (by rw [show (⟨m, j⟩ : QS).m.fr0 = _ from hf]; refine ⟨?_, ?_, ?_, ⟨?_, ?_⟩, ⟨?_, ?_⟩, ⟨?_, ?_⟩, ⟨?_, ?_⟩, ⟨?_, ?_⟩⟩ <;> simp [bcd]) (by rw [show (⟨m, j⟩ : QS).m.ram = _ from hm]; rfl)
  refine ⟨s', h, ?_⟩
  dsimp only at he
  rw [hv] at he
  have h2 : √2 ≤ 3 / 2 := by rw [Real.sqrt_le_left (by norm_num)]; norm_num
  refine he.trans ?_
  linarith

/-- The root of -1. -/
example (m : M) (j : Nat → QJ) (hm : m.ram = sqRam ⟨0xC0#8, 1#8, 0#8, 0#8, 0#8, 0#8⟩) (O : NOps) : ∃ s', QHalts (sqCode 0x2000#16) O (sqCode.EXE_FP_SQRT 0x2000#16) ⟨m, j⟩ s' ∧ s'.m.zp.ioerr = 3#8 := by
  have hf : m.fr0 = ⟨0xC0#8, 1#8, 0#8, 0#8, 0#8, 0#8⟩ := by rw [M.fr0, hm]; rfl
  obtain ⟨s', h, -, he, -⟩ := C57_other (T := 0x2000#16) (O := O) ⟨m, j⟩ (.inr (by rw [show (⟨m, j⟩ : QS).m.fr0 = _ from hf]; decide))
  refine ⟨s', h, ?_⟩
  rw [he, if_neg (by rw [show (⟨m, j⟩ : QS).m.fr0 = _ from hf]; decide)]

end FB.Rt
