import Verif.Parse.FpRead
import Mathlib.Data.Rat.Cast.Order
import Mathlib.Algebra.Order.Field.Rat
import Mathlib.Tactic.Linarith
import Mathlib.Tactic.Positivity
import Mathlib.Tactic.FieldSimp
import Mathlib.Tactic.NormNum
import Mathlib.Tactic.Ring

/-!
# C35: floating point literals are encoded in normalized Atari BCD

`fpVal` is the value of six bytes in the format of the Atari: a sign bit, an exponent of 100 in excess 64, and five bytes with two
decimal digits each, with the point after the first byte.
-/

namespace FB.Parse

/-- A byte with two decimal digits. -/
def Bcd (b : Nat) : Prop := b / 16 ≤ 9 ∧ b % 16 ≤ 9

/-- The value of a byte with two decimal digits. -/
def bcdVal (b : Nat) : Nat := b / 16 * 10 + b % 16

/-- The value of the mantissa, as a number of 10 digits. -/
def mantVal : List Nat → Nat := List.foldl (fun n b => n * 100 + bcdVal b) 0

/-- The value of a number in the format of the Atari. -/
def fpVal : List Nat → ℚ
  | [] => 0
  | e :: mant => (if e ≥ 128 then -1 else 1) * mantVal mant * 100 ^ ((e % 128 : Nat) - 68 : ℤ)

/-- A normalized number: six bytes, decimal digits, and the first byte of the mantissa is not zero. -/
def Normal (b : List Nat) : Prop :=
  ∃ e m0 m1 m2 m3 m4, b = [e, m0, m1, m2, m3, m4] ∧ e < 256 ∧ Bcd m0 ∧ Bcd m1 ∧ Bcd m2 ∧ Bcd m3 ∧ Bcd m4 ∧ m0 ≠ 0

/-- `n` is the integer nearest to `q`, the even one if there are two. -/
def Nearest (n : Nat) (q : ℚ) : Prop := |(n : ℚ) - q| ≤ 1 / 2 ∧ (|(n : ℚ) - q| = 1 / 2 → n % 2 = 0)

theorem scale (k e : ℤ) : (10 : ℚ) ^ k * 10 ^ (e - k).toNat = 10 ^ e * 10 ^ (k - e).toNat := by
  rw [← zpow_natCast, ← zpow_natCast, ← zpow_add₀ (by norm_num), ← zpow_add₀ (by norm_num)]
  congr 1
  omega

theorem ltPow_iff (m : Nat) (k e : ℤ) : ltPow m k e = true ↔ (m : ℚ) * 10 ^ k < 10 ^ e := by
  unfold ltPow
  rw [decide_eq_true_iff, ← Nat.cast_lt (α := ℚ)]
  push_cast
  have h := scale k e
  have p1 : (0 : ℚ) < 10 ^ (e - k).toNat := by positivity
  have p2 : (0 : ℚ) < 10 ^ e := zpow_pos (by norm_num) _
  constructor
  · intro hl
    have : (m : ℚ) * 10 ^ k * 10 ^ (e - k).toNat < 10 ^ e * 10 ^ (e - k).toNat := by
      rw [mul_assoc, h, ← mul_assoc, mul_comm (m : ℚ), mul_assoc]
      exact mul_lt_mul_of_pos_left hl p2
    exact lt_of_mul_lt_mul_right this p1.le
  · intro hl
    have : (m : ℚ) * 10 ^ k * 10 ^ (e - k).toNat < 10 ^ e * 10 ^ (e - k).toNat := mul_lt_mul_of_pos_right hl p1
    rw [mul_assoc, h, ← mul_assoc, mul_comm (m : ℚ), mul_assoc] at this
    exact lt_of_mul_lt_mul_left this p2.le

theorem fpValid_iff (m : Nat) (k : ℤ) : fpValid m k = true ↔ (m : ℚ) * 10 ^ k ≤ 10 ^ (98 : ℤ) := by
  unfold fpValid
  rw [decide_eq_true_iff, ← Nat.cast_le (α := ℚ)]
  push_cast
  have h := scale k 98
  have p1 : (0 : ℚ) < 10 ^ (98 - k).toNat := by positivity
  have p2 : (0 : ℚ) < 10 ^ (98 : ℤ) := by positivity
  constructor
  · intro hl
    have : (m : ℚ) * 10 ^ k * 10 ^ (98 - k).toNat ≤ 10 ^ (98 : ℤ) * 10 ^ (98 - k).toNat := by
      rw [mul_assoc, h, ← mul_assoc, mul_comm (m : ℚ), mul_assoc]
      exact mul_le_mul_of_nonneg_left hl p2.le
    exact le_of_mul_le_mul_right this p1
  · intro hl
    have : (m : ℚ) * 10 ^ k * 10 ^ (98 - k).toNat ≤ 10 ^ (98 : ℤ) * 10 ^ (98 - k).toNat := mul_le_mul_of_nonneg_right hl p1.le
    rw [mul_assoc, h, ← mul_assoc, mul_comm (m : ℚ), mul_assoc] at this
    exact le_of_mul_le_mul_left this p2

/-- Rounding a fraction. -/
theorem rint_div (a b : Nat) (hb : 0 < b) :
    Nearest (if 2 * (a % b) < b ∨ 2 * (a % b) = b ∧ a / b % 2 = 0 then a / b else a / b + 1) ((a : ℚ) / b) := by
  have hbq : (0 : ℚ) < b := by exact_mod_cast hb
  have e : (a : ℚ) / b = (a / b : Nat) + (a % b : Nat) / b := by
    have := Nat.div_add_mod a b
    have : (a : ℚ) = b * (a / b : Nat) + (a % b : Nat) := by exact_mod_cast this.symm
    rw [eq_comm, ← sub_eq_zero]
    field_simp
    linarith
  have hr := Nat.mod_lt a hb
  generalize a / b = q at *
  generalize a % b = r at *
  rw [e]
  have r0 : (0 : ℚ) ≤ r / b := by positivity
  unfold Nearest
  split
  · next h =>
    have : (q : ℚ) - (q + r / b) = -(r / b) := by ring
    rw [this, abs_neg, abs_of_nonneg r0, div_le_iff₀ hbq]
    refine ⟨?_, fun h' => ?_⟩
    · have : (2 * r : ℚ) ≤ b := by exact_mod_cast (by omega : 2 * r ≤ b)
      linarith
    · rw [div_eq_iff hbq.ne'] at h'
      have : 2 * r = b := by
        have : (2 * r : ℚ) = b := by linarith
        exact_mod_cast this
      rcases h with h | h
      · omega
      · exact h.2
  · next h =>
    have r1 : (r : ℚ) / b ≤ 1 := by
      rw [div_le_iff₀ hbq]
      have : (r : ℚ) ≤ b := by exact_mod_cast hr.le
      linarith
    have : ((q + 1 : Nat) : ℚ) - (q + r / b) = 1 - r / b := by push_cast; ring
    rw [this, abs_of_nonneg (by linarith)]
    have hle : b ≤ 2 * r := by omega
    refine ⟨?_, fun h' => ?_⟩
    · have : (1 : ℚ) / 2 ≤ r / b := by
        rw [div_le_div_iff₀ (by norm_num) hbq]
        have : (b : ℚ) ≤ 2 * r := by exact_mod_cast hle
        linarith
      linarith
    · have : (r : ℚ) / b = 1 / 2 := by linarith
      rw [div_eq_iff hbq.ne'] at this
      have : 2 * r = b := by
        have : (2 * r : ℚ) = b := by linarith
        exact_mod_cast this
      omega

theorem rint_nearest (m : Nat) (j : ℤ) : Nearest (rint m j) ((m : ℚ) * 10 ^ j) := by
  have := rint_div (m * 10 ^ j.toNat) (10 ^ (-j).toNat) (by positivity)
  have e : ((m * 10 ^ j.toNat : Nat) : ℚ) / (10 ^ (-j).toNat : Nat) = m * 10 ^ j := by
    have h := scale j 0
    simp only [zero_sub, sub_zero, zpow_zero, one_mul] at h
    push_cast
    rw [← h]
    field_simp
  rw [e] at this
  exact this

/-- The nearest integer of an integer. -/
theorem Nearest.eq {n k : Nat} (h : Nearest n (k : ℚ)) : n = k := by
  have h := h.1
  rw [abs_le] at h
  have h1 : (n : ℚ) < k + 1 := by linarith
  have h2 : (k : ℚ) < n + 1 := by linarith
  have h1 : n < k + 1 := by exact_mod_cast h1
  have h2 : k < n + 1 := by exact_mod_cast h2
  omega

theorem tobcd_spec {n : Nat} (h : n < 100) : Bcd (tobcd n) ∧ bcdVal (tobcd n) = n := by
  have e : tobcd n = n / 10 * 16 + n % 10 := by unfold tobcd; omega
  rw [e]
  have h1 : (n / 10 * 16 + n % 10) / 16 = n / 10 := by omega
  have h2 : (n / 10 * 16 + n % 10) % 16 = n % 10 := by omega
  unfold Bcd bcdVal
  rw [h1, h2]
  omega

theorem fpMant_val {n : Nat} (h : n < 10 ^ 10) : mantVal (fpMant n) = n := by
  have e : ∀ m0 m1 m2 m3 m4, mantVal [m0, m1, m2, m3, m4] =
    ((((0 * 100 + bcdVal m0) * 100 + bcdVal m1) * 100 + bcdVal m2) * 100 + bcdVal m3) * 100 + bcdVal m4 := fun _ _ _ _ _ => rfl
  unfold fpMant
  rw [e, (tobcd_spec (by omega)).2, (tobcd_spec (by omega)).2, (tobcd_spec (by omega)).2, (tobcd_spec (by omega)).2,
    (tobcd_spec (by omega)).2]
  omega

theorem fpMant_normal {n e : Nat} (h : n < 10 ^ 10) (h' : 10 ^ 8 ≤ n) (he : e < 256) : Normal (e :: fpMant n) := by
  refine ⟨_, _, _, _, _, _, rfl, he, (tobcd_spec (by omega)).1, (tobcd_spec (by omega)).1, (tobcd_spec (by omega)).1,
    (tobcd_spec (by omega)).1, (tobcd_spec (by omega)).1, ?_⟩
  intro h0
  have := (tobcd_spec (n := n / 100 / 100 / 100 / 100) (by omega)).2
  rw [h0] at this
  simp only [bcdVal] at this
  omega

/-- The loop stops at the first power of 100 above the number. -/
theorem fpLoop_find (sg m : Nat) (k : ℤ) (j : Nat) (h1 : (m : ℚ) * 10 ^ k < 10 ^ (2 * j - 98 : ℤ))
    (h2 : ∀ i : Nat, i < j → (10 : ℚ) ^ (2 * i - 98 : ℤ) ≤ m * 10 ^ k) : ∀ n i, i ≤ j → j < i + n →
    fpLoop sg m k n i = (sg + 14 + j) :: fpMant (rint m (k + 10 - (2 * j - 98))) := by
  intro n
  induction n with
  | zero => intro i _ _; omega
  | succ n ih =>
    intro i hi hj
    unfold fpLoop
    by_cases e : i = j
    · subst e
      rw [if_pos ((ltPow_iff ..).2 h1)]
    · rw [if_neg fun h => absurd ((ltPow_iff ..).1 h) (not_lt.2 (h2 i (by omega)))]
      exact ih (i + 1) (by omega) (by omega)

/-- The first power of 100 above a number. -/
theorem exists_pow (m : Nat) (k : ℤ) (h : (m : ℚ) * 10 ^ k < 10 ^ (98 : ℤ)) : ∃ j : Nat, j ≤ 98 ∧
    (m : ℚ) * 10 ^ k < 10 ^ (2 * j - 98 : ℤ) ∧ ∀ i : Nat, i < j → (10 : ℚ) ^ (2 * i - 98 : ℤ) ≤ m * 10 ^ k := by
  classical
  have ex : ∃ j : Nat, (m : ℚ) * 10 ^ k < 10 ^ (2 * j - 98 : ℤ) := ⟨98, by norm_num at h ⊢; exact h⟩
  refine ⟨Nat.find ex, Nat.find_min' ex (by norm_num at h ⊢; exact h), Nat.find_spec ex, fun i hi => ?_⟩
  exact not_lt.1 (Nat.find_min ex hi)

/-- The result of `update` for a number in range. -/
theorem fpUpdate_range (neg : Bool) {m : Nat} {k : ℤ} (h0 : (10 : ℚ) ^ (-99 : ℤ) ≤ m * 10 ^ k)
    (h98 : (m : ℚ) * 10 ^ k < 10 ^ (98 : ℤ)) : ∃ j : Nat, j ≤ 98 ∧ (m : ℚ) * 10 ^ k < 10 ^ (2 * j - 98 : ℤ) ∧
      (10 : ℚ) ^ (2 * j - 100 : ℤ) ≤ m * 10 ^ k ∧
      fpUpdate neg m k = ((if neg then 128 else 0) + 14 + j) :: fpMant (rint m (k + 10 - (2 * j - 98))) := by
  obtain ⟨j, hj, h1, h2⟩ := exists_pow m k h98
  refine ⟨j, hj, h1, ?_, ?_⟩
  · rcases Nat.eq_zero_or_pos j with rfl | hp
    · refine le_trans ?_ h0
      rw [zpow_le_zpow_iff_right₀ (by norm_num)]
      norm_num
    · have := h2 (j - 1) (by omega)
      have e : (2 * (j - 1 : Nat) - 98 : ℤ) = 2 * j - 100 := by omega
      rw [e] at this
      exact this
  · have hm : m ≠ 0 := by
      rintro rfl
      have : (0 : ℚ) < 10 ^ (-99 : ℤ) := by positivity
      simp at h0
      linarith
    unfold fpUpdate
    rw [if_neg fun h => absurd ((ltPow_iff ..).1 h) (not_lt.2 h0), (ltPow_iff ..).2 h98]
    simp only [Bool.not_true, Bool.false_eq_true, if_false]
    rw [fpLoop_find _ m k j h1 h2 99 0 (by omega) (by omega)]
    simp [hm]

/-- **C35.** A number between `10⁻⁹⁹` and `10⁹⁸` is encoded as a normalized number with the right sign, that is the nearest one with
that exponent, ties to even. Missing for the full claim: numbers that are rounded up to a power of 100 (the last hypothesis
excludes those), where the encoding is wrong, see `C35_roundup_refuted`, and the last valid number, `10⁹⁸`, see
`C35_limit_refuted`. -/
theorem C35_encoded_partial (neg : Bool) (m : Nat) (k : ℤ) (h0 : (10 : ℚ) ^ (-99 : ℤ) ≤ m * 10 ^ k)
    (h98 : (m : ℚ) * 10 ^ k < 10 ^ (98 : ℤ))
    (hr : ∀ p : ℤ, (m : ℚ) * 10 ^ k < 100 ^ p → (m : ℚ) * 10 ^ k < (1 - 1 / (2 * 10 ^ 10)) * 100 ^ p) :
    ∃ (e n : Nat) (mant : List Nat), fpUpdate neg m k = e :: mant ∧ Normal (e :: mant) ∧ (e ≥ 128 ↔ neg = true) ∧
      fpVal (e :: mant) = (if neg then -1 else 1) * n * 100 ^ ((e % 128 : Nat) - 68 : ℤ) ∧
      Nearest n (m * 10 ^ k / 100 ^ ((e % 128 : Nat) - 68 : ℤ)) ∧ 10 ^ 8 ≤ n ∧ n < 10 ^ 10 := by
  obtain ⟨j, hj, h1, h2, hu⟩ := fpUpdate_range neg h0 h98
  have pw : ∀ z : ℤ, (100 : ℚ) ^ z = 10 ^ (2 * z) := fun z => by
    rw [zpow_mul]; norm_num
  have hn := rint_nearest m (k + 10 - (2 * j - 98))
  have hq : (m : ℚ) * 10 ^ (k + 10 - (2 * j - 98)) = m * 10 ^ k * 10 ^ (108 - 2 * j : ℤ) := by
    rw [mul_assoc, ← zpow_add₀ (by norm_num)]
    congr 2
    ring
  have hlow : (10 : ℚ) ^ 8 ≤ m * 10 ^ k * 10 ^ (108 - 2 * j : ℤ) := by
    have : (10 : ℚ) ^ 8 = 10 ^ (2 * j - 100 : ℤ) * 10 ^ (108 - 2 * j : ℤ) := by
      rw [← zpow_add₀ (by norm_num), show (2 * j - 100 + (108 - 2 * j) : ℤ) = (8 : Nat) by push_cast; ring, zpow_natCast]
    rw [this]
    exact mul_le_mul_of_nonneg_right h2 (zpow_pos (by norm_num) _).le
  have hup : (m : ℚ) * 10 ^ k * 10 ^ (108 - 2 * j : ℤ) < 10 ^ 10 - 1 / 2 := by
    have := hr (j - 49) (by rw [pw, show (2 * (j - 49) : ℤ) = 2 * j - 98 by ring]; exact h1)
    rw [pw, show (2 * (j - 49) : ℤ) = 2 * j - 98 by ring] at this
    have e10 : (10 : ℚ) ^ (2 * j - 98 : ℤ) * 10 ^ (108 - 2 * j : ℤ) = 10 ^ 10 := by
      rw [← zpow_add₀ (by norm_num), show (2 * j - 98 + (108 - 2 * j) : ℤ) = (10 : Nat) by push_cast; ring, zpow_natCast]
    have := mul_lt_mul_of_pos_right this (show (0 : ℚ) < 10 ^ (108 - 2 * j : ℤ) from zpow_pos (by norm_num) _)
    rw [mul_assoc (1 - _), e10] at this
    refine lt_of_lt_of_eq this ?_
    norm_num
  rw [hq] at hn
  generalize rint m (k + 10 - (2 * j - 98)) = n at hu hn
  have hab := abs_le.1 hn.1
  have n8 : 10 ^ 8 ≤ n := by
    by_contra hc
    have : (n : ℚ) ≤ 10 ^ 8 - 1 := by
      have : n + 1 ≤ 10 ^ 8 := by omega
      have : (n : ℚ) + 1 ≤ 10 ^ 8 := by exact_mod_cast this
      linarith
    linarith
  have n10 : n < 10 ^ 10 := by
    have : (n : ℚ) < 10 ^ 10 := by linarith
    exact_mod_cast this
  have e128 : ((if neg = true then 128 else 0) + 14 + j) % 128 = 14 + j := by cases neg <;> simp <;> omega
  refine ⟨_, n, _, hu, fpMant_normal n10 n8 (by cases neg <;> simp <;> omega), by cases neg <;> simp <;> omega, ?_, ?_, n8, n10⟩
  · simp only [fpVal, fpMant_val n10, e128]
    congr 2
    cases neg <;> simp <;> omega
  · rw [e128, pw, div_eq_mul_inv, ← zpow_neg, show (-(2 * ((14 + j : Nat) - 68)) : ℤ) = 108 - 2 * j by push_cast; ring]
    exact hn

/-- Numbers below `10⁻⁹⁹` are encoded as zero. -/
theorem C35_underflow (neg : Bool) (m : Nat) (k : ℤ) (h0 : (m : ℚ) * 10 ^ k < 10 ^ (-99 : ℤ)) : fpVal (fpUpdate neg m k) = 0 := by
  unfold fpUpdate
  rw [if_pos ((ltPow_iff ..).2 h0)]
  simp [fpVal, mantVal, bcdVal]

/-- The value of a literal, without its sign. -/
def Lit.mag (l : Lit) : ℚ := decNum (l.a ++ l.b) * 10 ^ (l.exp - l.b.length)

/-- **C35**, for the text of a literal: anywhere in the source, the action that reads numbers consumes the whole literal and emits
one floating point number, with bytes as in `C35_encoded_partial`. -/
theorem C35_literal_partial {file : Str → Option (List Nat)} {s : PS} {l : Lit} {rest : Str}
    (h : s.str.drop s.pos = l.text ++ rest) (hl : l.Ok) (ha : After rest) (h0 : (10 : ℚ) ^ (-99 : ℤ) ≤ l.mag)
    (h98 : l.mag < 10 ^ (98 : ℤ)) (hr : ∀ p : ℤ, l.mag < 100 ^ p → l.mag < (1 - 1 / (2 * 10 ^ 10)) * 100 ^ p) :
    ∃ (s' : PS) (e n : Nat) (mant : List Nat), eNumberFp ⟨file, fpOf⟩ s = .ok s' ∧
      s'.pos = s.pos + l.text.length + PS.wsLen rest ∧ s'.code = ⟨.fp (e :: mant), s.linenum⟩ :: s.code ∧
      Normal (e :: mant) ∧ fpVal (e :: mant) = (if l.neg then -1 else 1) * n * 100 ^ ((e % 128 : Nat) - 68 : ℤ) ∧
      Nearest n (l.mag / 100 ^ ((e % 128 : Nat) - 68 : ℤ)) ∧ 10 ^ 8 ≤ n ∧ n < 10 ^ 10 := by
  obtain ⟨e, n, mant, h1, h2, -, h4, h5, h6, h7⟩ := C35_encoded_partial l.neg (decNum (l.a ++ l.b)) (l.exp - l.b.length) h0 h98 hr
  have hf : fpOf l.neg l.digs l.exp = some (e :: mant, fpText (e :: mant)) := by
    unfold fpOf
    rw [fpNum_digs hl, fpDot_digs hl, if_pos ((fpValid_iff ..).2 h98.le), h1]
  obtain ⟨s', g1, -, g3, g4⟩ := eNumberFp_lit (env := ⟨file, fpOf⟩) h hl ha hf
  exact ⟨s', e, n, mant, g1, g3, g4, h2, h4, h5, h6, h7⟩

/-- A literal above `10⁹⁸` is not accepted. -/
theorem C35_too_big {file : Str → Option (List Nat)} (l : Lit) (hl : l.Ok) (h : (10 : ℚ) ^ (98 : ℤ) < l.mag) :
    (⟨file, fpOf⟩ : Env).fp l.neg l.digs l.exp = none := by
  show fpOf _ _ _ = _
  unfold fpOf
  rw [fpNum_digs hl, fpDot_digs hl, if_neg]
  intro hc
  exact absurd ((fpValid_iff ..).1 hc) (not_le.2 h)

/-! ## Examples -/

/-- `3.14159`. -/
def pi : Lit := ⟨false, ofS "3", true, ofS "14159", none⟩

example : pi.Ok ∧ pi.text = ofS "3.14159" := by
  refine ⟨⟨?_, ?_, ?_, ?_, ?_⟩, by decide +kernel⟩
  · show ∀ c ∈ ofS "3", 48 ≤ c ∧ c ≤ 57
    decide +kernel
  · show ∀ c ∈ ofS "14159", 48 ≤ c ∧ c ≤ 57
    decide +kernel
  · intro h; cases h
  · decide +kernel
  · intro _ _ h; cases h

/-- The hypotheses of `C35_encoded_partial` are met, and the result. -/
example : (10 : ℚ) ^ (-99 : ℤ) ≤ (314159 : Nat) * 10 ^ (-5 : ℤ) ∧ ((314159 : Nat) : ℚ) * 10 ^ (-5 : ℤ) < 10 ^ (98 : ℤ) ∧
    (∀ p : ℤ, ((314159 : Nat) : ℚ) * 10 ^ (-5 : ℤ) < 100 ^ p →
      ((314159 : Nat) : ℚ) * 10 ^ (-5 : ℤ) < (1 - 1 / (2 * 10 ^ 10)) * 100 ^ p) ∧
    fpUpdate false 314159 (-5) = [64, 0x03, 0x14, 0x15, 0x90, 0x00] := by
  refine ⟨by norm_num, by norm_num, fun p hp => ?_, by decide +kernel⟩
  have hp1 : 1 ≤ p := by
    by_contra hc
    have : (100 : ℚ) ^ p ≤ 100 ^ (0 : ℤ) := zpow_le_zpow_right₀ (by norm_num) (by omega)
    rw [zpow_zero] at this
    norm_num at hp
    linarith
  have : (100 : ℚ) ^ (1 : ℤ) ≤ 100 ^ p := zpow_le_zpow_right₀ (by norm_num) hp1
  have h2 : (1 - 1 / (2 * 10 ^ 10) : ℚ) * 100 ^ (1 : ℤ) ≤ (1 - 1 / (2 * 10 ^ 10)) * 100 ^ p :=
    mul_le_mul_of_nonneg_left this (by norm_num)
  refine lt_of_lt_of_le ?_ h2
  norm_num

/-- The claim is false for numbers that are rounded up to a power of 100: `9999999999.9` gives the mantissa `A0 00 00 00 00`, that
is not decimal, with the exponent of `99…`. -/
theorem C35_roundup_refuted : fpOf false (ofS "9999999999.9") 0 = some ([68, 0xA0, 0, 0, 0, 0], ofS ":E9") ∧
    ¬ Normal [68, 0xA0, 0, 0, 0, 0] := by
  refine ⟨by decide +kernel, ?_⟩
  rintro ⟨e, m0, m1, m2, m3, m4, h, -, h0, -⟩
  simp only [List.cons.injEq] at h
  obtain ⟨-, rfl, -⟩ := h
  unfold Bcd at h0
  omega

/-- The claim is false for the largest number accepted: `1E98` is encoded as `9.999999999E99`. -/
theorem C35_limit_refuted : fpOf false (ofS "1") 98 = some ([113, 0x99, 0x99, 0x99, 0x99, 0x99], ofS "9999999999E90") ∧
    fpVal [113, 0x99, 0x99, 0x99, 0x99, 0x99] = 9999999999 * 10 ^ 90 := by
  refine ⟨by decide +kernel, ?_⟩
  norm_num [fpVal, mantVal, bcdVal]

end FB.Parse
