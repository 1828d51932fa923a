import Verif.Rt.M6502
import Mathlib.Tactic.Ring
namespace FB.Rt
open Ins Opd

/-- `EXE_MUL`, `mul.asm:31-67`. -/
def mulCode : Code :=
  [.lb "EXE_MUL",
   .ins (sta (zp .tmp3)),
   .ins (lda (stkH 0)),
   .ins (lsr acc),
   .ins (sta (zp .tmp1h)),
   .ins (lda (stkL 0)),
   .ins (ror acc),
   .ins (sta (zp .tmp1)),
   .ins (lda (imm 0)),
   .ins (sta (zp .tmp2h)),
   .ins (ldy (imm 16)),
   .lb "L0",
   .ins (bcc "L1"),
   .ins clc,
   .ins (adc (zp .tmp3)),
   .ins (sta (zp .tmp2)),
   .ins txa,
   .ins (adc (zp .tmp2h)),
   .ins (sta (zp .tmp2h)),
   .ins (lda (zp .tmp2)),
   .lb "L1",
   .ins (ror (zp .tmp2h)),
   .ins (ror acc),
   .ins (ror (zp .tmp1h)),
   .ins (ror (zp .tmp1)),
   .ins dey,
   .ins (bne "L0"),
   .ins (lda (zp .tmp1)),
   .ins (ldx (zp .tmp1h)),
   .ins nextIncsp]


/-- The code from `@L0` on, and after the loop. -/
def mulL0 : Code := (find "L0" mulCode).getD []
def mulEnd : Code := mulCode.drop 27

/-- The 33 bits: product so far, rest of the multiplier, carry. -/
def mulV (m : M) : Nat := ((m.a.toNat + 256 * m.zp.tmp2h.toNat) * 65536 + (m.zp.tmp1.toNat + 256 * m.zp.tmp1h.toNat)) * 2 + m.c.toNat
/-- The multiplicand. -/
def mulX (m : M) : Nat := m.zp.tmp3.toNat + 256 * m.x.toNat

theorem mul_iter (m : M) : ∃ m', Reach mulCode mulL0 m (if m.y - 1 = 0 then mulEnd else mulL0) m' ∧ m'.y = m.y - 1 ∧
    mulV m' = mulV m / 2 + mulV m % 2 * (mulX m * 65536) ∧ mulX m' = mulX m ∧ Kept m m' m.zp.sptr := by
  have ha := m.a.isLt; have hx := m.x.isLt; have h1 := m.zp.tmp1.isLt; have h1h := m.zp.tmp1h.isLt
  have h2h := m.zp.tmp2h.isLt; have h3 := m.zp.tmp3.isLt
  cases h : m.c
  · refine ⟨?_, ⟨7, ?_⟩, ?_⟩
    rotate_left
    · simp only [mulL0, mulCode, mulEnd]
      rt_exec [h]
      rfl
    · refine ⟨rfl, ?_, rfl, ⟨rfl, rfl, rfl, rfl, rfl, rfl, rfl, rfl, rfl, rfl⟩⟩
      have hc : mulV m % 2 = 0 := by simp [mulV, h]
      rw [hc]
      simp only [mulV, mulX, h, lowBit_toNat, ror8_toNat, Bool.toNat_false] at *
      omega
  · refine ⟨?_, ⟨15, ?_⟩, ?_⟩
    rotate_left
    · simp only [mulL0, mulCode, mulEnd]
      rt_exec [h]
      rfl
    · refine ⟨rfl, ?_, rfl, ⟨rfl, rfl, rfl, rfl, rfl, rfl, rfl, rfl, rfl, rfl⟩⟩
      have hc : mulV m % 2 = 1 := by simp [mulV, h]
      rw [hc]
      simp only [mulV, mulX, h, lowBit_toNat, ror8_toNat, Bool.toNat_false, Bool.toNat_true, add8_toNat, addC_toNat] at *
      omega

/-- One iteration in numbers. -/
theorem mul_arith (t X p q r : Nat) (h : r * (2 * q) = 65536) :
    (t + X * p * (2 * (2 * q))) / 2 + (t + X * p * (2 * (2 * q))) % 2 * (X * 65536) = t / 2 + X * (p + t % 2 * r) * (2 * q) := by
  have e : X * p * (2 * (2 * q)) = 2 * (X * p * (2 * q)) := by ring
  rw [e]
  generalize hz : X * p * (2 * q) = z
  have h1 : (t + 2 * z) / 2 = t / 2 + z := by omega
  have h2 : (t + 2 * z) % 2 = t % 2 := by omega
  rw [h1, h2, ← h, ← hz]; ring

/-- The loop: `j + 1` iterations to go, `t` the rest of the multiplier. -/
theorem mul_loop (j : Nat) (hj : j < 16) : ∀ (m : M) (t p : Nat), m.y.toNat = j + 1 → mulV m = t + mulX m * p * (2 * 2 ^ (j + 1)) → t < 2 ^ (j + 1) →
    ∃ m', Reach mulCode mulL0 m mulEnd m' ∧ mulV m' = 2 * mulX m * (p + 2 ^ (15 - j) * t) ∧ Kept m m' m.zp.sptr := by
  induction j with
  | zero =>
    intro m t p hy hv ht
    obtain ⟨m', h1, h2, h3, h4, h5⟩ := mul_iter m
    have : m.y - 1 = 0 := by bv_omega
    rw [if_pos this] at h1
    refine ⟨m', h1, ?_, h5⟩
    have ht2 : t / 2 = 0 := by omega
    have ht3 : t % 2 = t := by omega
    have := mul_arith t (mulX m) p 1 (2 ^ 15) (by norm_num)
    rw [h3, hv]
    rw [ht2, ht3] at this
    simp only [Nat.pow_one, Nat.mul_one, Nat.zero_add] at this ⊢
    rw [this]; ring
  | succ j ih =>
    intro m t p hy hv ht
    obtain ⟨m', h1, h2, h3, h4, h5⟩ := mul_iter m
    have : ¬ m.y - 1 = 0 := by bv_omega
    rw [if_neg this] at h1
    have hp : 2 ^ (14 - j) * (2 * 2 ^ (j + 1)) = 65536 := by
      rw [show 2 * 2 ^ (j + 1) = 2 ^ (j + 2) by ring, ← Nat.pow_add, show 14 - j + (j + 2) = 16 by omega]
    have e := mul_arith t (mulX m) p (2 ^ (j + 1)) (2 ^ (14 - j)) hp
    rw [show 2 * 2 ^ (j + 1) = 2 ^ (j + 1 + 1) by ring] at e
    rw [← hv, ← h3] at e
    rw [← h4] at e
    have ht' : t / 2 < 2 ^ (j + 1) := by
      have : 2 ^ (j + 1 + 1) = 2 * 2 ^ (j + 1) := by ring
      omega
    rw [show 2 ^ (j + 1 + 1) = 2 * 2 ^ (j + 1) by ring] at e
    obtain ⟨m'', g1, g2, g3⟩ := ih (by omega) m' (t / 2) (p + t % 2 * 2 ^ (14 - j)) (by rw [h2]; bv_omega) e ht'
    refine ⟨m'', h1.trans g1, ?_, ?_⟩
    · rw [g2, h4]
      have e1 : 2 ^ (15 - j) = 2 * 2 ^ (14 - j) := by rw [show 15 - j = 14 - j + 1 by omega]; ring
      have e2 : 15 - (j + 1) = 14 - j := by omega
      rw [e1, e2]
      congr 1
      have : t = 2 * (t / 2) + t % 2 := by omega
      conv_rhs => rw [this]
      ring
    · have := h5.trans g3; rw [h5.sptr] at this; exact this

theorem mul_correct : Binary mulCode mulCode (· * ·) := by
  intro m he
  have ha := m.a.isLt; have hx := m.x.isLt
  have hl := (m.sl m.y).isLt; have hh := (m.sh m.y).isLt
  -- up to the loop
  obtain ⟨m1, r1, hy1, hv1, hx1, k1⟩ : ∃ m1, Reach mulCode mulCode m mulL0 m1 ∧ m1.y = 16 ∧
      mulV m1 = (m.sl m.y).toNat + 256 * (m.sh m.y).toNat ∧ mulX m1 = m.a.toNat + 256 * m.x.toNat ∧ Kept m m1 m.zp.sptr := by
    refine ⟨?_, ⟨12, ?_⟩, ?_⟩
    rotate_left
    · simp only [mulL0, mulCode]
      rt_exec
      rfl
    · refine ⟨rfl, ?_, rfl, ⟨rfl, rfl, rfl, rfl, rfl, rfl, rfl, rfl, rfl, rfl⟩⟩
      simp [mulV]
      omega
  -- the loop
  obtain ⟨m2, r2, hv2, k2⟩ := mul_loop 15 (by omega) m1 (mulV m1) 0 (by rw [hy1]; rfl) (by simp) (by rw [hv1]; omega)
  -- the end
  obtain ⟨m3, r3, hax, k3⟩ : ∃ m3, Halts mulCode mulEnd m2 m3 ∧ m3.ax = word m2.zp.tmp1 m2.zp.tmp1h ∧ Kept m2 m3 (m2.zp.sptr + 1) := by
    refine ⟨?_, ⟨3, ?_⟩, ?_⟩
    rotate_left
    · simp only [mulEnd, mulCode]
      rt_exec
      rfl
    · exact ⟨rfl, ⟨rfl, rfl, rfl, rfl, rfl, rfl, rfl, rfl, rfl, rfl⟩⟩
  refine ⟨m3, (r1.trans r2).halts r3, ?_, ?_⟩
  · rw [hax, stkAt0 he]
    apply BitVec.eq_of_toNat_eq
    simp only [M.ax, word_toNat, BitVec.toNat_mul]
    rw [hx1, hv1] at hv2
    have : mulV m2 / 2 % 65536 = m2.zp.tmp1.toNat + 256 * m2.zp.tmp1h.toNat := by
      have := m2.zp.tmp1.isLt; have := m2.zp.tmp1h.isLt; have := m2.c.toNat_le
      simp only [mulV]; omega
    rw [← this, hv2]
    congr 1
    have : 2 * (m.a.toNat + 256 * m.x.toNat) * (0 + 2 ^ (15 - 15) * ((m.sl m.y).toNat + 256 * (m.sh m.y).toNat)) =
      2 * (((m.sl m.y).toNat + 256 * (m.sh m.y).toNat) * (m.a.toNat + 256 * m.x.toNat)) := by simp; ring
    rw [this, Nat.mul_div_cancel_left _ (by omega)]
  · have := (k1.trans k2).trans k3
    rwa [k2.sptr, k1.sptr] at this

end FB.Rt
