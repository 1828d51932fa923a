import Verif.Rt.Arith
import Verif.Rt.Labels
import Mathlib.Tactic.Ring
/-!
# Division and remainder

Transcription of `/repo/src/interp/div.asm` and proof that `EXE_DIV` and `EXE_MOD` compute `vmDiv` and `vmMod` for all
operands.
-/
namespace FB.Rt
open Ins Opd

/-- `EXE_DIV`, `EXE_MOD`, `divmod_sign_adjust`, `udiv16`: `div.asm:35-131`. -/
def divCode : Code :=
  asm!["EXE_DIV", jsr "divmod_sign_adjust", lda (zp .tmp3), ldx (zp .tmp3h), Ins.bit (zp .dsign), bpl "pos",
   "neg", jsr "neg_AX",
   "pos", nextIncsp,
   "EXE_MOD", jsr "divmod_sign_adjust", ldx (zp .tmp2h), Ins.bit (zp .dsign), bvs "neg", nextIncsp,
   "divmod_sign_adjust", ldy (imm 0), cpx (imm 0x80), bcc "y_pos", ldy (imm 0x80), jsr "neg_AX",
   "y_pos", sta (zp .tmp1), stx (zp .tmp1h), sty (zp .dsign),
   ldy (zp .sptr), lda (stkL 0), ldx (stkH 0), bpl "x_pos", jsr "neg_AX", dec (zp .dsign),
   "x_pos", sta (zp .tmp3), stx (zp .tmp3h),
   "udiv16", ldy (imm 16), lda (imm 0), sta (zp .tmp2h), ldx (zp .tmp1h), beq "L2",
   "L0", asl (zp .tmp3), rol (zp .tmp3h), rol acc, rol (zp .tmp2h),
   tax, cmp (zp .tmp1), lda (zp .tmp2h), sbc (zp .tmp1h), bcc "L1",
   sta (zp .tmp2h), txa, sbc (zp .tmp1), tax, inc (zp .tmp3),
   "L1", txa, dey, Ins.bne "L0", rts,
   "L2", asl (zp .tmp3), rol (zp .tmp3h), rol acc, bcs "L3",
   cmp (zp .tmp1), bcc "L4",
   "L3", sbc (zp .tmp1), inc (zp .tmp3),
   "L4", dey, Ins.bne "L2", rts] ++ negax

code_labels divCode

/-- The `RTS` at the end of each of the loops. -/
def divEnd0 : Code := divCode.L1.drop 3
def divEnd2 : Code := divCode.L4.drop 2

/-- Divisor, remainder so far, and the register with the rest of the dividend and the quotient so far. -/
def divD (m : M) : Nat := m.zp.tmp1.toNat + 256 * m.zp.tmp1h.toNat
def divR (m : M) : Nat := m.a.toNat + 256 * m.zp.tmp2h.toNat
def divT (m : M) : Nat := m.zp.tmp3.toNat + 256 * m.zp.tmp3h.toNat

/-- What both loops keep. -/
def DivKept (m m' : M) : Prop := m'.zp.dsign = m.zp.dsign ∧ divD m' = divD m ∧ Kept m m' m.zp.sptr

theorem div_iter0 (m : M) (hr : divR m < divD m) (hd : divD m ≤ 32768) :
    ∃ m', Reach divCode divCode.L0 m (if m.y - 1 = 0 then divEnd0 else divCode.L0) m' ∧ m'.y = m.y - 1 ∧ DivKept m m' ∧
      (if divD m ≤ 2 * divR m + divT m / 32768 then
        divR m' = 2 * divR m + divT m / 32768 - divD m ∧ divT m' = 2 * divT m % 65536 + 1
       else divR m' = 2 * divR m + divT m / 32768 ∧ divT m' = 2 * divT m % 65536) := by
  have ha := m.a.isLt; have h1 := m.zp.tmp1.isLt; have h1h := m.zp.tmp1h.isLt
  have h2h := m.zp.tmp2h.isLt; have h3 := m.zp.tmp3.isLt; have h3h := m.zp.tmp3h.isLt
  cases hc : addC (rol8 m.zp.tmp2h (topBit m.a)) (~~~ m.zp.tmp1h) (addC (rol8 m.a (topBit m.zp.tmp3h)) (~~~ m.zp.tmp1) true)
  · refine ⟨?_, ⟨12, ?_⟩, ?_⟩
    rotate_left
    · rt_exec [divCode.L0.eq, divCode.L1.eq, divEnd0, hc]
      rfl
    · refine ⟨rfl, ⟨rfl, rfl, kept⟩, ?_⟩
      have hc' := congrArg Bool.toNat hc
      simp only [divD, divR, divT, Bool.toNat_false, Bool.toNat_true, addC_toNat, topBit_toNat, rol8_toNat, BitVec.toNat_not] at *
      rw [if_neg (by omega)]
      constructor <;> omega
  · refine ⟨?_, ⟨18, ?_⟩, ?_⟩
    rotate_left
    · rt_exec [divCode.L0.eq, divCode.L1.eq, divEnd0, hc]
      rfl
    · refine ⟨rfl, ⟨rfl, rfl, kept⟩, ?_⟩
      have hc' := congrArg Bool.toNat hc
      simp only [divD, divR, divT, Bool.toNat_false, Bool.toNat_true, addC_toNat, add8_toNat, topBit_toNat, rol8_toNat, BitVec.toNat_not] at *
      rw [if_pos (by omega)]
      constructor <;> simp [BitVec.toNat_add] <;> omega

theorem div_iter2 (m : M) (hh : m.zp.tmp1h = 0#8) (h0 : m.zp.tmp2h = 0#8) (hr : divR m < divD m ∨ divD m = 0) :
    ∃ m', Reach divCode divCode.L2 m (if m.y - 1 = 0 then divEnd2 else divCode.L2) m' ∧ m'.y = m.y - 1 ∧ DivKept m m' ∧
      m'.zp.tmp1h = 0#8 ∧ m'.zp.tmp2h = 0#8 ∧
      (if divD m = 0 then divR m' = (2 * divR m + divT m / 32768) % 256 ∧ divT m' = 2 * divT m % 65536 + 1
       else if divD m ≤ 2 * divR m + divT m / 32768 then
        divR m' = 2 * divR m + divT m / 32768 - divD m ∧ divT m' = 2 * divT m % 65536 + 1
       else divR m' = 2 * divR m + divT m / 32768 ∧ divT m' = 2 * divT m % 65536) := by
  have ha := m.a.isLt; have h1 := m.zp.tmp1.isLt
  have h3 := m.zp.tmp3.isLt; have h3h := m.zp.tmp3h.isLt
  cases hc : topBit m.a
  · cases hd : addC (rol8 m.a (topBit m.zp.tmp3h)) (~~~ m.zp.tmp1) true
    · refine ⟨?_, ⟨8, ?_⟩, ?_⟩
      rotate_left
      · rt_exec [divCode.L2.eq, divCode.L3.eq, divCode.L4.eq, divEnd2, hc, hd]
        rfl
      · refine ⟨rfl, ⟨rfl, rfl, kept⟩, hh, h0, ?_⟩
        have hc' := congrArg Bool.toNat hc
        have hd' := congrArg Bool.toNat hd
        simp only [divD, divR, divT, hh, h0, Bool.toNat_false, Bool.toNat_true, addC_toNat, topBit_toNat, rol8_toNat, BitVec.toNat_not, BitVec.toNat_zero] at *
        rw [if_neg (by omega), if_neg (by omega)]
        constructor <;> omega
    · refine ⟨?_, ⟨12, ?_⟩, ?_⟩
      rotate_left
      · rt_exec [divCode.L2.eq, divCode.L3.eq, divCode.L4.eq, divEnd2, hc, hd]
        rfl
      · refine ⟨rfl, ⟨rfl, rfl, kept⟩, hh, h0, ?_⟩
        have hc' := congrArg Bool.toNat hc
        have hd' := congrArg Bool.toNat hd
        simp only [divD, divR, divT, hh, h0, Bool.toNat_false, Bool.toNat_true, addC_toNat, add8_toNat, topBit_toNat, rol8_toNat, BitVec.toNat_not, BitVec.toNat_zero] at *
        split
        · constructor <;> simp [BitVec.toNat_add] <;> omega
        · rw [if_pos (by omega)]
          constructor <;> simp [BitVec.toNat_add] <;> omega
  · refine ⟨?_, ⟨9, ?_⟩, ?_⟩
    rotate_left
    · rt_exec [divCode.L2.eq, divCode.L3.eq, divCode.L4.eq, divEnd2, hc]
      rfl
    · refine ⟨rfl, ⟨rfl, rfl, kept⟩, hh, h0, ?_⟩
      have hc' := congrArg Bool.toNat hc
      simp only [divD, divR, divT, hh, h0, Bool.toNat_false, Bool.toNat_true, addC_toNat, add8_toNat, topBit_toNat, rol8_toNat, BitVec.toNat_not, BitVec.toNat_zero] at *
      split
      · constructor <;> simp [BitVec.toNat_add] <;> omega
      · rw [if_pos (by omega)]
        constructor <;> simp [BitVec.toNat_add] <;> omega

/-- One step of long division: `j + 1` bits `t` to go, quotient so far `q`. -/
theorem div_arith (D R T t q j : Nat) (hj : j < 16) (hT : T = t * 2 ^ (15 - j) + q) (ht : t < 2 ^ (j + 1)) (hq : q < 2 ^ (15 - j)) :
    T / 32768 = t / 2 ^ j ∧ 2 * T % 65536 = t % 2 ^ j * 2 ^ (15 - j + 1) + 2 * q ∧
      (D ≤ 2 * R + t / 2 ^ j → (R * 2 ^ (j + 1) + t) / D = ((2 * R + t / 2 ^ j - D) * 2 ^ j + t % 2 ^ j) / D + (if D = 0 then 0 else 2 ^ j) ∧
        (R * 2 ^ (j + 1) + t) % D = ((2 * R + t / 2 ^ j - D) * 2 ^ j + t % 2 ^ j) % D) ∧
      R * 2 ^ (j + 1) + t = (2 * R + t / 2 ^ j) * 2 ^ j + t % 2 ^ j := by
  have hp : 2 ^ (15 - j) * 2 ^ j = 32768 := by rw [← Nat.pow_add, show 15 - j + j = 15 by omega]
  have hp1 : 2 ^ (j + 1) = 2 * 2 ^ j := by ring
  have hp2 : 2 ^ (15 - j + 1) = 2 * 2 ^ (15 - j) := by ring
  have hpos : 0 < 2 ^ j := Nat.two_pow_pos j
  have hb : t / 2 ^ j ≤ 1 := by
    have : t / 2 ^ j < 2 := by rw [Nat.div_lt_iff_lt_mul hpos]; omega
    omega
  have hm : t % 2 ^ j < 2 ^ j := Nat.mod_lt _ hpos
  have hdm := Nat.div_add_mod t (2 ^ j)
  rw [hp1, hp2]
  generalize hA : 2 ^ j = A at *
  generalize hB : 2 ^ (15 - j) = Z at *
  generalize hu : t % A = u at *
  have hTu : T = t / A * 32768 + (u * Z + q) := by
    rw [hT, ← hp]; conv_lhs => rw [← hdm]
    ring
  have huz : u * Z + q < 32768 := by
    have : (u + 1) * Z ≤ A * Z := Nat.mul_le_mul_right _ hm
    rw [Nat.mul_comm A Z, hp] at this
    have : (u + 1) * Z = u * Z + Z := by ring
    omega
  refine ⟨?_, ?_, ?_, ?_⟩
  · omega
  · have : u * (2 * Z) = 2 * (u * Z) := by ring
    rw [this]
    have : t / A = 0 ∨ t / A = 1 := by omega
    rcases this with h | h <;> rw [h] at hTu <;> omega
  · intro hle
    have e : R * (2 * A) + t = ((2 * R + t / A - D) * A + u) + D * A := by
      conv_lhs => rw [← hdm]
      obtain ⟨z, hz⟩ : ∃ z, 2 * R + t / A = D + z := ⟨_, (Nat.add_sub_of_le hle).symm⟩
      rw [hz, Nat.add_sub_cancel_left]
      have : R * (2 * A) + (A * (t / A) + u) = (2 * R + t / A) * A + u := by ring
      rw [this, hz]; ring
    rw [e]
    constructor
    · split
      · next h => subst h; simp
      · next h => rw [Nat.add_mul_div_left _ _ (by omega)]
    · rw [Nat.add_mul_mod_self_left]
  · conv_lhs => rw [← hdm]
    ring

theorem DivKept.trans {a b c : M} (h : DivKept a b) (h' : DivKept b c) : DivKept a c := by
  refine ⟨h'.1.trans h.1, h'.2.1.trans h.2.1, ?_⟩
  have := h.2.2.trans h'.2.2
  rwa [h.2.2.sptr] at this

/-- The loops divide. -/
theorem div_loop (L E : Code) (Inv : M → Prop)
    (it : ∀ m, Inv m → divR m < divD m → ∃ m', Reach divCode L m (if m.y - 1 = 0 then E else L) m' ∧ m'.y = m.y - 1 ∧
      DivKept m m' ∧ Inv m' ∧
      (if divD m ≤ 2 * divR m + divT m / 32768 then
        divR m' = 2 * divR m + divT m / 32768 - divD m ∧ divT m' = 2 * divT m % 65536 + 1
       else divR m' = 2 * divR m + divT m / 32768 ∧ divT m' = 2 * divT m % 65536))
    (j : Nat) (hj : j < 16) : ∀ (m : M) (t q : Nat), Inv m → divR m < divD m → m.y.toNat = j + 1 →
      divT m = t * 2 ^ (15 - j) + q → t < 2 ^ (j + 1) → q < 2 ^ (15 - j) →
      ∃ m', Reach divCode L m E m' ∧ DivKept m m' ∧ Inv m' ∧ divR m' = (divR m * 2 ^ (j + 1) + t) % divD m ∧
        divT m' = q * 2 ^ (j + 1) + (divR m * 2 ^ (j + 1) + t) / divD m := by
  induction j with
  | zero =>
    intro m t q hi hr hy hT ht hq
    obtain ⟨m', r, hy', k, hi', h⟩ := it m hi hr
    have : m.y - 1 = 0 := by bv_omega
    rw [if_pos this] at r
    refine ⟨m', r, k, hi', ?_⟩
    obtain ⟨e1, e2, e3, e4⟩ := div_arith (divD m) (divR m) (divT m) t q 0 hj hT ht hq
    rw [e1, e2] at h
    split at h
    · next hle =>
      obtain ⟨e5, e6⟩ := e3 hle
      rw [e5, e6, h.1, h.2, if_neg (by omega)]
      simp [Nat.mod_one] at hle ⊢
      have hlt : 2 * divR m + t - divD m < divD m := by simp at ht; omega
      rw [Nat.mod_eq_of_lt hlt, Nat.div_eq_of_lt hlt]
      omega
    · next hle =>
      rw [e4, h.1, h.2]
      simp [Nat.mod_one] at hle ⊢
      rw [Nat.mod_eq_of_lt hle, Nat.div_eq_of_lt hle]
      omega
  | succ j ih =>
    intro m t q hi hr hy hT ht hq
    obtain ⟨m', r, hy', k, hi', h⟩ := it m hi hr
    have : ¬ m.y - 1 = 0 := by bv_omega
    rw [if_neg this] at r
    obtain ⟨e1, e2, e3, e4⟩ := div_arith (divD m) (divR m) (divT m) t q (j + 1) hj hT ht hq
    have e15 : 15 - (j + 1) + 1 = 15 - j := by omega
    have hb : t / 2 ^ (j + 1) ≤ 1 := by
      have : t / 2 ^ (j + 1) < 2 := by
        rw [Nat.div_lt_iff_lt_mul (Nat.two_pow_pos _)]; rw [Nat.pow_succ] at ht; omega
      omega
    have hm : t % 2 ^ (j + 1) < 2 ^ (j + 1) := Nat.mod_lt _ (Nat.two_pow_pos _)
    have hq2 : 2 * q + 1 < 2 ^ (15 - j) := by rw [← e15, Nat.pow_succ]; omega
    rw [e1, e2, e15] at h
    have hD : divD m' = divD m := k.2.1
    split at h
    · next hle =>
      obtain ⟨e5, e6⟩ := e3 hle
      obtain ⟨m'', r', k', hi'', hR, hT'⟩ := ih (by omega) m' (t % 2 ^ (j + 1)) (2 * q + 1) hi' (by rw [h.1, hD]; omega) (by rw [hy']; bv_omega)
        (by rw [h.2]; omega) hm hq2
      refine ⟨m'', r.trans r', k.trans k', hi'', ?_, ?_⟩
      · rw [hR, h.1, hD, e6]
      · rw [hT', h.1, hD, e5, if_neg (by omega)]
        ring
    · next hle =>
      obtain ⟨m'', r', k', hi'', hR, hT'⟩ := ih (by omega) m' (t % 2 ^ (j + 1)) (2 * q) hi' (by rw [h.1, hD]; omega) (by rw [hy']; bv_omega)
        (by rw [h.2]) hm (by omega)
      refine ⟨m'', r.trans r', k.trans k', hi'', ?_, ?_⟩
      · rw [hR, h.1, hD, e4]
      · rw [hT', h.1, hD, e4]
        ring

/-- The short loop with divisor zero. -/
theorem div_loop_zero (j : Nat) (hj : j < 16) : ∀ (m : M) (t q : Nat), m.zp.tmp1h = 0#8 → m.zp.tmp2h = 0#8 → divD m = 0 →
      m.y.toNat = j + 1 → divT m = t * 2 ^ (15 - j) + q → t < 2 ^ (j + 1) → q < 2 ^ (15 - j) →
      ∃ m', Reach divCode divCode.L2 m divEnd2 m' ∧ DivKept m m' ∧ divR m' = (divR m * 2 ^ (j + 1) + t) % 256 ∧
        m'.zp.tmp2h = 0#8 ∧ divT m' = q * 2 ^ (j + 1) + (2 ^ (j + 1) - 1) := by
  induction j with
  | zero =>
    intro m t q h1 h2 hd hy hT ht hq
    obtain ⟨m', r, hy', k, hi', hi2, h⟩ := div_iter2 m h1 h2 (.inr hd)
    have : m.y - 1 = 0 := by bv_omega
    rw [if_pos this] at r
    refine ⟨m', r, k, ?_⟩
    obtain ⟨e1, e2, e3, e4⟩ := div_arith 0 (divR m) (divT m) t q 0 hj hT ht hq
    rw [if_pos hd, e1, e2] at h
    rw [e4, h.1, h.2]
    simp [Nat.mod_one, hi2]
    omega
  | succ j ih =>
    intro m t q h1 h2 hd hy hT ht hq
    obtain ⟨m', r, hy', k, hi', hi2, h⟩ := div_iter2 m h1 h2 (.inr hd)
    have : ¬ m.y - 1 = 0 := by bv_omega
    rw [if_neg this] at r
    obtain ⟨e1, e2, e3, e4⟩ := div_arith 0 (divR m) (divT m) t q (j + 1) hj hT ht hq
    have e15 : 15 - (j + 1) + 1 = 15 - j := by omega
    have hm : t % 2 ^ (j + 1) < 2 ^ (j + 1) := Nat.mod_lt _ (Nat.two_pow_pos _)
    have hq2 : 2 * q + 1 < 2 ^ (15 - j) := by rw [← e15, Nat.pow_succ]; omega
    rw [if_pos hd, e1, e2, e15] at h
    have hD : divD m' = divD m := k.2.1
    obtain ⟨m'', r', k', hR, h3, hT'⟩ := ih (by omega) m' (t % 2 ^ (j + 1)) (2 * q + 1) hi' hi2 (by rw [hD, hd]) (by rw [hy']; bv_omega)
      (by rw [h.2]; omega) hm hq2
    refine ⟨m'', r.trans r', k.trans k', ?_, h3, ?_⟩
    · rw [hR, h.1, e4]
      rw [Nat.add_mod, Nat.mod_mul_mod, ← Nat.add_mod]
    · rw [hT']
      have : 1 ≤ 2 ^ (j + 1) := Nat.two_pow_pos _
      have e : 2 ^ (j + 1 + 1) = 2 * 2 ^ (j + 1) := by ring
      rw [e]
      generalize 2 ^ (j + 1) = A at *
      have : (2 * q + 1) * A = q * (2 * A) + A := by ring
      omega

/-- `udiv16`, called from anywhere. -/
theorem udiv_correct (m : M) (k : Code) (st : List Slot) (hs : m.stk = .ret k :: st) (hd : divD m ≤ 32768) :
    ∃ m', Reach divCode divCode.udiv16 m k m' ∧ m'.zp.dsign = m.zp.dsign ∧ Kept { m with stk := st } m' m.zp.sptr ∧
      divT m' = (if divD m = 0 then 65535 else divT m / divD m) ∧
      divR m' = (if divD m = 0 then divT m % 256 else divT m % divD m) := by
  have h1 := m.zp.tmp1.isLt; have h1h := m.zp.tmp1h.isLt
  have h3 := m.zp.tmp3.isLt; have h3h := m.zp.tmp3h.isLt
  have hT : divT m < 65536 := by simp only [divT]; omega
  -- the `RTS`
  have fin : ∀ (E : Code), (E = divEnd0 ∨ E = divEnd2) → ∀ m1, Kept m m1 m.zp.sptr →
      ∃ m', Reach divCode E m1 k m' ∧ m'.zp = m1.zp ∧ m'.a = m1.a ∧ Kept { m with stk := st } m' m.zp.sptr := by
    intro E hE m1 k1
    have hs1 := k1.stk.trans hs
    refine ⟨{ m1 with stk := st }, ⟨1, ?_⟩, rfl, rfl, ⟨rfl, k1.sl, k1.sh, k1.ram, k1.sptr, k1.saddr, k1.saddrh, k1.arr, k1.arrh, k1.mins⟩⟩
    rcases hE with rfl | rfl
    · rt_exec [divEnd0, divCode.L1.eq, hs1]
    · rt_exec [divEnd2, divCode.L4.eq, hs1]
  by_cases hh : m.zp.tmp1h = 0#8
  · -- short loop
    obtain ⟨m1, r1, hy1, hd1, hT1, hR1, hh1, h21, k1, ds1⟩ : ∃ m1, Reach divCode divCode.udiv16 m divCode.L2 m1 ∧ m1.y = 16 ∧
        divD m1 = divD m ∧ divT m1 = divT m ∧ divR m1 = 0 ∧ m1.zp.tmp1h = 0#8 ∧ m1.zp.tmp2h = 0#8 ∧ Kept m m1 m.zp.sptr ∧
        m1.zp.dsign = m.zp.dsign := by
      refine ⟨?_, ⟨5, ?_⟩, ?_⟩
      rotate_left
      · rt_exec [divCode.udiv16.eq, hh]
        rfl
      · refine ⟨rfl, ?_, rfl, rfl, rfl, rfl, kept, rfl⟩
        simp [divD, hh]
    by_cases h0 : divD m = 0
    · obtain ⟨m2, r2, k2, hR2, h22, hT2⟩ := div_loop_zero 15 (by omega) m1 (divT m1) 0 hh1 h21 (by rw [hd1, h0]) (by rw [hy1]; rfl)
        (by simp) (by rw [hT1]; exact hT) (by simp)
      obtain ⟨m3, r3, hz, ha, k3⟩ := fin divEnd2 (.inr rfl) m2 (by have := k1.trans k2.2.2; rwa [k1.sptr] at this)
      refine ⟨m3, (r1.trans r2).trans r3, by rw [hz, k2.1, ds1], k3, ?_, ?_⟩
      · rw [if_pos h0]; simp only [divT, hz] at hT2 ⊢; rw [hT2]; rfl
      · rw [if_pos h0]; simp only [divR, hz, ha] at hR2 ⊢; rw [hR2]; simp only [divR] at hR1; rw [hR1, Nat.zero_mul, Nat.zero_add, hT1]
    · obtain ⟨m2, r2, k2, _, hR2, hT2⟩ := div_loop divCode.L2 divEnd2 (fun m => m.zp.tmp1h = 0#8 ∧ m.zp.tmp2h = 0#8)
        (by
          intro m hi hr
          obtain ⟨m', a1, a2, a3, a4, a5, a6⟩ := div_iter2 m hi.1 hi.2 (.inl hr)
          rw [if_neg (by omega)] at a6
          exact ⟨m', a1, a2, a3, ⟨a4, a5⟩, a6⟩)
        15 (by omega) m1 (divT m1) 0 ⟨hh1, h21⟩ (by rw [hR1, hd1]; omega) (by rw [hy1]; rfl)
        (by simp) (by rw [hT1]; exact hT) (by simp)
      obtain ⟨m3, r3, hz, ha, k3⟩ := fin divEnd2 (.inr rfl) m2 (by have := k1.trans k2.2.2; rwa [k1.sptr] at this)
      have eT : divT m3 = divT m2 := by simp only [divT, hz]
      have eR : divR m3 = divR m2 := by simp only [divR, hz, ha]
      refine ⟨m3, (r1.trans r2).trans r3, by rw [hz, k2.1, ds1], k3, ?_, ?_⟩
      · rw [if_neg h0, eT, hT2, hR1, hd1, hT1]; simp
      · rw [if_neg h0, eR, hR2, hR1, hd1, hT1]; simp
  · -- long loop
    obtain ⟨m1, r1, hy1, hd1, hT1, hR1, k1, ds1⟩ : ∃ m1, Reach divCode divCode.udiv16 m divCode.L0 m1 ∧ m1.y = 16 ∧
        divD m1 = divD m ∧ divT m1 = divT m ∧ divR m1 = 0 ∧ Kept m m1 m.zp.sptr ∧
        m1.zp.dsign = m.zp.dsign := by
      refine ⟨?_, ⟨6, ?_⟩, ?_⟩
      rotate_left
      · rt_exec [divCode.udiv16.eq, hh]
        rfl
      · exact ⟨rfl, rfl, rfl, rfl, kept, rfl⟩
    have hpos : 0 < divD m := by
      have : m.zp.tmp1h.toNat ≠ 0 := fun h => hh (BitVec.eq_of_toNat_eq h)
      simp only [divD]; omega
    obtain ⟨m2, r2, k2, _, hR2, hT2⟩ := div_loop divCode.L0 divEnd0 (fun m => divD m ≤ 32768)
      (by
        intro m hi hr
        obtain ⟨m', a1, a2, a3, a4⟩ := div_iter0 m hr hi
        exact ⟨m', a1, a2, a3, by rw [a3.2.1]; exact hi, a4⟩)
      15 (by omega) m1 (divT m1) 0 (by rw [hd1]; exact hd) (by rw [hR1, hd1]; omega) (by rw [hy1]; rfl)
      (by simp) (by rw [hT1]; exact hT) (by simp)
    obtain ⟨m3, r3, hz, ha, k3⟩ := fin divEnd0 (.inl rfl) m2 (by have := k1.trans k2.2.2; rwa [k1.sptr] at this)
    have eT : divT m3 = divT m2 := by simp only [divT, hz]
    have eR : divR m3 = divR m2 := by simp only [divR, hz, ha]
    refine ⟨m3, (r1.trans r2).trans r3, by rw [hz, k2.1, ds1], k3, ?_, ?_⟩
    · rw [if_neg (by omega), eT, hT2, hR1, hd1, hT1]; simp
    · rw [if_neg (by omega), eR, hR2, hR1, hd1, hT1]; simp

theorem addC_127 (x : B) : addC x 127#8 true = topBit x := by
  simp [addC, topBit]

/-- The signs of dividend and divisor in `divmod_sign`, `div.asm:61-66`. -/
def dsignOf (x y : Int) : B := if y < 0 then (if x < 0 then 0x7F else 0x80) else (if x < 0 then 0xFF else 0)

theorem stkAt_zero (m : M) : m.stkAt 0 = word (m.sl m.zp.sptr) (m.sh m.zp.sptr) := by simp [M.stkAt]

theorem sign_adjust (m : M) : ∃ m', Reach divCode divCode.divmod_sign_adjust m divCode.udiv16 m' ∧
    m'.zp.dsign = dsignOf (m.stkAt 0).toInt m.ax.toInt ∧ divT m' = (m.stkAt 0).toInt.natAbs ∧ divD m' = m.ax.toInt.natAbs ∧
    Kept m m' m.zp.sptr := by
  have ha := m.a.isLt; have hx := m.x.isLt
  have hl := (m.sl m.zp.sptr).isLt; have hh := (m.sh m.zp.sptr).isLt
  have ey : m.ax.toInt = if topBit m.x then (m.a.toNat + 256 * m.x.toNat - 65536 : Int) else (m.a.toNat + 256 * m.x.toNat : Int) := by
    rw [toInt16]; simp only [M.ax, word_toNat, topBit, decide_eq_true_eq]; split <;> split <;> omega
  have ex : (m.stkAt 0).toInt = if topBit (m.sh m.zp.sptr) then ((m.sl m.zp.sptr).toNat + 256 * (m.sh m.zp.sptr).toNat - 65536 : Int)
      else ((m.sl m.zp.sptr).toNat + 256 * (m.sh m.zp.sptr).toNat : Int) := by
    clear ey; rw [stkAt_zero, toInt16]; simp only [word_toNat, topBit, decide_eq_true_eq]; split <;> split <;> omega
  cases h1 : topBit m.x <;> cases h2 : topBit (m.sh m.zp.sptr) <;> simp only [h1, h2, if_true, if_false, Bool.false_eq_true] at ex ey <;>
    rw [ex, ey]
  · refine ⟨?_, ⟨13, ?_⟩, ?_⟩
    rotate_left
    · rt_exec [divCode.divmod_sign_adjust.eq, divCode.y_pos.eq, divCode.x_pos.eq, divCode.neg_AX.eq, h1, h2, addC_127]
      rfl
    · simp [topBit] at h1 h2
      refine ⟨?_, ?_, ?_, kept⟩
      · rw [dsignOf, if_neg (by omega), if_neg (by omega)]; rfl
      · simp only [divT]; omega
      · simp only [divD]; omega
  · refine ⟨?_, ⟨26, ?_⟩, ?_⟩
    rotate_left
    · rt_exec [divCode.divmod_sign_adjust.eq, divCode.y_pos.eq, divCode.x_pos.eq, divCode.neg_AX.eq, h1, h2, addC_127]
      rfl
    · simp [topBit] at h1 h2
      refine ⟨?_, ?_, ?_, kept⟩
      · rw [dsignOf, if_neg (by omega), if_pos (by omega)]; rfl
      · simp [divT, xorFF']; omega
      · simp only [divD]; omega
  · refine ⟨?_, ⟨26, ?_⟩, ?_⟩
    rotate_left
    · rt_exec [divCode.divmod_sign_adjust.eq, divCode.y_pos.eq, divCode.x_pos.eq, divCode.neg_AX.eq, h1, h2, addC_127]
      rfl
    · simp [topBit] at h1 h2
      refine ⟨?_, ?_, ?_, kept⟩
      · rw [dsignOf, if_pos (by omega), if_neg (by omega)]; rfl
      · simp only [divT]; omega
      · simp [divD, xorFF']; omega
  · refine ⟨?_, ⟨39, ?_⟩, ?_⟩
    rotate_left
    · rt_exec [divCode.divmod_sign_adjust.eq, divCode.y_pos.eq, divCode.x_pos.eq, divCode.neg_AX.eq, h1, h2, addC_127]
      rfl
    · simp [topBit] at h1 h2
      refine ⟨?_, ?_, ?_, kept⟩
      · rw [dsignOf, if_pos (by omega), if_pos (by omega)]; rfl
      · simp [divT, xorFF']; omega
      · simp [divD, xorFF']; omega

/-- Both operators up to the return of the subroutine. -/
theorem divmod_sub (m : M) (k : Code) :
    ∃ m', Reach divCode divCode.divmod_sign_adjust { m with stk := .ret k :: m.stk } k m' ∧
      m'.zp.dsign = dsignOf (m.stkAt 0).toInt m.ax.toInt ∧ Kept m m' m.zp.sptr ∧
      divT m' = (if m.ax = 0 then 65535 else (m.stkAt 0).toInt.natAbs / m.ax.toInt.natAbs) ∧
      divR m' = (if m.ax = 0 then (m.stkAt 0).toInt.natAbs % 256 else (m.stkAt 0).toInt.natAbs % m.ax.toInt.natAbs) := by
  obtain ⟨m1, r1, d1, t1, e1, k1⟩ := sign_adjust { m with stk := .ret k :: m.stk }
  obtain ⟨m2, r2, d2, k2, t2, e2⟩ := udiv_correct m1 k m.stk k1.stk (by
    rw [e1]; rw [toInt16]; split <;> omega)
  have h0 : divD m1 = 0 ↔ m.ax = 0 := by
    rw [e1]
    show m.ax.toInt.natAbs = 0 ↔ _
    rw [Int.natAbs_eq_zero, ← BitVec.toInt_zero (w := 16), BitVec.toInt_inj]; rfl
  refine ⟨m2, r1.trans r2, d2.trans d1, ?_, ?_, ?_⟩
  · exact ⟨k2.stk, k2.sl.trans k1.sl, k2.sh.trans k1.sh, k2.ram.trans k1.ram, k2.sptr.trans k1.sptr, k2.saddr.trans k1.saddr, k2.saddrh.trans k1.saddrh,
      k2.arr.trans k1.arr, k2.arrh.trans k1.arrh, k2.mins.trans k1.mins⟩
  · rw [t2, t1]; simp only [h0]; rw [e1]; rfl
  · rw [e2, t1]; simp only [h0]; rw [e1]; rfl

/-- After the return, `EXE_DIV` negates the quotient if bit 7 of the sign is set. -/
theorem div_tail (m : M) : ∃ m', Halts divCode (divCode.EXE_DIV.drop 1) m m' ∧ Kept m m' (m.zp.sptr + 1) ∧
    (m'.ax = if topBit m.zp.dsign then - word m.zp.tmp3 m.zp.tmp3h else word m.zp.tmp3 m.zp.tmp3h) ∧ m'.zp.tmp3 = m.zp.tmp3 := by
  cases h : topBit m.zp.dsign
  · refine ⟨?_, ⟨20, ?_⟩, ?_⟩
    rotate_left
    · rt_exec [divCode.EXE_DIV.eq, divCode.neg.eq, divCode.pos.eq, h]
      rfl
    · exact ⟨kept, rfl, rfl⟩
  · refine ⟨?_, ⟨20, ?_⟩, ?_⟩
    rotate_left
    · rt_exec [divCode.EXE_DIV.eq, divCode.neg.eq, divCode.pos.eq, divCode.neg_AX.eq, h]
      rfl
    · refine ⟨kept, ?_, rfl⟩
      have := m.zp.tmp3.isLt; have := m.zp.tmp3h.isLt
      rw [if_pos rfl]
      apply word_eq
      simp [xorFF']
      omega

/-- After the return, `EXE_MOD` negates the remainder if bit 6 of the sign is set. -/
theorem mod_tail (m : M) : ∃ m', Halts divCode (divCode.EXE_MOD.drop 1) m m' ∧ Kept m m' (m.zp.sptr + 1) ∧
    m'.ax = if topBit (rol8 m.zp.dsign false) then - word m.a m.zp.tmp2h else word m.a m.zp.tmp2h := by
  cases h : topBit (rol8 m.zp.dsign false)
  · refine ⟨?_, ⟨20, ?_⟩, ?_⟩
    rotate_left
    · rt_exec [divCode.EXE_MOD.eq, h]
      rfl
    · exact ⟨kept, rfl⟩
  · refine ⟨?_, ⟨20, ?_⟩, ?_⟩
    rotate_left
    · rt_exec [divCode.EXE_MOD.eq, divCode.neg.eq, divCode.pos.eq, divCode.neg_AX.eq, h]
      rfl
    · refine ⟨kept, ?_⟩
      have := m.a.isLt; have := m.zp.tmp2h.isLt
      rw [if_pos rfl]
      apply word_eq
      simp [xorFF']
      omega

theorem word_ofNat (l h : B) (n : Nat) (e : l.toNat + 256 * h.toNat = n) : word l h = BitVec.ofInt 16 n := by
  subst e
  have := l.isLt; have := h.isLt
  apply BitVec.eq_of_toNat_eq
  rw [word_toNat, BitVec.ofInt_natCast, BitVec.toNat_ofNat]; omega

theorem abs_cases (a : Int) : (a < 0 ∧ a = -(a.natAbs : Int)) ∨ (¬ a < 0 ∧ a = a.natAbs) := by omega

theorem div_correct : Binary divCode (entry divCode "EXE_DIV") vmDiv := by
  intro m he
  obtain ⟨m1, r1, d1, k1, t1, _⟩ := divmod_sub m (divCode.EXE_DIV.drop 1)
  obtain ⟨m2, r2, k2, e2, -⟩ := div_tail m1
  have r0 : Reach divCode (entry divCode "EXE_DIV") m divCode.divmod_sign_adjust { m with stk := .ret (divCode.EXE_DIV.drop 1) :: m.stk } :=
    ⟨1, by rt_exec [entry, divCode.EXE_DIV.eq]⟩
  refine ⟨m2, (r0.trans r1).halts r2, ?_, by have := k1.trans k2; rwa [k1.sptr] at this⟩
  rw [e2, d1, word_ofNat _ _ _ t1, vmDiv]
  generalize m.stkAt 0 = X at *
  generalize m.ax = Y at *
  by_cases h0 : Y = 0
  · subst h0
    by_cases hx : X.toInt < 0
    · simp [dsignOf, hx]
    · simp [dsignOf, hx]
  · rw [if_neg h0, if_neg h0]
    rcases abs_cases X.toInt with ⟨hx, hn⟩ | ⟨hx, hn⟩ <;> rcases abs_cases Y.toInt with ⟨hy, hq⟩ | ⟨hy, hq⟩ <;>
      simp only [dsignOf, hx, hy, if_true, if_false] <;> generalize X.toInt.natAbs = n at * <;>
      generalize Y.toInt.natAbs = q at * <;> rw [hn, hq] <;>
      simp [Int.neg_tdiv, Int.tdiv_neg, BitVec.ofInt_neg, Int.ofNat_tdiv, show topBit 127#8 = false from rfl]

theorem mod_correct : Binary divCode (entry divCode "EXE_MOD") vmMod := by
  intro m he
  obtain ⟨m1, r1, d1, k1, _, t1⟩ := divmod_sub m (divCode.EXE_MOD.drop 1)
  obtain ⟨m2, r2, k2, e2⟩ := mod_tail m1
  have r0 : Reach divCode (entry divCode "EXE_MOD") m divCode.divmod_sign_adjust { m with stk := .ret (divCode.EXE_MOD.drop 1) :: m.stk } :=
    ⟨1, by rt_exec [entry, divCode.EXE_MOD.eq]⟩
  refine ⟨m2, (r0.trans r1).halts r2, ?_, by have := k1.trans k2; rwa [k1.sptr] at this⟩
  rw [e2, d1, word_ofNat _ _ _ t1, vmMod]
  generalize m.stkAt 0 = X at *
  generalize m.ax = Y at *
  have t7F : topBit (rol8 0x7F#8 false) = true := by decide
  have tFF : topBit (rol8 0xFF#8 false) = true := by decide
  have t80 : topBit (rol8 0x80#8 false) = false := by decide
  have t00 : topBit (rol8 0#8 false) = false := by decide
  by_cases h0 : Y = 0
  · subst h0
    by_cases hx : X.toInt < 0
    · simp [dsignOf, hx, tFF, BitVec.ofInt_neg]
    · simp [dsignOf, hx, t00]
  · rw [if_neg h0, if_neg h0]
    rcases abs_cases X.toInt with ⟨hx, hn⟩ | ⟨hx, hn⟩ <;> rcases abs_cases Y.toInt with ⟨hy, hq⟩ | ⟨hy, hq⟩ <;>
      simp only [dsignOf, hx, hy, if_true, if_false] <;> generalize X.toInt.natAbs = n at * <;>
      generalize Y.toInt.natAbs = q at * <;> rw [hn, hq] <;>
      simp [Int.neg_tmod, Int.tmod_neg, BitVec.ofInt_neg, Int.ofNat_tmod, t7F, tFF, t80, t00] <;> rfl

end FB.Rt
