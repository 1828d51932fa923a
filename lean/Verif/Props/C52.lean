import Verif.Rt.Ipow
import Mathlib.Algebra.Order.Field.Rat
import Mathlib.Tactic.Linarith
import Mathlib.Tactic.Ring
import Mathlib.Algebra.Order.Ring.Abs
import Mathlib.Tactic.Positivity
/-!
# C52: integer powers of floating point numbers
-/
namespace FB.Rt
open Ins Opd

section
variable {α : Type}

/-- Specification: a product of `n` copies of `x`, in any order of the multiplications. -/
inductive Pw (mul : α → α → Option α) (x : α) : Nat → α → Prop
  | base : Pw mul x 1 x
  | mul {i j : Nat} {a b v : α} (ha : Pw mul x i a) (hb : Pw mul x j b) (h : mul a b = some v) : Pw mul x (i + j) v

/-- Specification: a multiplication of two products, with at most `n` copies of `x` in all, has an overflow. -/
def Ovf (mul : α → α → Option α) (x : α) (n : Nat) : Prop := ∃ i j a b, Pw mul x i a ∧ Pw mul x j b ∧ i + j ≤ n ∧ mul a b = none

/-- Specification: `FR0` has the power, or the result is an error. -/
def PwEnd (O : FOps α) (x : α) (n : Nat) (s s' : FS α) : Prop :=
  (Pw O.mul x n s'.fr0 ∧ s'.m.zp.ioerr = s.m.zp.ioerr) ∨ (Ovf O.mul x n ∧ s'.fr0 = O.one ∧ s'.m.zp.ioerr = 3#8)

variable {O : FOps α}

theorem ip_loop (r : Nat) : ∀ (s : FS α) (x : α) (p t : Nat), r ≤ 15 → s.m.zp.tmp2.toNat = r + 1 → ipT s.m = t * 2 ^ (16 - r) → t < 2 ^ r → s.arg = x → Pw O.mul x p s.fr0 →
    ∃ s', FHalts O ipCode.ip_loop s s' ∧ FK s s' ∧ PwEnd O x (p * 2 ^ r + t) s s' := by
  induction r with
  | zero =>
    intro s x p t _ h2 _ ht ha hp
    have e2 : s.m.zp.tmp2 = 1#8 := BitVec.eq_of_toNat_eq h2
    obtain ⟨m1, r1, z1, k1⟩ : ∃ m1, Reach ipCode ipCode.ip_loop s.m ipCode.ip_xit m1 ∧ m1.zp = { s.m.zp with tmp2 := 0#8 } ∧ m1.sl = s.m.sl ∧ m1.sh = s.m.sh ∧ m1.ram = s.m.ram ∧ m1.stk = s.m.stk := by
      refine ⟨?_, ⟨2, ?_⟩, ?_⟩
      rotate_left
      · rt_exec [ipCode.ip_loop.eq, e2]
        rfl
      · exact ⟨rfl, rfl, rfl, rfl, rfl⟩
    have h0 : t = 0 := by rw [Nat.pow_zero] at ht; omega
    subst h0
    refine ⟨_, (FReach.cpu r1).halts ⟨1, rfl⟩, ⟨k1.1, k1.2.1, k1.2.2.1, k1.2.2.2, by rw [z1]⟩, .inl ⟨?_, by rw [z1]⟩⟩
    rw [Nat.pow_zero, Nat.mul_one]
    exact hp
  | succ r ih =>
    intro s x p t hr h2 hT ht ha hp
    have q1 : 16 - (r + 1) = 15 - r := by omega
    have q2 : 2 ^ r * 2 ^ (15 - r) = 32768 := by rw [← Nat.pow_add, show r + (15 - r) = 15 by omega]
    have q3 : 2 ^ (16 - r) = 2 * 2 ^ (15 - r) := by rw [show 16 - r = 15 - r + 1 by omega, Nat.pow_succ, Nat.mul_comm]
    have q4 : 2 ^ (r + 1) = 2 * 2 ^ r := by rw [Nat.pow_succ, Nat.mul_comm]
    have q5 : 1 ≤ 2 ^ r := Nat.one_le_two_pow
    rw [q1] at hT
    rw [q4] at ht
    have q6 : p * (2 * 2 ^ r) = (p + p) * 2 ^ r := by rw [← Nat.mul_assoc, Nat.mul_two]
    have q7 := Nat.mul_le_mul_left (p + p) q5
    have hl := s.m.zp.tmp2.isLt
    have hd : (s.m.zp.tmp2 - 1#8).toNat = r + 1 := by simp [BitVec.toNat_sub]; omega
    have hz : ¬ s.m.zp.tmp2 - 1#8 = 0#8 := fun e => by rw [e] at hd; simp at hd
    obtain ⟨m1, r1, s1, z1, k1⟩ : ∃ m1, Reach ipCode ipCode.ip_loop s.m ipCode.FMOVE m1 ∧ m1.stk = .ret (.lb "ip_1" :: ipCode.ip_1) :: s.m.stk ∧ m1.zp = { s.m.zp with tmp2 := s.m.zp.tmp2 - 1#8 } ∧
        m1.sl = s.m.sl ∧ m1.sh = s.m.sh ∧ m1.ram = s.m.ram := by
      refine ⟨?_, ⟨3, ?_⟩, ?_⟩
      rotate_left
      · rt_exec [ipCode.ip_loop.eq, hz]
        rfl
      · exact ⟨rfl, rfl, rfl, rfl, rfl⟩
    obtain ⟨s2, r2, e2, f2, a2, c2⟩ := c_fmove (O := O) (s := { s with m := m1 }) s1
    obtain ⟨m3, r3, s3, z3, k3⟩ : ∃ m3, Reach ipCode (.lb "ip_1" :: ipCode.ip_1) s2.m ipCode.FMUL m3 ∧ m3.stk = .ret (.lb "ip_2" :: ipCode.ip_2) :: s2.m.stk ∧ m3.zp = s2.m.zp ∧
        m3.sl = s2.m.sl ∧ m3.sh = s2.m.sh ∧ m3.ram = s2.m.ram := by
      refine ⟨?_, ⟨2, ?_⟩, ?_⟩
      rotate_left
      · rt_exec [ipCode.ip_1.eq]
        rfl
      · exact ⟨rfl, rfl, rfl, rfl, rfl⟩
    have R3 : FReach O ipCode.ip_loop s ipCode.FMUL { s2 with m := m3 } := (FReach.cpu r1).trans (r2.trans (FReach.cpu r3))
    have Z3 : m3.zp = { s.m.zp with tmp2 := s.m.zp.tmp2 - 1#8 } := by rw [z3, c2.zp, z1]
    have K3 : m3.sl = s.m.sl ∧ m3.sh = s.m.sh ∧ m3.ram = s.m.ram ∧ s2.m.stk = s.m.stk := ⟨by rw [k3.1, c2.sl, k1.1], by rw [k3.2.1, c2.sh, k1.2.1], by rw [k3.2.2, c2.ram, k1.2.2], c2.stk⟩
    cases hm : O.mul s.fr0 s.fr0 with
    | none =>
      obtain ⟨s4, r4, c4, k4⟩ := c_fmul_err (O := O) (s := { s2 with m := m3 }) s3 (by rw [e2, f2]; exact hm)
      obtain ⟨m5, r5, z5, k5⟩ : ∃ m5, Reach ipCode (.lb "ip_2" :: ipCode.ip_2) s4.m ipCode.ip_err m5 ∧ m5 = s4.m := by
        refine ⟨_, ⟨2, ?_⟩, rfl⟩
        rt_exec [ipCode.ip_2.eq, c4]
      obtain ⟨s6, h6, o6, i6, k6⟩ := ip_err (O := O) s4
      refine ⟨s6, (R3.trans (r4.trans (FReach.cpu r5))).halts h6, ?_, .inr ⟨⟨p, p, _, _, hp, hp, ?_, hm⟩, o6, i6⟩⟩
      · exact ⟨by rw [k6.sl, k4.sl, K3.1], by rw [k6.sh, k4.sh, K3.2.1], by rw [k6.ram, k4.ram, K3.2.2.1], by rw [k6.stk, k4.stk, K3.2.2.2], by rw [k6.sptr, k4.zp, Z3]⟩
      · rw [q4, q6]; omega
    | some v =>
      obtain ⟨s4, r4, e4, a4, c4, k4⟩ := c_fmul (O := O) (s := { s2 with m := m3 }) s3 (by rw [e2, f2]; exact hm)
      have Z4 : s4.m.zp = { s.m.zp with tmp2 := s.m.zp.tmp2 - 1#8 } := by rw [k4.zp, Z3]
      have A4 : s4.arg = x := by rw [a4]; exact a2.trans ha
      have hpv : Pw O.mul x (p + p) s4.fr0 := by rw [e4]; exact .mul hp hp hm
      obtain ⟨t1, t2⟩ := ipT_shift s.m
      by_cases hb : t < 2 ^ r
      · have hlt : t * 2 ^ (15 - r) < 32768 := by rw [← q2]; exact Nat.mul_lt_mul_of_pos_right hb (Nat.two_pow_pos _)
        have hc : topBit s4.m.zp.tmp1h = false := by rw [Z4]; exact bool0 (by dsimp only; rw [t2]; omega)
        obtain ⟨m5, r5, z5, k5⟩ : ∃ m5, Reach ipCode (.lb "ip_2" :: ipCode.ip_2) s4.m ipCode.ip_loop m5 ∧
            m5.zp = { s4.m.zp with tmp1 := rol8 s4.m.zp.tmp1 false, tmp1h := rol8 s4.m.zp.tmp1h (topBit s4.m.zp.tmp1) } ∧ m5.sl = s4.m.sl ∧ m5.sh = s4.m.sh ∧ m5.ram = s4.m.ram ∧ m5.stk = s4.m.stk := by
          refine ⟨?_, ⟨5, ?_⟩, ?_⟩
          rotate_left
          · rt_exec [ipCode.ip_2.eq, c4, hc]
            rfl
          · exact ⟨rfl, rfl, rfl, rfl, rfl⟩
        rw [Z4] at z5
        obtain ⟨s6, h6, k6, p6⟩ := ih { s4 with m := m5 } x (p + p) t (by omega) (by rw [z5]; exact hd)
          (by rw [ipT]; dsimp only; rw [z5]; dsimp only; rw [t1, hT, q3, Nat.mul_left_comm t 2, Nat.mod_eq_of_lt (by omega)]) hb A4 hpv
        refine ⟨s6, (R3.trans (r4.trans (FReach.cpu r5))).halts h6, ?_, ?_⟩
        · exact ⟨by rw [k6.sl, k5.1, k4.sl, K3.1], by rw [k6.sh, k5.2.1, k4.sh, K3.2.1], by rw [k6.ram, k5.2.2.1, k4.ram, K3.2.2.1], by rw [k6.stk, k5.2.2.2, k4.stk, K3.2.2.2], by rw [k6.sptr]; dsimp only; rw [z5]⟩
        · rw [PwEnd] at p6 ⊢
          rw [q4, q6]
          have : ({ s4 with m := m5 } : FS α).m.zp.ioerr = s.m.zp.ioerr := by dsimp only; rw [z5]
          rwa [this] at p6
      · have hge : 32768 ≤ t * 2 ^ (15 - r) := by rw [← q2]; exact Nat.mul_le_mul_right _ (by omega)
        have hsub : (t - 2 ^ r) * 2 ^ (15 - r) = t * 2 ^ (15 - r) - 32768 := by rw [Nat.sub_mul, q2]
        have hlt : t * 2 ^ (15 - r) < 65536 := by
          have := Nat.mul_lt_mul_of_pos_right ht (Nat.two_pow_pos (15 - r))
          rw [Nat.mul_assoc, q2] at this
          exact this
        have hc : topBit s4.m.zp.tmp1h = true := by rw [Z4]; exact bool1 (by dsimp only; rw [t2]; omega)
        obtain ⟨m5, r5, x5, y5, s5, z5, k5⟩ : ∃ m5, Reach ipCode (.lb "ip_2" :: ipCode.ip_2) s4.m ipCode.FLD1R m5 ∧ m5.x = 0xE0#8 ∧ m5.y = 0x05#8 ∧ m5.stk = .ret (.lb "ip_3" :: ipCode.ip_3) :: s4.m.stk ∧
            m5.zp = { s4.m.zp with tmp1 := rol8 s4.m.zp.tmp1 false, tmp1h := rol8 s4.m.zp.tmp1h (topBit s4.m.zp.tmp1) } ∧ m5.sl = s4.m.sl ∧ m5.sh = s4.m.sh ∧ m5.ram = s4.m.ram := by
          refine ⟨?_, ⟨8, ?_⟩, ?_⟩
          rotate_left
          · rt_exec [ipCode.ip_2.eq, c4, hc]
            rfl
          · exact ⟨rfl, rfl, rfl, rfl, rfl, rfl, rfl⟩
        rw [Z4] at z5
        obtain ⟨s6, r6, e6, f6, a6, k6⟩ := c_fld1r (O := O) (s := { s4 with m := m5 }) s5 x5 y5
        obtain ⟨m7, r7, s7, z7, k7⟩ : ∃ m7, Reach ipCode (.lb "ip_3" :: ipCode.ip_3) s6.m ipCode.FMUL m7 ∧ m7.stk = .ret (.lb "ip_4" :: ipCode.ip_4) :: s6.m.stk ∧ m7.zp = s6.m.zp ∧
            m7.sl = s6.m.sl ∧ m7.sh = s6.m.sh ∧ m7.ram = s6.m.ram := by
          refine ⟨?_, ⟨2, ?_⟩, ?_⟩
          rotate_left
          · rt_exec [ipCode.ip_3.eq]
            rfl
          · exact ⟨rfl, rfl, rfl, rfl, rfl⟩
        have R7 : FReach O ipCode.ip_loop s ipCode.FMUL { s6 with m := m7 } := R3.trans (r4.trans ((FReach.cpu r5).trans (r6.trans (FReach.cpu r7))))
        have Z7 : m7.zp = m5.zp := by rw [z7, k6.zp]
        have K7 : m7.sl = s.m.sl ∧ m7.sh = s.m.sh ∧ m7.ram = s.m.ram ∧ s6.m.stk = s.m.stk :=
          ⟨by rw [k7.1, k6.sl, k5.1, k4.sl, K3.1], by rw [k7.2.1, k6.sh, k5.2.1, k4.sh, K3.2.1], by rw [k7.2.2, k6.ram, k5.2.2, k4.ram, K3.2.2.1], by rw [k6.stk, k4.stk, K3.2.2.2]⟩
        have q8 : (p + p + 1) * 2 ^ r + (t - 2 ^ r) = p * 2 ^ (r + 1) + t := by rw [q4, q6, Nat.add_mul]; omega
        cases hm2 : O.mul s4.fr0 x with
        | none =>
          obtain ⟨s8, r8, c8, k8⟩ := c_fmul_err (O := O) (s := { s6 with m := m7 }) s7 (by rw [e6, f6]; dsimp only; rw [A4]; exact hm2)
          obtain ⟨m9, r9, z9, k9⟩ : ∃ m9, Reach ipCode (.lb "ip_4" :: ipCode.ip_4) s8.m ipCode.ip_err m9 ∧ m9 = s8.m := by
            refine ⟨_, ⟨3, ?_⟩, rfl⟩
            rt_exec [ipCode.ip_4.eq, c8]
          obtain ⟨sA, hA, oA, iA, kA⟩ := ip_err (O := O) s8
          refine ⟨sA, (R7.trans (r8.trans (FReach.cpu r9))).halts hA, ?_, .inr ⟨⟨p + p, 1, _, _, hpv, .base, ?_, hm2⟩, oA, iA⟩⟩
          · exact ⟨by rw [kA.sl, k8.sl, K7.1], by rw [kA.sh, k8.sh, K7.2.1], by rw [kA.ram, k8.ram, K7.2.2.1], by rw [kA.stk, k8.stk, K7.2.2.2], by rw [kA.sptr, k8.zp, Z7, z5]⟩
          · rw [q4, q6]; omega
        | some w =>
          obtain ⟨s8, r8, e8, a8, c8, k8⟩ := c_fmul (O := O) (s := { s6 with m := m7 }) s7 (by rw [e6, f6]; dsimp only; rw [A4]; exact hm2)
          obtain ⟨m9, r9, z9⟩ : ∃ m9, Reach ipCode (.lb "ip_4" :: ipCode.ip_4) s8.m ipCode.ip_loop m9 ∧ m9 = s8.m := by
            refine ⟨_, ⟨2, ?_⟩, rfl⟩
            rt_exec [ipCode.ip_4.eq, c8]
          have Z8 : s8.m.zp = m5.zp := by rw [k8.zp, Z7]
          subst z9
          obtain ⟨sA, hA, kA, pA⟩ := ih s8 x (p + p + 1) (t - 2 ^ r) (by omega) (by rw [Z8, z5]; exact hd)
            (by rw [ipT, Z8, z5]; dsimp only; rw [t1, hT, q3, Nat.mul_left_comm (t - 2 ^ r) 2, hsub]; omega) (by omega)
            (by rw [a8]; dsimp only; rw [a6]; exact A4) (by rw [e8]; exact .mul hpv .base hm2)
          refine ⟨sA, (R7.trans (r8.trans (FReach.cpu r9))).halts hA, ?_, ?_⟩
          · exact ⟨by rw [kA.sl, k8.sl, K7.1], by rw [kA.sh, k8.sh, K7.2.1], by rw [kA.ram, k8.ram, K7.2.2.1], by rw [kA.stk, k8.stk, K7.2.2.2], by rw [kA.sptr, Z8, z5]⟩
          · rw [PwEnd] at pA ⊢
            rw [← q8]
            have : s8.m.zp.ioerr = s.m.zp.ioerr := by rw [Z8, z5]
            rwa [this] at pA

/-- From the number without sign. -/
theorem ip_pos (s : FS α) (N : Nat) (hN : ipT s.m = N) : ∃ s', FHalts O ipCode.ax_pos s s' ∧ FK s s' ∧
    ((N = 0 ∧ s'.fr0 = O.one ∧ s'.m.zp.ioerr = s.m.zp.ioerr) ∨ (0 < N ∧ PwEnd O s.fr0 N s s')) := by
  obtain ⟨m1, r1, y1, z1, k1⟩ : ∃ m1, Reach ipCode ipCode.ax_pos s.m ipCode.ip_skip m1 ∧ m1.y = 17#8 ∧ m1.zp = s.m.zp ∧ m1.sl = s.m.sl ∧ m1.sh = s.m.sh ∧ m1.ram = s.m.ram ∧ m1.stk = s.m.stk := by
    refine ⟨?_, ⟨2, ?_⟩, ?_⟩
    rotate_left
    · rt_exec [ipCode.ax_pos.eq]
      rfl
    · exact ⟨rfl, rfl, rfl, rfl, rfl, rfl⟩
  have K1 : FK s { s with m := m1 } := ⟨k1.1, k1.2.1, k1.2.2.1, k1.2.2.2, by rw [z1]⟩
  have T1 : ipT m1 = N := by rw [← hN, ipT, ipT, z1]
  have hl : N < 65536 := by have := s.m.zp.tmp1.isLt; have := s.m.zp.tmp1h.isLt; rw [← hN, ipT]; omega
  rcases Nat.eq_zero_or_pos N with h0 | h0
  · obtain ⟨s2, r2, i2, k2⟩ := ip_skip0 (O := O) 16 { s with m := m1 } (by rw [T1, h0]) (by rw [y1]; rfl)
    obtain ⟨s3, h3, o3, z3, k3⟩ := ip_one (O := O) s2
    exact ⟨s3, ((FReach.cpu r1).trans r2).halts h3, (K1.trans k2).trans k3, .inl ⟨h0, o3, by rw [z3, i2, z1]⟩⟩
  · have l1 := Nat.log2_self_le (n := N) (by omega)
    have l2 := Nat.lt_log2_self (n := N)
    have hL : N.log2 ≤ 15 := by
      by_contra hlt
      have := Nat.pow_le_pow_right (n := 2) (by omega) (show 16 ≤ N.log2 by omega)
      omega
    generalize N.log2 = L at *
    have q1 : 2 ^ L * 2 ^ (16 - L) = 65536 := by rw [← Nat.pow_add, show L + (16 - L) = 16 by omega]
    have q2 : 2 ^ (L + 1) * 2 ^ (15 - L) = 65536 := by rw [← Nat.pow_add, show L + 1 + (15 - L) = 16 by omega]
    have q3 := Nat.mul_le_mul_right (2 ^ (16 - L)) l1
    have q4 := Nat.mul_lt_mul_of_pos_right l2 (Nat.two_pow_pos (15 - L))
    obtain ⟨s2, r2, t2, T2, f2, a2, i2, k2⟩ := ip_skip (O := O) (15 - L) { s with m := m1 } (by rw [T1, show 15 - L + 1 = 16 - L by omega]; omega) (by rw [T1]; omega) (by rw [y1]; simp)
    rw [T1, show 15 - L + 1 = 16 - L by omega] at T2
    have hy : m1.y.toNat = 17 := by rw [y1]; rfl
    have q5 : 2 ^ (L + 1) = 2 * 2 ^ L := by rw [Nat.pow_succ, Nat.mul_comm]
    obtain ⟨s3, h3, k3, p3⟩ := ip_loop (O := O) L s2 s.fr0 1 (N - 2 ^ L) hL (by dsimp only at t2; omega) (by rw [Nat.sub_mul, q1]; omega) (by omega) a2 (by rw [f2]; exact .base)
    refine ⟨s3, ((FReach.cpu r1).trans (r2.trans ⟨1, rfl⟩)).halts h3, (K1.trans k2).trans k3, .inr ⟨h0, ?_⟩⟩
    rw [show 1 * 2 ^ L + (N - 2 ^ L) = N by omega] at p3
    rw [PwEnd] at p3 ⊢
    rw [i2] at p3
    dsimp only at p3
    rwa [z1] at p3

/-- A power with an exponent that is not negative: the routine ends, with 1 for the exponent 0, and else with a product of as many copies of the number as the exponent says, in `FR0`, or with error 3 and the number 1
when one of the multiplications of such products has an overflow.  The memory and the integer stack are as they were. -/
theorem C52_power (s : FS α) (hn : 0 ≤ s.m.ax.toInt) : ∃ s', FHalts O ipCode.EXE_FP_IPOW s s' ∧ FK s s' ∧
    ((s.m.ax = 0 ∧ s'.fr0 = O.one ∧ s'.m.zp.ioerr = s.m.zp.ioerr) ∨ (s.m.ax ≠ 0 ∧ PwEnd O s.fr0 s.m.ax.toNat s s')) := by
  have hx : s.m.x.toNat < 128 := by
    rw [toInt16, M.ax, word_toNat] at hn
    have := s.m.a.isLt
    split at hn <;> omega
  have hc : addC s.m.x 127#8 true = false := bool0 (by simp; omega)
  obtain ⟨m1, r1, z1, k1⟩ : ∃ m1, Reach ipCode ipCode.EXE_FP_IPOW s.m ipCode.ax_pos m1 ∧ m1.zp = { s.m.zp with tmp1 := s.m.a, tmp1h := s.m.x } ∧ m1.sl = s.m.sl ∧ m1.sh = s.m.sh ∧ m1.ram = s.m.ram ∧ m1.stk = s.m.stk := by
    refine ⟨?_, ⟨4, ?_⟩, ?_⟩
    rotate_left
    · rt_exec [ipCode.EXE_FP_IPOW.eq, hc]
      rfl
    · exact ⟨rfl, rfl, rfl, rfl, rfl⟩
  obtain ⟨s2, h2, k2, p2⟩ := ip_pos (O := O) { s with m := m1 } s.m.ax.toNat (by rw [ipT, z1, M.ax, word_toNat])
  have K1 : FK s { s with m := m1 } := ⟨k1.1, k1.2.1, k1.2.2.1, k1.2.2.2, by rw [z1]⟩
  refine ⟨s2, (FReach.cpu r1).halts h2, K1.trans k2, ?_⟩
  have hi : ({ s with m := m1 } : FS α).m.zp.ioerr = s.m.zp.ioerr := by dsimp only; rw [z1]
  rcases p2 with ⟨h, o, i⟩ | ⟨h, p⟩
  · exact .inl ⟨BitVec.eq_of_toNat_eq h, o, i.trans hi⟩
  · refine .inr ⟨fun e => ?_, ?_⟩
    · rw [e] at h; simp at h
    · rw [PwEnd] at p ⊢; rwa [hi] at p

/-- A power with a negative exponent is the power of the inverse; when there is no inverse no error is given, but the result is a power of the number that the division left in `FR0`. -/
theorem C52_inverse (s : FS α) (hn : s.m.ax.toInt < 0) : ∃ s' y, FHalts O ipCode.EXE_FP_IPOW s s' ∧ FK s s' ∧ (∀ v, O.div O.one s.fr0 = some v → y = v) ∧ (O.div O.one s.fr0 = none → y = (s.junk 2).r0) ∧
    PwEnd O y s.m.ax.toInt.natAbs s s' := by
  have ha := s.m.a.isLt
  have hx' := s.m.x.isLt
  have hx : 128 ≤ s.m.x.toNat := by
    rw [toInt16, M.ax, word_toNat] at hn
    split at hn <;> omega
  have hab : s.m.ax.toInt.natAbs = 65536 - (s.m.a.toNat + 256 * s.m.x.toNat) := by
    rw [toInt16, M.ax, word_toNat]
    split <;> omega
  have hc : addC s.m.x 127#8 true = true := bool1 (by simp; omega)
  obtain ⟨m1, r1, s1, z1, k1⟩ : ∃ m1, Reach ipCode ipCode.EXE_FP_IPOW s.m ipCode.FMOVE m1 ∧ m1.stk = .ret (.lb "ip_n1" :: ipCode.ip_n1) :: s.m.stk ∧
      (ipT m1 = 65536 - (s.m.a.toNat + 256 * s.m.x.toNat) ∧ m1.zp = { s.m.zp with tmp1 := m1.zp.tmp1, tmp1h := m1.zp.tmp1h }) ∧ m1.sl = s.m.sl ∧ m1.sh = s.m.sh ∧ m1.ram = s.m.ram := by
    refine ⟨?_, ⟨19, ?_⟩, ?_⟩
    rotate_left
    · rt_exec [ipCode.EXE_FP_IPOW.eq, ipCode.neg_AX.eq, ipCode.ip_n.eq, hc]
      rfl
    · refine ⟨rfl, ⟨?_, rfl⟩, rfl, rfl, rfl⟩
      simp [ipT, xorFF']
      omega
  obtain ⟨s2, r2, f2, j2, c2⟩ := c_fmove' (O := O) (s := { s with m := m1 }) s1
  obtain ⟨m3, r3, s3, z3, k3⟩ : ∃ m3, Reach ipCode (.lb "ip_n1" :: ipCode.ip_n1) s2.m ipCode.FP_SET_1 m3 ∧ m3.stk = .ret (.lb "ip_n2" :: ipCode.ip_n2) :: s2.m.stk ∧ m3.zp = s2.m.zp ∧ m3.sl = s2.m.sl ∧ m3.sh = s2.m.sh ∧ m3.ram = s2.m.ram := by
    refine ⟨?_, ⟨2, ?_⟩, ?_⟩
    rotate_left
    · rt_exec [ipCode.ip_n1.eq]
      rfl
    · exact ⟨rfl, rfl, rfl, rfl, rfl⟩
  obtain ⟨s4, r4, o4, f4, j4, c4⟩ := c_set1' (O := O) (s := { s2 with m := m3 }) s3
  obtain ⟨m5, r5, s5, z5, k5⟩ : ∃ m5, Reach ipCode (.lb "ip_n2" :: ipCode.ip_n2) s4.m ipCode.FDIV m5 ∧ m5.stk = .ret (.lb "ax_pos" :: ipCode.ax_pos) :: s4.m.stk ∧ m5.zp = s4.m.zp ∧ m5.sl = s4.m.sl ∧ m5.sh = s4.m.sh ∧ m5.ram = s4.m.ram := by
    refine ⟨?_, ⟨2, ?_⟩, ?_⟩
    rotate_left
    · rt_exec [ipCode.ip_n2.eq]
      rfl
    · exact ⟨rfl, rfl, rfl, rfl, rfl⟩
  obtain ⟨s6, r6, v6, n6, c6⟩ := c_fdiv (O := O) (s := { s4 with m := m5 }) s5
  have Z : s6.m.zp = m1.zp := c6.zp.trans (z5.trans (c4.zp.trans (z3.trans c2.zp)))
  obtain ⟨s7, h7, k7, p7⟩ := ip_pos (O := O) s6 s.m.ax.toInt.natAbs (by rw [hab, ← z1.1, ipT, ipT, Z])
  have K6 : FK s s6 := by
    refine ⟨?_, ?_, ?_, ?_, ?_⟩
    · exact c6.sl.trans (k5.1.trans (c4.sl.trans (k3.1.trans (c2.sl.trans k1.1))))
    · exact c6.sh.trans (k5.2.1.trans (c4.sh.trans (k3.2.1.trans (c2.sh.trans k1.2.1))))
    · exact c6.ram.trans (k5.2.2.trans (c4.ram.trans (k3.2.2.trans (c2.ram.trans k1.2.2))))
    · exact c6.stk.trans (c4.stk.trans c2.stk)
    · rw [Z, z1.2]
  have hf : ({ s4 with m := m5 } : FS α).fr1 = s.fr0 := f4.trans f2
  refine ⟨s7, s6.fr0, ((FReach.cpu r1).trans (r2.trans ((FReach.cpu r3).trans (r4.trans ((FReach.cpu r5).trans (r6.trans ⟨1, rfl⟩)))))).halts h7, K6.trans k7, ?_, ?_, ?_⟩
  · intro v hv
    refine v6 v ?_
    rw [hf]
    exact (congrArg (O.div · s.fr0) o4).trans hv
  · intro hv
    rw [n6 (by rw [hf]; exact (congrArg (O.div · s.fr0) o4).trans hv)]
    exact congrArg FJunk.r0 ((j4 0).trans (j2 1))
  · rcases p7 with ⟨h, -⟩ | ⟨-, p⟩
    · omega
    · have hi : s6.m.zp.ioerr = s.m.zp.ioerr := by rw [Z, z1.2]
      rw [PwEnd] at p ⊢
      rwa [hi] at p

/-- With operations that are exact when they have no error, all the products are the power. -/
theorem C52_exact {β : Type} [Monoid β] {mul : β → β → Option β} (hm : ∀ a b v, mul a b = some v → v = a * b) {x v : β} {n : Nat} (h : Pw mul x n v) : v = x ^ n := by
  induction h with
  | base => rw [pow_one]
  | mul _ _ h ha hb => rw [hm _ _ _ h, ha, hb, pow_add]

/-- With operations that have a relative error of at most `u`, a product of `n` copies has at most the errors of `n - 1` operations. -/
theorem C52_round {mul : ℚ → ℚ → Option ℚ} {u : ℚ} (h0 : 0 ≤ u) (h1 : u ≤ 1) (hm : ∀ a b v, mul a b = some v → ∃ d, |d| ≤ u ∧ v = a * b * (1 + d)) {x v : ℚ} {n : Nat} (h : Pw mul x n v) :
    1 ≤ n ∧ ∃ e, v = x ^ n * e ∧ (1 - u) ^ (n - 1) ≤ e ∧ e ≤ (1 + u) ^ (n - 1) := by
  induction h with
  | base => exact ⟨le_refl _, 1, by simp, by simp, by simp⟩
  | @mul i j a b v _ _ h ha hb =>
    obtain ⟨hi, e, he, e1, e2⟩ := ha
    obtain ⟨hj, f, hf, f1, f2⟩ := hb
    obtain ⟨d, hd, hv⟩ := hm _ _ _ h
    obtain ⟨d1, d2⟩ := abs_le.1 hd
    refine ⟨by omega, e * f * (1 + d), by rw [hv, he, hf, pow_add]; ring, ?_, ?_⟩
    · rw [show i + j - 1 = (i - 1) + (j - 1) + 1 by omega, pow_succ, pow_add]
      have p1 : 0 ≤ (1 - u) ^ (i - 1) := pow_nonneg (by linarith) _
      have p2 : 0 ≤ (1 - u) ^ (j - 1) := pow_nonneg (by linarith) _
      exact mul_le_mul (mul_le_mul e1 f1 p2 (p1.trans e1)) (by linarith) (by linarith) (mul_nonneg (p1.trans e1) (p2.trans f1))
    · rw [show i + j - 1 = (i - 1) + (j - 1) + 1 by omega, pow_succ, pow_add]
      have p1 : 0 ≤ (1 - u) ^ (i - 1) := pow_nonneg (by linarith) _
      have p2 : 0 ≤ (1 - u) ^ (j - 1) := pow_nonneg (by linarith) _
      exact mul_le_mul (mul_le_mul e2 f2 (p2.trans f1) (by positivity)) (by linarith) (by linarith) (by positivity)

/-- Exact operations on the numbers below `H`. -/
def ratOps (H : ℚ) : FOps ℚ where
  one := 1
  mul a b := if |a * b| < H then some (a * b) else none
  div a b := if b ≠ 0 ∧ |a / b| < H then some (a / b) else none

theorem ratOps_mul {H a b v : ℚ} (h : (ratOps H).mul a b = some v) : v = a * b ∧ |v| < H := by
  simp only [ratOps] at h
  split at h
  · rename_i hl
    simp only [Option.some.injEq] at h
    subst h
    exact ⟨rfl, hl⟩
  · simp at h

theorem ratOps_ovf {H a b : ℚ} (h : (ratOps H).mul a b = none) : H ≤ |a * b| := by
  simp only [ratOps] at h
  split at h
  · simp at h
  · rename_i hl
    exact not_lt.1 hl

/-- With exact operations and a limit, the error is given exactly when the power is not below the limit. -/
theorem range_end {H : ℚ} (hH : 1 ≤ H) {x : ℚ} (hx : |x| < H) {n : Nat} {s s' : FS ℚ} (h : PwEnd (ratOps H) x n s s') :
    (|x ^ n| < H ∧ s'.fr0 = x ^ n ∧ s'.m.zp.ioerr = s.m.zp.ioerr) ∨ (H ≤ |x ^ n| ∧ s'.fr0 = 1 ∧ s'.m.zp.ioerr = 3#8) := by
  have hb : ∀ {i v}, Pw (ratOps H).mul x i v → |v| < H := by
    intro i v h
    cases h with
    | base => exact hx
    | mul _ _ h => exact (ratOps_mul h).2
  have he : ∀ {i v}, Pw (ratOps H).mul x i v → v = x ^ i := C52_exact fun _ _ _ h => (ratOps_mul h).1
  rcases h with ⟨h, i⟩ | ⟨⟨i, j, a, b, pa, pb, hij, ho⟩, h1, h3⟩
  · have := he h
    exact .inl ⟨by rw [← this]; exact hb h, this, i⟩
  · refine .inr ⟨?_, h1, h3⟩
    have := ratOps_ovf ho
    rw [he pa, he pb, ← pow_add, abs_pow] at this
    rw [abs_pow]
    rcases le_or_gt 1 |x| with h | h
    · exact this.trans (pow_le_pow_right₀ h hij)
    · have hl : |x| ^ n ≤ 1 := pow_le_one₀ (abs_nonneg x) h.le
      have hp : |x| ^ (i + j) ≤ 1 := pow_le_one₀ (abs_nonneg x) h.le
      rcases Nat.eq_zero_or_pos (i + j) with h0 | h0
      · exfalso
        have : ∀ {k v}, Pw (ratOps H).mul x k v → 0 < k := by
          intro k v h
          induction h with
          | base => exact Nat.one_pos
          | mul _ _ _ a b => omega
        have := this pa
        omega
      · have := pow_lt_one₀ (abs_nonneg x) h (show i + j ≠ 0 by omega)
        linarith

/-- With exact operations on the numbers below a limit, the result is the power when that is below the limit, and else the error 3. -/
theorem C52_range {H : ℚ} (hH : 1 < H) (s : FS ℚ) (hx : |s.fr0| < H) (hn : 0 ≤ s.m.ax.toInt ∨ (s.fr0 ≠ 0 ∧ |s.fr0⁻¹| < H)) : ∃ s', FHalts (ratOps H) ipCode.EXE_FP_IPOW s s' ∧ FK s s' ∧
    ((|s.fr0 ^ s.m.ax.toInt| < H ∧ s'.fr0 = s.fr0 ^ s.m.ax.toInt ∧ s'.m.zp.ioerr = s.m.zp.ioerr) ∨ (H ≤ |s.fr0 ^ s.m.ax.toInt| ∧ s'.fr0 = 1 ∧ s'.m.zp.ioerr = 3#8)) := by
  rcases lt_or_ge s.m.ax.toInt 0 with h | h
  · obtain ⟨h0, hi⟩ := hn.resolve_left (by omega)
    obtain ⟨s', y, hh, k, hv, -, p⟩ := C52_inverse (O := ratOps H) s h
    have hy : y = s.fr0⁻¹ := hv _ (by rw [abs_inv] at hi; simp [ratOps, h0, hi])
    subst hy
    refine ⟨s', hh, k, ?_⟩
    have e : s.fr0 ^ s.m.ax.toInt = s.fr0⁻¹ ^ s.m.ax.toInt.natAbs := by
      rw [inv_pow, ← zpow_natCast, ← zpow_neg]
      congr 1
      omega
    rw [e]
    exact range_end hH.le hi p
  · obtain ⟨s', hh, k, p⟩ := C52_power (O := ratOps H) s h
    refine ⟨s', hh, k, ?_⟩
    rcases p with ⟨h0, o, i⟩ | ⟨-, p⟩
    · rw [h0]
      exact .inl ⟨by simpa using hH, by rw [o]; simp [ratOps], i⟩
    · have e : s.fr0 ^ s.m.ax.toInt = s.fr0 ^ s.m.ax.toNat := by
        rw [← zpow_natCast]
        congr 1
        rw [toInt16] at h ⊢
        have := s.m.ax.isLt
        split at h <;> omega
      rw [e]
      exact range_end hH.le hx p

/-- The division of `1` by `0` gives no error: the routine ends with a power of any number at all, with the error of before when all the products of that are in range. -/
theorem C52_lost (s : FS α) (hn : s.m.ax.toInt < 0) (hd : O.div O.one s.fr0 = none) (ho : ∀ a b, O.mul a b ≠ none) :
    ∃ s', FHalts O ipCode.EXE_FP_IPOW s s' ∧ s'.m.zp.ioerr = s.m.zp.ioerr ∧ Pw O.mul (s.junk 2).r0 s.m.ax.toInt.natAbs s'.fr0 := by
  obtain ⟨s', y, hh, -, -, hy, p⟩ := C52_inverse (O := O) s hn
  rw [hy hd] at p
  rcases p with ⟨p, i⟩ | ⟨⟨i, j, a, b, -, -, -, h⟩, -⟩
  · exact ⟨s', hh, i, p⟩
  · exact absurd h (ho a b)

end

/-- A machine with the exponent in `A` and `X`, and the number in `FR0`. -/
def c52S (a x : B) (v : ℚ) : FS ℚ where
  m := { a := a, x := x, y := 0, c := false, z := false, n := false, v := false, stk := [], zp := { tmp1 := 0, tmp1h := 0, tmp2 := 0, tmp2h := 0, tmp3 := 0, tmp3h := 0, dsign := 0, sptr := 0, saddr := 0, saddrh := 0, msrc := 0, msrch := 0, mdst := 0, mdsth := 0, mins := 0, arr := 0, arrh := 0, op1 := 0, op2 := 0, op3 := 0, tmp4 := 0, ioerr := 0, inb := 0, inbh := 0, cix := 0 }, sl := fun _ => 0, sh := fun _ => 0, ram := fun _ => 0 }
  fr0 := v
  fr1 := 0
  arg := 0
  junk _ := ⟨1, 2, 3, true, false, true, false, 7, 8⟩

-- `3 ^ 5 = 243`
example : ∃ s', FHalts (ratOps 1000) ipCode.EXE_FP_IPOW (c52S 5 0 3) s' ∧ s'.fr0 = 243 := by
  obtain ⟨s', h, -, p⟩ := C52_range (H := 1000) (by norm_num) (c52S 5 0 3) (by norm_num [c52S]) (.inl (by decide))
  have e : (c52S 5 0 3).fr0 ^ (c52S 5 0 3).m.ax.toInt = 243 := by
    show (3 : ℚ) ^ (5 : Int) = 243
    norm_num
  rw [e] at p
  rcases p with p | ⟨p, -⟩
  · exact ⟨s', h, p.2.1⟩
  · norm_num at p

-- `3 ^ 7` is above the limit: error 3
example : ∃ s', FHalts (ratOps 1000) ipCode.EXE_FP_IPOW (c52S 7 0 3) s' ∧ s'.m.zp.ioerr = 3#8 := by
  obtain ⟨s', h, -, p⟩ := C52_range (H := 1000) (by norm_num) (c52S 7 0 3) (by norm_num [c52S]) (.inl (by decide))
  have e : (c52S 7 0 3).fr0 ^ (c52S 7 0 3).m.ax.toInt = 2187 := by
    show (3 : ℚ) ^ (7 : Int) = 2187
    norm_num
  rw [e] at p
  rcases p with ⟨p, -⟩ | p
  · norm_num at p
  · exact ⟨s', h, p.2.2⟩

-- `2 ^ -3 = 1/8`
example : ∃ s', FHalts (ratOps 1000) ipCode.EXE_FP_IPOW (c52S 0xFD 0xFF 2) s' ∧ s'.fr0 = 1 / 8 := by
  obtain ⟨s', h, -, p⟩ := C52_range (H := 1000) (by norm_num) (c52S 0xFD 0xFF 2) (by norm_num [c52S]) (.inr ⟨by norm_num [c52S], by norm_num [c52S]⟩)
  have e : (c52S 0xFD 0xFF 2).fr0 ^ (c52S 0xFD 0xFF 2).m.ax.toInt = 1 / 8 := by
    show (2 : ℚ) ^ (-3 : Int) = 1 / 8
    norm_num
  rw [e] at p
  rcases p with p | ⟨p, -⟩
  · exact ⟨s', h, p.2.1⟩
  · norm_num at p

-- `0 ^ -1` gives no error, and here the number 7
example : ∃ s', FHalts { ratOps 1000 with mul := fun a b => some (a * b) } ipCode.EXE_FP_IPOW (c52S 0xFF 0xFF 0) s' ∧ s'.m.zp.ioerr = (c52S 0xFF 0xFF 0).m.zp.ioerr ∧ s'.fr0 = 7 := by
  obtain ⟨s', h, i, p⟩ := C52_lost (O := { ratOps 1000 with mul := fun a b => some (a * b) }) (c52S 0xFF 0xFF 0) (by decide) (by simp [ratOps, c52S]) (by simp)
  have := C52_exact (by simp) p
  exact ⟨s', h, i, this.trans (pow_one (7 : ℚ))⟩

end FB.Rt
