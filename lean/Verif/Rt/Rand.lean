import Verif.Rt.Arith
import Verif.Rt.Labels
/-!
# Random numbers

Transcription of `/repo/src/interp/atari/rand.asm` and what it does for each sequence of values of the register `RANDOM`.
-/
namespace FB.Rt
open Ins Opd

/-- `EXE_RAND`, `rand.asm:36-62`.  The two reads of the register `RANDOM` of the hardware (`ldx RANDOM`, `rand.asm:48`, and `lda RANDOM`, `rand.asm:50`) are `ext`; `RRun` gives
what they do. -/
def randCode : Code :=
  asm!["EXE_RAND", ldy (imm 0), stx (zp .tmp1h),
   "get_l", iny, cpy (imm 0x10), rol acc, rol (zp .tmp1h), bpl "get_l", sta (zp .tmp1),
   "retry", ext,
   "got_x", cpx (zp .tmp1),
   "read_a", ext,
   "got_a", sta (zp .tmp2), sbc (zp .tmp1h), bcs "retry", txa,
   "scale", lsr (zp .tmp2), ror acc, dey, Ins.bne "scale", ldx (zp .tmp2),
   "xit", next]

code_labels randCode

/-- Runs of the code of `RAND` in which the register `RANDOM` has the values of the list, one for each read. -/
inductive RRun : Code → M → List B → Code → M → Prop
  | refl (k : Code) (m : M) : RRun k m [] k m
  | step {k k1 k2 : Code} {m m1 m2 : M} {bs : List B} (h : FB.Rt.step randCode k m = .go k1 m1) (r : RRun k1 m1 bs k2 m2) : RRun k m bs k2 m2
  | ldx {k2 : Code} {m m2 : M} (b : B) {bs : List B} (r : RRun randCode.got_x { m.nz b with x := b } bs k2 m2) : RRun randCode.retry m (b :: bs) k2 m2
  | lda {k2 : Code} {m m2 : M} (b : B) {bs : List B} (r : RRun randCode.got_a { m.nz b with a := b } bs k2 m2) : RRun randCode.read_a m (b :: bs) k2 m2

/-- `RAND` ends, after reading the values of the list, and the interpreter goes on. -/
def RHalts (m : M) (bs : List B) (m' : M) : Prop := ∃ k m1, RRun randCode.EXE_RAND m bs k m1 ∧ FB.Rt.step randCode k m1 = .halt m'

theorem RRun.trans {k k1 k2 : Code} {m m1 m2 : M} {bs cs : List B} (h : RRun k m bs k1 m1) (h' : RRun k1 m1 cs k2 m2) : RRun k m (bs ++ cs) k2 m2 := by
  induction h with
  | refl => exact h'
  | step h _ ih => exact .step h (ih h')
  | ldx b _ ih => exact .ldx b (ih h')
  | lda b _ ih => exact .lda b (ih h')

theorem RRun.cpu {k k1 k2 : Code} {m m1 m2 : M} {bs : List B} (h : Reach randCode k m k1 m1) (h' : RRun k1 m1 bs k2 m2) : RRun k m bs k2 m2 := by
  obtain ⟨n, h⟩ := h
  induction n generalizing k m with
  | zero => injection h with e e'; subst e; subst e'; exact h'
  | succ n ih =>
    rw [run] at h
    split at h
    · next ka ma hs => exact .step hs (ih h)
    · next hs => exact absurd h (hs _ _)

theorem bool0 {b : Bool} (h : b.toNat = 0) : b = false := by cases b <;> simp at h ⊢
theorem bool1 {b : Bool} (h : b.toNat = 1) : b = true := by cases b <;> simp at h ⊢

/-- The limit, while it is shifted. -/
def rndT (m : M) : Nat := m.a.toNat + 256 * m.zp.tmp1h.toNat

/-- The limit is shifted until its top bit is set. -/
theorem rand_get (d : Nat) : ∀ m : M, 32768 ≤ rndT m * 2 ^ (d + 1) → rndT m * 2 ^ (d + 1) < 65536 → m.y.toNat + d + 1 ≤ 15 →
    ∃ m', Reach randCode randCode.get_l m (.lb "retry" :: randCode.retry) m' ∧ m'.y.toNat = m.y.toNat + d + 1 ∧ m'.zp.tmp1.toNat + 256 * m'.zp.tmp1h.toNat = rndT m * 2 ^ (d + 1) ∧
      Kept m m' m.zp.sptr := by
  induction d with
  | zero =>
    intro m h1 h2 hy
    have ha := m.a.isLt; have hh := m.zp.tmp1h.isLt
    simp only [rndT, Nat.zero_add, Nat.pow_one] at h1 h2
    have hc : addC (m.y + 1#8) 239#8 true = false := by
      apply bool0; simp [BitVec.toNat_add]; omega
    have hn : topBit (rol8 m.zp.tmp1h (topBit m.a)) = true := by
      apply bool1; simp; omega
    refine ⟨?_, ⟨6, ?_⟩, ?_⟩
    rotate_left
    · rt_exec [randCode.get_l.eq, hc, hn]; rfl
    · refine ⟨?_, ?_, kept⟩
      · simp [BitVec.toNat_add]; omega
      · simp [rndT]; omega
  | succ d ih =>
    intro m h1 h2 hy
    have ha := m.a.isLt; have hh := m.zp.tmp1h.isLt
    have hp : 1 ≤ 2 ^ d := Nat.one_le_two_pow
    have e : rndT m * 2 ^ (d + 1 + 1) = (rndT m * 2) * 2 ^ (d + 1) := by rw [Nat.pow_succ 2 (d + 1), Nat.mul_assoc, Nat.mul_comm 2]
    have hlt : rndT m * 4 < 65536 := by
      have : rndT m * 4 * 1 ≤ rndT m * 4 * 2 ^ d := Nat.mul_le_mul_left _ hp
      have e2 : rndT m * 2 ^ (d + 1 + 1) = rndT m * 4 * 2 ^ d := by rw [Nat.pow_succ, Nat.pow_succ, Nat.mul_assoc, Nat.mul_assoc, Nat.mul_comm 4]
      omega
    simp only [rndT] at hlt
    have hc : addC (m.y + 1#8) 239#8 true = false := by
      apply bool0; simp [BitVec.toNat_add]; omega
    have hn : topBit (rol8 m.zp.tmp1h (topBit m.a)) = false := by
      apply bool0; simp; omega
    let m1 : M := { m with y := m.y + 1, a := rol8 m.a false, c := topBit m.zp.tmp1h, z := decide (rol8 m.zp.tmp1h (topBit m.a) = 0), n := false, zp := { m.zp with tmp1h := rol8 m.zp.tmp1h (topBit m.a) } }
    have r1 : Reach randCode randCode.get_l m randCode.get_l m1 := by
      refine ⟨5, ?_⟩
      rt_exec [randCode.get_l.eq, hc, hn, m1]
      rfl
    have t1 : rndT m1 = rndT m * 2 := by simp [rndT, m1]; omega
    have y1 : m1.y.toNat = m.y.toNat + 1 := by simp [m1, BitVec.toNat_add]; omega
    obtain ⟨m', r, hy', ht', hk⟩ := ih m1 (by rw [t1, ← e]; exact h1) (by rw [t1, ← e]; exact h2) (by omega)
    exact ⟨m', r1.trans r, by omega, by rw [ht', t1, ← e], hk.stk, hk.sl, hk.sh, hk.ram, hk.sptr, hk.saddr, hk.saddrh, hk.arr, hk.arrh, hk.mins⟩

/-- What the loop that reads the register keeps. -/
structure RndK (m m' : M) : Prop where
  y : m'.y = m.y
  t : m'.zp.tmp1 = m.zp.tmp1
  h : m'.zp.tmp1h = m.zp.tmp1h
  k : Kept m m' m.zp.sptr

/-- Two values are read: if they make a number that is not below the limit, two more are needed. -/
theorem rand_try (m : M) (l h : B) : ∃ m', RRun randCode.retry m [l, h] (if l.toNat + 256 * h.toNat < m.zp.tmp1.toNat + 256 * m.zp.tmp1h.toNat then .lb "scale" :: randCode.scale else randCode.retry) m' ∧
    RndK m m' ∧ (l.toNat + 256 * h.toNat < m.zp.tmp1.toNat + 256 * m.zp.tmp1h.toNat → m'.a = l ∧ m'.zp.tmp2 = h) := by
  have := l.isLt; have := h.isLt; have := m.zp.tmp1.isLt; have := m.zp.tmp1h.isLt
  by_cases hlt : l.toNat + 256 * h.toNat < m.zp.tmp1.toNat + 256 * m.zp.tmp1h.toNat
  · rw [if_pos hlt]
    have hc : addC h (~~~ m.zp.tmp1h) (addC l (~~~ m.zp.tmp1) true) = false := by
      apply bool0; simp only [addC_toNat, BitVec.toNat_not, Bool.toNat_true]; omega
    refine ⟨?_, .ldx l (.cpu (k1 := randCode.read_a) (m1 := M.cmp { m.nz l with x := l } l m.zp.tmp1) ⟨2, rfl⟩ (.lda h (.cpu ⟨4, ?_⟩ (.refl _ _)))), ?_⟩
    rotate_left
    · rt_exec [randCode.got_a.eq, hc]; rfl
    · exact ⟨⟨rfl, rfl, rfl, kept⟩, fun _ => ⟨rfl, rfl⟩⟩
  · rw [if_neg hlt]
    have hc : addC h (~~~ m.zp.tmp1h) (addC l (~~~ m.zp.tmp1) true) = true := by
      apply bool1; simp only [addC_toNat, BitVec.toNat_not, Bool.toNat_true]; omega
    refine ⟨?_, .ldx l (.cpu (k1 := randCode.read_a) (m1 := M.cmp { m.nz l with x := l } l m.zp.tmp1) ⟨2, rfl⟩ (.lda h (.cpu ⟨3, ?_⟩ (.refl _ _)))), ?_⟩
    rotate_left
    · rt_exec [randCode.got_a.eq, hc]; rfl
    · exact ⟨⟨rfl, rfl, rfl, kept⟩, fun h => absurd h hlt⟩

/-- The number is shifted back. -/
theorem rand_scale (d : Nat) : ∀ m : M, m.y.toNat = d + 1 → ∃ m', Reach randCode randCode.scale m (.lb "xit" :: randCode.xit) m' ∧
    m'.ax.toNat = (m.a.toNat + 256 * m.zp.tmp2.toNat) / 2 ^ (d + 1) ∧ Kept m m' m.zp.sptr := by
  induction d with
  | zero =>
    intro m hy
    have ha := m.a.isLt; have hh := m.zp.tmp2.isLt
    have hz : m.y - 1#8 = 0#8 := by apply BitVec.eq_of_toNat_eq; simp [BitVec.toNat_sub]; omega
    refine ⟨?_, ⟨5, ?_⟩, ?_⟩
    rotate_left
    · rt_exec [randCode.scale.eq, hz]; rfl
    · refine ⟨?_, kept⟩
      simp [M.ax]; omega
  | succ d ih =>
    intro m hy
    have ha := m.a.isLt; have hh := m.zp.tmp2.isLt
    have := m.y.isLt
    have hz : ¬ m.y - 1#8 = 0#8 := by intro h; have := congrArg BitVec.toNat h; simp [BitVec.toNat_sub] at this; omega
    let m1 : M := { m with y := m.y - 1, a := ror8 m.a (lowBit m.zp.tmp2), c := lowBit m.a, z := false, n := topBit (m.y - 1), zp := { m.zp with tmp2 := ror8 m.zp.tmp2 false } }
    have r1 : Reach randCode randCode.scale m randCode.scale m1 := by
      refine ⟨4, ?_⟩
      rt_exec [randCode.scale.eq, hz, m1]
    obtain ⟨m', r, ht', hk⟩ := ih m1 (by simp [m1, BitVec.toNat_sub]; omega)
    refine ⟨m', r1.trans r, ?_, hk.stk, hk.sl, hk.sh, hk.ram, hk.sptr, hk.saddr, hk.saddrh, hk.arr, hk.arrh, hk.mins⟩
    rw [ht', Nat.pow_succ 2 (d + 1), Nat.mul_comm (2 ^ (d + 1)), ← Nat.div_div_eq_div_mul]
    congr 1
    simp [m1]; omega

end FB.Rt
