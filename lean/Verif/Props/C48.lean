import Verif.Rt.Rand
import Mathlib.Data.Finset.Card
import Mathlib.Data.Finset.Range
/-!
# C48: random numbers

`RAND(n)` gives a number from 0 to `n - 1`, and all of them with the same probability if all the values of the register `RANDOM` have the same probability, for every `n` from 1 to 32767.
-/
namespace FB.Rt

/-- The number made with two values of the register. -/
def pairNat (p : B × B) : Nat := p.1.toNat + 256 * p.2.toNat

/-- The values read, in order. -/
def reads : List (B × B) → List B
  | [] => []
  | (l, h) :: ps => l :: h :: reads ps

/-- `RAND` shifts its argument `k` places until it has 16 bits. -/
theorem C48_shift {n : Nat} (h1 : 1 ≤ n) (h2 : n < 32768) : ∃ k, 1 ≤ k ∧ k ≤ 15 ∧ 32768 ≤ n * 2 ^ k ∧ n * 2 ^ k < 65536 := by
  have a := Nat.log2_self_le (n := n) (by omega)
  have b : n < 2 ^ (n.log2 + 1) := Nat.lt_log2_self
  have c : n.log2 < 15 := (Nat.log2_lt (by omega)).2 (by omega)
  refine ⟨15 - n.log2, by omega, by omega, ?_, ?_⟩
  · have : 2 ^ n.log2 * 2 ^ (15 - n.log2) = 32768 := by rw [← Nat.pow_add, show n.log2 + (15 - n.log2) = 15 by omega]
    calc 32768 = 2 ^ n.log2 * 2 ^ (15 - n.log2) := this.symm
      _ ≤ _ := Nat.mul_le_mul_right _ a
  · have : 2 ^ (n.log2 + 1) * 2 ^ (15 - n.log2) = 65536 := by rw [← Nat.pow_add, show n.log2 + 1 + (15 - n.log2) = 16 by omega]
    calc _ < 2 ^ (n.log2 + 1) * 2 ^ (15 - n.log2) := Nat.mul_lt_mul_of_pos_right b (Nat.two_pow_pos _)
      _ = _ := this

theorem rand_rejects {t : Nat} : ∀ (ps : List (B × B)) (m : M), t = m.zp.tmp1.toNat + 256 * m.zp.tmp1h.toNat → (∀ p ∈ ps, t ≤ pairNat p) →
    ∃ m', RRun randCode.retry m (reads ps) randCode.retry m' ∧ RndK m m' := by
  intro ps
  induction ps with
  | nil => intro m _ _; exact ⟨m, .refl _ _, rfl, rfl, rfl, kept⟩
  | cons p ps ih =>
    intro m ht hp
    obtain ⟨m1, r1, k1, -⟩ := rand_try m p.1 p.2
    rw [if_neg (by have := hp p (List.mem_cons_self ..); unfold pairNat at this; omega)] at r1
    obtain ⟨m2, r2, k2⟩ := ih m1 (by rw [k1.t, k1.h]; exact ht) (fun q hq => hp q (List.mem_cons_of_mem _ hq))
    have k := k2.k; have k' := k1.k
    refine ⟨m2, r1.trans r2, k2.y.trans k1.y, k2.t.trans k1.t, k2.h.trans k1.h, k.stk.trans k'.stk, k.sl.trans k'.sl, k.sh.trans k'.sh, k.ram.trans k'.ram, k.sptr.trans k'.sptr,
      k.saddr.trans k'.saddr, k.saddrh.trans k'.saddrh, k.arr.trans k'.arr, k.arrh.trans k'.arrh, k.mins.trans k'.mins⟩

theorem Kept.trans' {m m1 m2 : M} (h : Kept m m1 m.zp.sptr) (h' : Kept m1 m2 m1.zp.sptr) : Kept m m2 m.zp.sptr :=
  ⟨h'.stk.trans h.stk, h'.sl.trans h.sl, h'.sh.trans h.sh, h'.ram.trans h.ram, h'.sptr.trans h.sptr, h'.saddr.trans h.saddr, h'.saddrh.trans h.saddrh, h'.arr.trans h.arr,
    h'.arrh.trans h.arrh, h'.mins.trans h.mins⟩

theorem rand_end {m m' : M} {k : Nat} {bad : List (B × B)} {p : B × B} (hr : Reach randCode randCode.EXE_RAND m (.lb "retry" :: randCode.retry) m') (hk : Kept m m' m.zp.sptr) (hy : m'.y.toNat = k)
    (hk1 : 1 ≤ k) (hbad : ∀ q ∈ bad, m'.zp.tmp1.toNat + 256 * m'.zp.tmp1h.toNat ≤ pairNat q) (hp : pairNat p < m'.zp.tmp1.toNat + 256 * m'.zp.tmp1h.toNat) :
    ∃ m2, RHalts m (reads bad ++ [p.1, p.2]) m2 ∧ m2.ax.toNat = pairNat p / 2 ^ k ∧ Kept m m2 m.zp.sptr := by
  obtain ⟨m1, r1, k1⟩ := rand_rejects bad m' rfl hbad
  obtain ⟨m2, r2, k2, e2⟩ := rand_try m1 p.1 p.2
  rw [if_pos (by rw [k1.t, k1.h]; exact hp)] at r2
  obtain ⟨ea, eh⟩ := e2 (by rw [k1.t, k1.h]; exact hp)
  obtain ⟨m3, r3, a3, k3⟩ := rand_scale (k - 1) m2 (by rw [k2.y, k1.y]; omega)
  refine ⟨m3, ⟨randCode.xit, m3, ?_, rfl⟩, ?_, ((hk.trans' k1.k).trans' k2.k).trans' k3⟩
  · have s1 : RRun (.lb "retry" :: randCode.retry) m' [] randCode.retry m' := .step rfl (.refl _ _)
    have s2 : RRun (.lb "scale" :: randCode.scale) m2 [] (.lb "xit" :: randCode.xit) m3 := .step (k1 := randCode.scale) (m1 := m2) rfl (.cpu r3 (.refl _ _))
    have s3 : RRun (.lb "xit" :: randCode.xit) m3 [] randCode.xit m3 := .step rfl (.refl _ _)
    have := s1.trans (r1.trans (r2.trans (s2.trans s3)))
    simp only [List.append_nil, List.nil_append] at this
    exact .cpu hr this
  · rw [a3, ea, eh, show k - 1 + 1 = k by omega]; rfl

/-- `RAND(n)`, with `n` from 1 to 32767: pairs of values of the register are read until one makes a number below `n * 2^k`; the result is that number without its last `k` bits, so it is below
`n`, and nothing else changes. -/
theorem C48_rand {m : M} {n k : Nat} {bad : List (B × B)} {p : B × B} (hn : m.ax.toNat = n) (hk : 1 ≤ k) (h1 : 32768 ≤ n * 2 ^ k) (h2 : n * 2 ^ k < 65536) (hbad : ∀ q ∈ bad, n * 2 ^ k ≤ pairNat q)
    (hp : pairNat p < n * 2 ^ k) :
    ∃ m', RHalts m (reads bad ++ [p.1, p.2]) m' ∧ m'.ax.toNat = pairNat p / 2 ^ k ∧ m'.ax.toNat < n ∧ Kept m m' m.zp.sptr := by
  have hk15 : k ≤ 15 := by
    by_cases h : k ≤ 15
    · exact h
    · have : 2 ^ 16 ≤ 2 ^ k := Nat.pow_le_pow_right (by decide) (by omega)
      have : 0 < n := by rcases Nat.eq_zero_or_pos n with rfl | h'; · simp at h1
                         · exact h'
      have : 1 * 2 ^ k ≤ n * 2 ^ k := Nat.mul_le_mul_right _ this
      omega
  let m0 : M := { m with y := 0, z := true, n := false, zp := { m.zp with tmp1h := m.x } }
  have r0 : Reach randCode randCode.EXE_RAND m randCode.get_l m0 := by
    refine ⟨3, ?_⟩
    rt_exec [randCode.EXE_RAND.eq, m0]
  have ht : rndT m0 = n := by rw [← hn]; simp [rndT, m0, M.ax]
  obtain ⟨m1, r1, y1, t1, k1⟩ := rand_get (k - 1) m0 (by rw [ht, show k - 1 + 1 = k by omega]; exact h1) (by rw [ht, show k - 1 + 1 = k by omega]; exact h2) (by show 0 + (k - 1) + 1 ≤ 15; omega)
  rw [ht, show k - 1 + 1 = k by omega] at t1
  have y1 : m1.y.toNat = k := by rw [y1]; show 0 + (k - 1) + 1 = k; omega
  obtain ⟨m2, r2, a2, k2⟩ := rand_end (p := p) (bad := bad) (r0.trans r1) ⟨k1.stk, k1.sl, k1.sh, k1.ram, k1.sptr, k1.saddr, k1.saddrh, k1.arr, k1.arrh, k1.mins⟩ y1 hk (by rw [t1]; exact hbad) (by rw [t1]; exact hp)
  exact ⟨m2, r2, a2, by rw [a2]; exact Nat.div_lt_of_lt_mul (by rw [Nat.mul_comm]; exact hp), k2⟩

/-- Each result comes from the same number of values of 16 bits. -/
theorem C48_uniform {n k v : Nat} (h : n * 2 ^ k < 65536) (hv : v < n) : ((Finset.range 65536).filter fun r => r < n * 2 ^ k ∧ r / 2 ^ k = v).card = 2 ^ k := by
  have hp : 0 < 2 ^ k := Nat.two_pow_pos k
  have hb : v * 2 ^ k + 2 ^ k ≤ n * 2 ^ k := by
    rw [← Nat.succ_mul]; exact Nat.mul_le_mul_right _ hv
  have e : ((Finset.range 65536).filter fun r => r < n * 2 ^ k ∧ r / 2 ^ k = v) = (Finset.range (2 ^ k)).image (fun i => v * 2 ^ k + i) := by
    ext r
    simp only [Finset.mem_filter, Finset.mem_range, Finset.mem_image]
    constructor
    · rintro ⟨-, h1, h2⟩
      have := Nat.div_add_mod r (2 ^ k)
      rw [h2, Nat.mul_comm] at this
      exact ⟨r % 2 ^ k, Nat.mod_lt _ hp, this⟩
    · rintro ⟨i, hi, rfl⟩
      refine ⟨by omega, by omega, ?_⟩
      rw [Nat.add_comm, Nat.add_mul_div_right _ _ hp, Nat.div_eq_of_lt hi, Nat.zero_add]
  rw [e, Finset.card_image_of_injective _ (fun a b h => by simpa using h), Finset.card_range]

/-- At least half of the values of 16 bits are used, so each try ends the search with probability one half or more. -/
theorem C48_half {n k : Nat} (h1 : 32768 ≤ n * 2 ^ k) (h2 : n * 2 ^ k < 65536) : 32768 ≤ ((Finset.range 65536).filter fun r => r < n * 2 ^ k).card := by
  have e : ((Finset.range 65536).filter fun r => r < n * 2 ^ k) = Finset.range (n * 2 ^ k) := by
    ext r; simp only [Finset.mem_filter, Finset.mem_range]; omega
  rw [e, Finset.card_range]; exact h1

/-- The values of the register decide the result: of two runs over the same values, with the same start, none reads more than the other and they end in the same state. -/
theorem C48_functional {m m1 m2 : M} {bs cs s : List B} (h1 : RHalts m bs m1) (h2 : RHalts m cs m2) (p1 : bs <+: s) (p2 : cs <+: s) : bs = cs ∧ m1 = m2 := by
  obtain ⟨k1, n1, r1, e1⟩ := h1
  obtain ⟨k2, n2, r2, e2⟩ := h2
  generalize randCode.EXE_RAND = k at r1 r2
  induction r1 generalizing cs s with
  | refl k m =>
    cases r2 with
    | refl => rw [e1] at e2; exact ⟨rfl, Out.halt.inj e2⟩
    | step h _ => rw [e1] at h; cases h
    | ldx => cases e1
    | lda => cases e1
  | step h r ih =>
    cases r2 with
    | refl => rw [h] at e2; cases e2
    | step h' r' => rw [h] at h'; cases h'; exact ih p1 p2 e1 r'
    | ldx => cases h
    | lda => cases h
  | ldx b r ih =>
    generalize hk : randCode.retry = k at r2
    cases r2 with
    | refl => subst hk; cases e2
    | step h' _ => subst hk; cases h'
    | ldx b' r' =>
      obtain ⟨t, rfl⟩ := p1
      obtain ⟨t', e⟩ := p2
      simp only [List.cons_append, List.cons.injEq] at e
      obtain ⟨rfl, e⟩ := e
      have := ih ⟨t, rfl⟩ ⟨t', e⟩ e1 r'
      exact ⟨by rw [this.1], this.2⟩
    | lda b' r' => cases congrArg List.length hk
  | lda b r ih =>
    generalize hk : randCode.read_a = k at r2
    cases r2 with
    | refl => subst hk; cases e2
    | step h' _ => subst hk; cases h'
    | lda b' r' =>
      obtain ⟨t, rfl⟩ := p1
      obtain ⟨t', e⟩ := p2
      simp only [List.cons_append, List.cons.injEq] at e
      obtain ⟨rfl, e⟩ := e
      have := ih ⟨t, rfl⟩ ⟨t', e⟩ e1 r'
      exact ⟨by rw [this.1], this.2⟩
    | ldx b' r' => cases congrArg List.length hk

/-- One more shift of the limit. -/
theorem rand_more (m : M) (d : Nat) (hy : m.y.toNat = d) (hd : d ≤ 30) (ht : rndT m = 2 ^ (d - 15) - 1) :
    ∃ m', Reach randCode randCode.get_l m (if d = 30 then .lb "retry" :: randCode.retry else randCode.get_l) m' ∧ m'.y.toNat = d + 1 ∧
      rndT m' = 2 ^ (d + 1 - 15) - 1 ∧ (d = 30 → m'.zp.tmp1 = m'.a) ∧ Kept m m' m.zp.sptr := by
  have ha := m.a.isLt; have hh := m.zp.tmp1h.isLt
  have hp : 2 ^ (d + 1 - 15) - 1 = 2 * (2 ^ (d - 15) - 1) + (if 15 ≤ d then 1 else 0) := by
    by_cases h : 15 ≤ d
    · rw [if_pos h, show d + 1 - 15 = (d - 15) + 1 by omega, Nat.pow_succ]
      have := Nat.two_pow_pos (d - 15); omega
    · rw [if_neg h, show d + 1 - 15 = 0 by omega, show d - 15 = 0 by omega]
  have hb : 2 ^ (d - 15) ≤ 2 ^ 15 := Nat.pow_le_pow_right (by decide) (by omega)
  have hb' : d ≤ 29 → 2 ^ (d - 15) ≤ 2 ^ 14 := fun _ => Nat.pow_le_pow_right (by decide) (by omega)
  have hb2 : d = 30 → 2 ^ (d - 15) = 2 ^ 15 := by rintro rfl; rfl
  have hc : (addC (m.y + 1#8) 239#8 true).toNat = if 15 ≤ d then 1 else 0 := by
    simp only [addC_toNat, BitVec.toNat_add, hy]; simp; split <;> omega
  generalize hcc : addC (m.y + 1#8) 239#8 true = cc at hc
  unfold rndT at ht
  by_cases h30 : d = 30
  · have hn : topBit (rol8 m.zp.tmp1h (topBit (m.a))) = true := by
      apply bool1; have := hb2 h30; simp; omega
    rw [if_pos h30]
    refine ⟨?_, ⟨6, ?_⟩, ?_⟩
    rotate_left
    · rt_exec [randCode.get_l.eq, hcc, hn]; rfl
    · refine ⟨by simp [BitVec.toNat_add]; omega, ?_, fun _ => rfl, kept⟩
      rw [hp]; simp [rndT, hc]; split <;> omega
  · have hn : topBit (rol8 m.zp.tmp1h (topBit (m.a))) = false := by
      apply bool0; have := hb' (by omega); simp; omega
    rw [if_neg h30]
    refine ⟨?_, ⟨5, ?_⟩, ?_⟩
    rotate_left
    · rt_exec [randCode.get_l.eq, hcc, hn]; rfl
    · refine ⟨by simp [BitVec.toNat_add]; omega, ?_, fun h => absurd h h30, kept⟩
      rw [hp]; simp [rndT, hc]; split <;> omega

theorem rand_ones (m : M) (hy : m.y.toNat = 0) (ht : rndT m = 0) (d : Nat) : d ≤ 30 →
    ∃ m', Reach randCode randCode.get_l m randCode.get_l m' ∧ m'.y.toNat = d ∧ rndT m' = 2 ^ (d - 15) - 1 ∧ Kept m m' m.zp.sptr := by
  induction d with
  | zero => intro _; exact ⟨m, .refl _ _ _, hy, ht, kept⟩
  | succ d ih =>
    intro hd
    obtain ⟨m1, r1, y1, t1, k1⟩ := ih (by omega)
    obtain ⟨m2, r2, y2, t2, -, k2⟩ := rand_more m1 d y1 (by omega) t1
    rw [if_neg (by omega)] at r2
    exact ⟨m2, r1.trans r2, y2, t2, k1.trans' k2⟩

/-- `RAND(0)` is 0. -/
theorem C48_zero {m : M} {bad : List (B × B)} {p : B × B} (hn : m.ax.toNat = 0) (hbad : ∀ q ∈ bad, pairNat q = 65535) (hp : pairNat p < 65535) :
    ∃ m', RHalts m (reads bad ++ [p.1, p.2]) m' ∧ m'.ax.toNat = 0 ∧ Kept m m' m.zp.sptr := by
  let m0 : M := { m with y := 0, z := true, n := false, zp := { m.zp with tmp1h := m.x } }
  have r0 : Reach randCode randCode.EXE_RAND m randCode.get_l m0 := by
    refine ⟨3, ?_⟩
    rt_exec [randCode.EXE_RAND.eq, m0]
  have ht : rndT m0 = 0 := by rw [← hn]; simp [rndT, m0, M.ax]
  obtain ⟨m1, r1, y1, t1, k1⟩ := rand_ones m0 rfl ht 30 (by decide)
  obtain ⟨m2, r2, y2, t2, e2, k2⟩ := rand_more m1 30 y1 (by decide) t1
  rw [if_pos rfl] at r2
  have k3 := k1.trans' k2
  have t3 : m2.zp.tmp1.toNat + 256 * m2.zp.tmp1h.toNat = 65535 := by rw [e2 rfl]; exact t2
  obtain ⟨m3, r3, a3, k3⟩ := rand_end (p := p) (bad := bad) (r0.trans (r1.trans r2)) ⟨k3.stk, k3.sl, k3.sh, k3.ram, k3.sptr, k3.saddr, k3.saddrh, k3.arr, k3.arrh, k3.mins⟩ y2 (by decide)
    (by rw [t3]; exact fun q hq => (hbad q hq).ge) (by rw [t3]; exact hp)
  refine ⟨m3, r3, ?_, k3⟩
  rw [a3]; exact Nat.div_eq_of_lt (by omega)

/-! ## A concrete case -/

/-- `RAND(10)`: 10 is shifted 12 places, to 40960. -/
def exRand : M := { a := 10, x := 0, y := 0, c := true, z := false, n := false, v := false, stk := [], zp := ⟨1, 2, 3, 4, 5, 6, 7, 40, 9, 10, 11, 12, 13, 14, 0x88, 15, 16, 0, 0, 0, 0, 0, 0, 0, 0, 0, 0, 0, 0, 0, 0, 0, 0, 0, 0, 0, 0, 0, 0, 0, 0, 0, 0, 0⟩, sl := fun _ => 0, sh := fun _ => 0, ram := fun _ => 0 }

/-- The register has $FF, $C0 (49407, rejected), then $34, $72 (29236): the result is 7. -/
example : ∃ m', RHalts exRand [0xFF, 0xC0, 0x34, 0x72] m' ∧ m'.ax.toNat = 7 := by
  obtain ⟨m', r, e, -, -⟩ := C48_rand (m := exRand) (n := 10) (k := 12) (bad := [(0xFF, 0xC0)]) (p := (0x34, 0x72)) rfl (by decide) (by decide) (by decide) (by simp [pairNat]) (by decide)
  exact ⟨m', r, e⟩

example : ((Finset.range 65536).filter fun r => r < 10 * 2 ^ 12 ∧ r / 2 ^ 12 = 7).card = 4096 := C48_uniform (by decide) (by decide)

example : ∃ m', RHalts { exRand with a := 0 } [0xFE, 0xFF] m' ∧ m'.ax.toNat = 0 := by
  obtain ⟨m', r, e, -⟩ := C48_zero (m := { exRand with a := 0 }) (bad := []) (p := (0xFE, 0xFF)) rfl (by simp) (by decide)
  exact ⟨m', r, e⟩

end FB.Rt
