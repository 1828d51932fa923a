import Verif.Rt.For
/-!
# C07–C11: integer arithmetic of the runtime, `FOR` loops

C07–C10 are in `Verif.Props.C07`; this file is about `FOR`.
-/
namespace FB
open FB.Rt

/-- The dispatcher enters a routine with `Y` loaded from `sptr` (`interpreter.asm:104-111`). -/
def Rt.M.enter (m : M) : M := { m with y := m.zp.sptr }

/-- Executions of `FOR … NEXT` from the test on: `basic.syn:514-517` compiles the loop to
`… FOR; CNJUMP exit; L1: body; FOR_NEXT; CJUMP L1; exit: FOR_EXIT`, and `CNJUMP` leaves when bit 0 of `A` is set, `CJUMP`
goes back when it is clear (`jump.asm:63-71`).  `body` is what the statements inside the loop do.  The list holds the
value of the variable at `v` each time that the body starts. -/
inductive ForLoop (body : M → M) (v : W) : M → List W → M → Prop
  | done {m m' : M} : m.a.getLsbD 0 = true → Halts forExitCode forExitCode m.enter m' → ForLoop body v m [] m'
  | more {m m1 m' : M} {l : List W} : m.a.getLsbD 0 = false → Halts cmpCode cmpCode.EXE_FOR_NEXT (body m).enter m1 →
      ForLoop body v m1 l m' → ForLoop body v m (m.peek v :: l) m'

/-- The body of a loop leaves the stack below it and the variable of the loop alone. -/
structure BodyKeeps (body : M → M) (v : W) : Prop where
  sptr : ∀ m, (body m).zp.sptr = m.zp.sptr
  sl : ∀ m i, i = m.zp.sptr ∨ i = m.zp.sptr + 1 ∨ i = m.zp.sptr + 2 → (body m).sl i = m.sl i
  sh : ∀ m i, i = m.zp.sptr ∨ i = m.zp.sptr + 1 ∨ i = m.zp.sptr + 2 → (body m).sh i = m.sh i
  var : ∀ m, (body m).peek v = m.peek v

/-- The integer `x` is past the limit, going in the direction of the step. -/
def Past (step limit x : Int) : Prop := if step < 0 then x < limit else limit < x

theorem past_iff (step limit v : W) : past step limit v = true ↔ Past step.toInt limit.toInt v.toInt := by
  simp only [past, Past]; split <;> simp

theorem peek_enter (m : M) (a : W) : m.enter.peek a = m.peek a := rfl
theorem stkAt_enter (m : M) (i : B) : m.enter.stkAt i = m.stkAt i := rfl

theorem bit_b2w {m : M} {b : Bool} (h : m.ax = b2w b) : m.a.getLsbD 0 = b := by
  have := m.a.isLt; have := m.x.isLt
  have h := congrArg BitVec.toNat h
  simp [M.ax] at h
  rw [BitVec.getLsbD, Nat.testBit_zero]
  cases b
  · simp [b2w] at h; simp; omega
  · simp [b2w] at h; simp; omega

theorem peek_upd2 (m : M) (r : W → B) (a v : W) (h : m.ram = updMem2 r a v) : m.peek a = v := by
  have e : a ≠ a + 1 := by bv_omega
  rw [M.peek, h, mkW_eq]
  simp only [updMem2, updMem]
  rw [if_neg e, if_pos trivial, if_pos trivial]
  have := v.isLt
  apply BitVec.eq_of_toNat_eq
  simp [lo, hi, Nat.shiftRight_eq_div_pow]
  omega

theorem toInt_in (x : Int) (h : -32768 ≤ x ∧ x ≤ 32767) : (BitVec.ofInt 16 x).toInt = x := by
  rw [BitVec.toInt_ofInt]
  have e : ((2 ^ 16 : Nat) : Int) = 65536 := rfl
  rw [Int.bmod_def]
  split <;> omega

/-- From the test on. -/
theorem for_loop (body : M → M) (v limit step : W) (hb : BodyKeeps body v) : ∀ (K : Nat) (s : Int) (m : M),
    m.stkAt 0 = step → m.stkAt 1 = limit → m.stkAt 2 = v → m.peek v = BitVec.ofInt 16 s →
    m.ax = b2w (past step limit (m.peek v)) →
    (∀ k : Nat, k ≤ K → -32768 ≤ s + k * step.toInt ∧ s + k * step.toInt ≤ 32767) →
    (∀ k : Nat, k < K → ¬ Past step.toInt limit.toInt (s + k * step.toInt)) →
    Past step.toInt limit.toInt (s + K * step.toInt) →
    ∃ m', ForLoop body v m ((List.range K).map fun k : Nat => BitVec.ofInt 16 (s + k * step.toInt)) m' ∧
      m'.zp.sptr = m.zp.sptr + 3 ∧ m'.peek v = BitVec.ofInt 16 (s + K * step.toInt) ∧
      ∀ l m'', ForLoop body v m l m'' → l = (List.range K).map (fun k : Nat => BitVec.ofInt 16 (s + k * step.toInt)) ∧ m'' = m' := by
  intro K
  induction K with
  | zero =>
    intro s m h0 h1 h2 hp hax hr hn hpast
    have hs := hr 0 (Nat.le_refl _)
    simp only [Nat.cast_zero, Int.zero_mul, Int.add_zero] at hs hpast ⊢
    have ht : m.a.getLsbD 0 = true := by
      rw [bit_b2w hax, past_iff, hp, toInt_in s hs]; exact hpast
    obtain ⟨m', g, gx, gk⟩ := for_exit_correct m.enter rfl
    refine ⟨m', .done ht g, gk.sptr, ?_, ?_⟩
    · rw [M.peek, gk.ram]; exact hp
    · intro l m'' hl
      cases hl with
      | done _ g' => exact ⟨rfl, Halts.unique g' g⟩
      | more hf _ _ => rw [ht] at hf; cases hf
  | succ K ih =>
    intro s m h0 h1 h2 hp hax hr hn hpast
    have hs := hr 0 (Nat.zero_le _)
    have hs1 := hr 1 (by omega)
    have hnp := hn 0 (by omega)
    simp only [Nat.cast_zero, Nat.cast_one, Int.zero_mul, Int.add_zero, Int.one_mul] at hs hnp hs1
    have ht : m.a.getLsbD 0 = false := by
      rw [bit_b2w hax, Bool.eq_false_iff, ne_eq, past_iff, hp, toInt_in s hs]; exact hnp
    obtain ⟨m1, g, gx, gk⟩ := for_next_correct (body m).enter rfl
    have hsp := hb.sptr m
    have st : ∀ i : B, i = 0 ∨ i = 1 ∨ i = 2 → (body m).enter.stkAt i = m.stkAt i := by
      intro i hi
      rw [stkAt_enter, M.stkAt, M.stkAt, hsp]
      have : m.zp.sptr + i = m.zp.sptr ∨ m.zp.sptr + i = m.zp.sptr + 1 ∨ m.zp.sptr + i = m.zp.sptr + 2 := by
        rcases hi with rfl | rfl | rfl
        · left; simp
        · right; left; rfl
        · right; right; rfl
      rw [hb.sl m _ this, hb.sh m _ this]
    have st1 : ∀ i : B, i = 0 ∨ i = 1 ∨ i = 2 → m1.stkAt i = m.stkAt i := by
      intro i hi
      rw [← st i hi, M.stkAt, M.stkAt, gk.sl, gk.sh, gk.sptr]
    rw [st 0 (by simp), st 1 (by simp), st 2 (by simp), h0, h1, h2, peek_enter, hb.var, hp] at gx
    rw [st 0 (by simp), st 2 (by simp), h0, h2, peek_enter, hb.var, hp] at gk
    have hstep : BitVec.ofInt 16 s + step = BitVec.ofInt 16 (s + step.toInt) := by
      rw [BitVec.ofInt_add, BitVec.ofInt_toInt]
    rw [hstep] at gx gk
    have pk : m1.peek v = BitVec.ofInt 16 (s + step.toInt) := peek_upd2 m1 _ v _ gk.ram
    have e : ∀ k : Nat, s + step.toInt + k * step.toInt = s + ((k + 1 : Nat) : Int) * step.toInt := by
      intro k; rw [Nat.cast_add]; ring
    obtain ⟨m', gl, gs, gp, gu⟩ := ih (s + step.toInt) m1 (by rw [st1 0 (by simp), h0]) (by rw [st1 1 (by simp), h1]) (by rw [st1 2 (by simp), h2]) pk
      (by rw [pk]; exact gx) (by intro k hk; rw [e k]; exact hr (k + 1) (by omega)) (by intro k hk; rw [e k]; exact hn (k + 1) (by omega))
      (by rw [e K]; exact hpast)
    have el : (List.range (K + 1)).map (fun k : Nat => BitVec.ofInt 16 (s + k * step.toInt)) =
        m.peek v :: (List.range K).map (fun k : Nat => BitVec.ofInt 16 (s + step.toInt + k * step.toInt)) := by
      rw [List.range_succ_eq_map, List.map_cons, List.map_map, hp]
      congr 1
      · simp
      · apply List.map_congr_left
        intro k _
        simp only [Function.comp, e k]
    refine ⟨m', ?_, ?_, ?_, ?_⟩
    · rw [el]; exact .more ht g gl
    · rw [gs, gk.sptr]; show (body m).zp.sptr + 3 = _; rw [hsp]
    · rw [gp, e K]
    · intro l m'' hl
      cases hl with
      | done hf _ => rw [ht] at hf; cases hf
      | more _ g' r =>
        rw [Halts.unique g' g] at r
        obtain ⟨h1, h2⟩ := gu _ _ r
        exact ⟨by rw [el, h1], h2⟩

/-- **C11.** Before `FOR` the step is in `AX`, the limit and the address `v` of the variable are on the stack, and the
variable holds the start.  If `start + K * step` is the first value past the limit, and no value up to it wraps around,
then the body is executed exactly for `start`, `start + step`, …, `start + (K-1) * step`; the loop terminates, and there is
no other execution. -/
theorem C11_for_loop (body : M → M) (m : M) (he : Entry m) (v : W) (hv : m.stkAt 1 = v) (hb : BodyKeeps body v) (K : Nat)
    (hr : ∀ k : Nat, k ≤ K → -32768 ≤ (m.peek v).toInt + k * m.ax.toInt ∧ (m.peek v).toInt + k * m.ax.toInt ≤ 32767)
    (hn : ∀ k : Nat, k < K → ¬ Past m.ax.toInt (m.stkAt 0).toInt ((m.peek v).toInt + k * m.ax.toInt))
    (hpast : Past m.ax.toInt (m.stkAt 0).toInt ((m.peek v).toInt + K * m.ax.toInt)) :
    ∃ m1 m', Halts cmpCode cmpCode.EXE_FOR m m1 ∧
      ForLoop body v m1 ((List.range K).map fun k : Nat => BitVec.ofInt 16 ((m.peek v).toInt + k * m.ax.toInt)) m' ∧
      m'.zp.sptr = m.zp.sptr + 2 ∧ m'.peek v = BitVec.ofInt 16 ((m.peek v).toInt + K * m.ax.toInt) ∧
      ∀ m1' l m'', Halts cmpCode cmpCode.EXE_FOR m m1' → ForLoop body v m1' l m'' →
        l = (List.range K).map (fun k : Nat => BitVec.ofInt 16 ((m.peek v).toInt + k * m.ax.toInt)) ∧ m'' = m' := by
  obtain ⟨m1, g, gx, gk⟩ := for_correct m he
  have n0 : m.zp.sptr - 1 ≠ m.zp.sptr := by bv_omega
  have n1 : m.zp.sptr + 1 ≠ m.zp.sptr - 1 := by bv_omega
  have a0 : m.zp.sptr - 1 + 0 = m.zp.sptr - 1 := by bv_omega
  have a1 : m.zp.sptr - 1 + 1 = m.zp.sptr + 0 := by bv_omega
  have a2 : m.zp.sptr - 1 + 2 = m.zp.sptr + 1 := by bv_omega
  have b0 : m.zp.sptr + 0 ≠ m.zp.sptr - 1 := by bv_omega
  have s0 : m1.stkAt 0 = m.ax := by
    rw [M.stkAt, gk.sl, gk.sh, gk.sptr, M.ax]; simp only [a0, upd_at]
  have s1 : m1.stkAt 1 = m.stkAt 0 := by
    rw [M.stkAt, gk.sl, gk.sh, gk.sptr, M.stkAt]; simp only [a1, upd, if_neg b0]
  have s2 : m1.stkAt 2 = m.stkAt 1 := by
    rw [M.stkAt, gk.sl, gk.sh, gk.sptr, M.stkAt]; simp only [a2, upd, if_neg n1]
  have pk : m1.peek v = m.peek v := by rw [M.peek, gk.ram]; rfl
  obtain ⟨m', l1, l2, l3, l4⟩ := for_loop body v (m.stkAt 0) m.ax hb K (m.peek v).toInt m1 s0 s1 (s2.trans hv) (by rw [pk, BitVec.ofInt_toInt])
    (by rw [gx, pk, hv]) hr hn hpast
  refine ⟨m1, m', g, l1, ?_, l3, ?_⟩
  · rw [l2, gk.sptr]; show m.zp.sptr - 1 + 3 = _; bv_omega
  · intro m1' l m'' h1 h2
    rw [Halts.unique h1 g] at h2
    exact l4 l m'' h2

theorem count_pos (s L st : Int) (h : 0 < st) : ∃ K : Nat, (∀ k : Nat, k ≤ K → s ≤ s + k * st ∧ (s + k * st ≤ s ∨ s + k * st ≤ L + st)) ∧
    (∀ k : Nat, k < K → s + k * st ≤ L) ∧ L < s + K * st := by
  by_cases hl : L < s
  · refine ⟨0, ?_, ?_, ?_⟩
    · intro k hk; obtain rfl : k = 0 := by omega
      simp
    · intro k hk; omega
    · simpa using hl
  · have hd : 0 ≤ (L - s) / st := Int.ediv_nonneg (by omega) (by omega)
    have hq : (L - s) / st * st ≤ L - s := Int.ediv_mul_le _ (by omega)
    have hr : L - s < ((L - s) / st + 1) * st := Int.lt_ediv_add_one_mul_self _ h
    obtain ⟨n, hn⟩ := Int.eq_ofNat_of_zero_le hd
    rw [hn] at hq hr
    have mono : ∀ k : Nat, k ≤ n → (k : Int) * st ≤ n * st := fun k hk => Int.mul_le_mul_of_nonneg_right (by omega) (by omega)
    refine ⟨n + 1, ?_, ?_, ?_⟩
    · intro k hk
      have h0 : 0 ≤ (k : Int) * st := Int.mul_nonneg (by omega) (by omega)
      have h1 : (k : Int) * st ≤ (n + 1) * st := Int.mul_le_mul_of_nonneg_right (by omega) (by omega)
      have h2 : ((n : Int) + 1) * st = n * st + st := by ring
      omega
    · intro k hk
      have := mono k (by omega)
      omega
    · rw [Nat.cast_add]; simp only [Nat.cast_one]; omega

/-- There is such a number of iterations whenever the step is not zero and the limit plus the step does not wrap around. -/
theorem C11_for_count (s L st : Int) (h : st ≠ 0) (hs : -32768 ≤ s ∧ s ≤ 32767) (hl : -32768 ≤ L + st ∧ L + st ≤ 32767) :
    ∃ K : Nat, (∀ k : Nat, k ≤ K → -32768 ≤ s + k * st ∧ s + k * st ≤ 32767) ∧ (∀ k : Nat, k < K → ¬ Past st L (s + k * st)) ∧
      Past st L (s + K * st) := by
  by_cases hp : 0 < st
  · obtain ⟨K, h1, h2, h3⟩ := count_pos s L st hp
    refine ⟨K, ?_, ?_, ?_⟩
    · intro k hk; have := h1 k hk; omega
    · intro k hk; have := h2 k hk; rw [Past, if_neg (by omega)]; omega
    · rw [Past, if_neg (by omega)]; exact h3
  · obtain ⟨K, h1, h2, h3⟩ := count_pos (-s) (-L) (-st) (by omega)
    refine ⟨K, ?_, ?_, ?_⟩
    · intro k hk; have := h1 k hk; rw [Int.mul_neg] at this; omega
    · intro k hk; have := h2 k hk; rw [Int.mul_neg] at this; rw [Past, if_pos (by omega)]; omega
    · rw [Int.mul_neg] at h3; rw [Past, if_pos (by omega)]; omega

/-- With step zero, and a start that is not past the limit, the loop never ends. -/
theorem C11_for_step_zero (body : M → M) (v : W) (hb : BodyKeeps body v) (m : M) (h0 : m.stkAt 0 = 0) (h2 : m.stkAt 2 = v)
    (hp : ¬ (m.stkAt 1).toInt < (m.peek v).toInt) (hax : m.ax = 0) : ∀ l m', ¬ ForLoop body v m l m' := by
  intro l m' h
  induction h with
  | done ht _ =>
    rw [bit_b2w (b := false) (by rw [hax]; rfl)] at ht; cases ht
  | @more m m1 m' l ht g _ ih =>
    obtain ⟨m2, g2, gx, gk⟩ := for_next_correct (body m).enter rfl
    obtain rfl := Halts.unique g g2
    have hsp := hb.sptr m
    have st : ∀ i : B, i = 0 ∨ i = 1 ∨ i = 2 → (body m).enter.stkAt i = m.stkAt i := by
      intro i hi
      rw [stkAt_enter, M.stkAt, M.stkAt, hsp]
      have : m.zp.sptr + i = m.zp.sptr ∨ m.zp.sptr + i = m.zp.sptr + 1 ∨ m.zp.sptr + i = m.zp.sptr + 2 := by
        rcases hi with rfl | rfl | rfl
        · left; simp
        · right; left; rfl
        · right; right; rfl
      rw [hb.sl m _ this, hb.sh m _ this]
    have st1 : ∀ i : B, i = 0 ∨ i = 1 ∨ i = 2 → m1.stkAt i = m.stkAt i := by
      intro i hi
      rw [← st i hi, M.stkAt, M.stkAt, gk.sl, gk.sh, gk.sptr]
    rw [st 0 (by simp), st 1 (by simp), st 2 (by simp), h0, h2, peek_enter, hb.var] at gx
    rw [st 0 (by simp), st 2 (by simp), h0, h2, peek_enter, hb.var] at gk
    have z : m.peek v + 0 = m.peek v := by simp
    rw [z] at gx gk
    have pk : m1.peek v = m.peek v := peek_upd2 m1 _ v _ gk.ram
    refine ih ((st1 0 (by simp)).trans h0) ((st1 2 (by simp)).trans h2) ?_ ?_
    · rw [st1 1 (by simp), pk]; exact hp
    · rw [gx, past, if_neg (by decide), decide_eq_false hp]; rfl

/-! ### A case: `FOR I=10 TO -5 STEP -7`, with a body that adds 1 to a byte of memory -/

def exFor : M :=
  { a := 0xF9, x := 0xFF, y := 0x20, c := false, z := false, n := false, v := false, stk := []
    zp := { tmp1 := 0, tmp1h := 0, tmp2 := 0, tmp2h := 0, tmp3 := 0, tmp3h := 0, dsign := 0, sptr := 0x20, saddr := 0, saddrh := 0,
            msrc := 0, msrch := 0, mdst := 0, mdsth := 0, mins := 0x88, arr := 0, arrh := 0, op1 := 0, op2 := 0, op3 := 0, tmp4 := 0, ioerr := 0,
            inb := 0, inbh := 0, cix := 0 }
    sl := fun i => if i = 0x20 then 0xFB else 0x00
    sh := fun i => if i = 0x20 then 0xFF else 0x60
    ram := fun w => if w = 0x6000 then 10 else 0 }

/-- Adds 1 to the byte at `$8000`. -/
def exBody (m : M) : M := { m with ram := upd m.ram 0x8000 (m.ram 0x8000 + 1) }

theorem exBody_keeps : BodyKeeps exBody 0x6000 :=
  ⟨fun _ => rfl, fun _ _ _ => rfl, fun _ _ _ => rfl, fun _ => rfl⟩

/-- The body runs for 10, 3 and -4. -/
example : ∃ m1 m', Halts cmpCode cmpCode.EXE_FOR exFor m1 ∧ ForLoop exBody 0x6000 m1 [10, 3, -4] m' ∧ m'.peek 0x6000 = -11 := by
  have hs : exFor.peek 0x6000 = 10 := rfl
  have ht : exFor.ax = -7 := rfl
  have hL : exFor.stkAt 0 = -5 := rfl
  obtain ⟨m1, m', h1, h2, _, h4, _⟩ := C11_for_loop exBody exFor rfl 0x6000 rfl exBody_keeps 3
    (by
      rw [hs, ht]; intro k hk
      have e : (10 : W).toInt = 10 := rfl
      have e' : (-7 : W).toInt = -7 := rfl
      rw [e, e']; omega)
    (by
      rw [hs, ht, hL]; intro k hk
      have e : (10 : W).toInt = 10 := rfl
      have e' : (-7 : W).toInt = -7 := rfl
      have e'' : (-5 : W).toInt = -5 := rfl
      rw [e, e', e'', Past, if_pos (by decide)]; omega)
    (by rw [hs, ht, hL, Past]; decide)
  exact ⟨m1, m', h1, h2, h4⟩

end FB
