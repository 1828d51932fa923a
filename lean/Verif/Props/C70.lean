import Verif.Rt.SinCos
import Mathlib.Tactic.IntervalCases
/-!
# C70: the quadrant of `SIN` and `COS`, and the index of the arrays of floating point
-/
namespace FB.Rt

/-! ## Specification -/

/-- Specification: the value of a byte with two decimal digits. -/
def bcdVal (b : B) : Nat := 10 * (b.toNat / 16) + b.toNat % 16

/-- Specification: the number with these pairs of digits. -/
def bcdNum (l : List B) : Nat := l.foldl (fun n b => 100 * n + bcdVal b) 0

theorem bcdNum_mod (l : List B) (b : B) : bcdNum (l ++ [b]) % 4 = bcdVal b % 4 := by
  simp only [bcdNum, List.foldl_append, List.foldl_cons, List.foldl_nil]
  omega

/-! ## Arrays -/

theorem mul6_a (a x : Nat) (ha : a < 256) (hx : x < 256) :
    (2 * a % 256 + a + x / 128) % 256 + 256 * ((x + (2 * x + a / 128) % 256 + (2 * a % 256 + a + x / 128) / 256) % 256) = (3 * (a + 256 * x) + x / 128) % 65536 := by
  have g : ∀ s y : Nat, s % 256 + 256 * ((y + s / 256) % 256) = (s + 256 * y) % 65536 := by intro s y; omega
  rw [g, ← Nat.add_mul_mod_self_left (2 * a % 256 + a + x / 128 + 256 * (x + (2 * x + a / 128) % 256)) 65536 (x / 128)]
  congr 1
  omega

theorem mul6_b (s h : Nat) (hs : s < 256) (hh : h < 256) : 2 * s % 256 + 256 * ((2 * h + s / 128) % 256) = 2 * (s + 256 * h) % 65536 := by
  omega

/-- **C70, the index times 6**: right below 32768, and 2 more from it (finding 34). -/
theorem C70_mul6 (m : M) : ∃ m', Halts scCode scCode.EXE_MUL6 m m' ∧ m'.ax.toNat = (6 * m.ax.toNat + if m.ax.toNat < 32768 then 0 else 2) % 65536 ∧ m'.ram = m.ram ∧ m'.stk = m.stk := by
  refine ⟨?_, ⟨13, ?_⟩, ?_⟩
  rotate_left
  · rt_exec [scCode.EXE_MUL6.eq]
    rfl
  · refine ⟨?_, rfl, rfl⟩
    have := m.a.isLt; have := m.x.isLt
    simp only [M.ax, word_toNat, add8_toNat, addC_toNat, rol8_toNat, topBit_toNat, Bool.toNat_false]
    simp only [Nat.add_zero]
    rw [mul6_b _ _ (Nat.mod_lt _ (by decide)) (Nat.mod_lt _ (by decide)), mul6_a _ _ m.a.isLt m.x.isLt]
    rw [Nat.mul_mod, Nat.mod_mod, ← Nat.mul_mod]
    congr 1
    split <;> omega

/-! ## Quadrants -/

/-- **C70, the first quadrant**: 0 for `SIN` of a positive number, 2 for a negative one, 1 for `COS`; the argument is divided by the constant of the mode. -/
theorem C70_sin (m : M) : ∃ m', Halts scCode scCode.sc_SIN m m' ∧ m'.zp = { m.zp with tmp2 := if topBit (m.ram 0xD4) then 2 else 0 } ∧ word m'.x m'.y = (if m.ram 0xB1 = 0 then 0x2F10 else 0x2F16) ∧
    m'.ram = m.ram ∧ m'.stk = .ret (.lb "sc_0" :: scCode.sc_0) :: m.stk := by
  by_cases h : m.ram 0xB1#16 = 0#8 <;> cases t : topBit (m.ram 0xD4#16)
  · refine ⟨?_, ⟨13, ?_⟩, ?_⟩
    rotate_left
    · rt_exec [scCode.sc_SIN.eq, scCode.SINCOS.eq, scCode.sc_rad.eq, scCode.sc_FLD1R.eq, h, t]
      rfl
    · exact ⟨by simp, by simp [word, h], rfl, rfl⟩
  · refine ⟨?_, ⟨11, ?_⟩, ?_⟩
    rotate_left
    · rt_exec [scCode.sc_SIN.eq, scCode.SINCOS.eq, scCode.sc_rad.eq, scCode.sc_FLD1R.eq, h, t]
      rfl
    · exact ⟨by simp, by simp [word, h], rfl, rfl⟩
  · refine ⟨?_, ⟨14, ?_⟩, ?_⟩
    rotate_left
    · rt_exec [scCode.sc_SIN.eq, scCode.SINCOS.eq, scCode.sc_rad.eq, scCode.sc_FLD1R.eq, h, t]
      rfl
    · exact ⟨by simp, by simp [word, h], rfl, rfl⟩
  · refine ⟨?_, ⟨12, ?_⟩, ?_⟩
    rotate_left
    · rt_exec [scCode.sc_SIN.eq, scCode.SINCOS.eq, scCode.sc_rad.eq, scCode.sc_FLD1R.eq, h, t]
      rfl
    · exact ⟨by simp, by simp [word, h], rfl, rfl⟩

theorem C70_cos (m : M) : ∃ m', Halts scCode scCode.sc_COS m m' ∧ m'.zp = { m.zp with tmp2 := 1 } ∧ word m'.x m'.y = (if m.ram 0xB1 = 0 then 0x2F10 else 0x2F16) ∧
    m'.ram = m.ram ∧ m'.stk = .ret (.lb "sc_0" :: scCode.sc_0) :: m.stk := by
  by_cases h : m.ram 0xB1#16 = 0#8
  · refine ⟨?_, ⟨10, ?_⟩, ?_⟩
    rotate_left
    · rt_exec [scCode.sc_COS.eq, scCode.SINCOS.eq, scCode.sc_rad.eq, scCode.sc_FLD1R.eq, h]
      rfl
    · exact ⟨rfl, by simp [word, h], rfl, rfl⟩
  · refine ⟨?_, ⟨11, ?_⟩, ?_⟩
    rotate_left
    · rt_exec [scCode.sc_COS.eq, scCode.SINCOS.eq, scCode.sc_rad.eq, scCode.sc_FLD1R.eq, h]
      rfl
    · exact ⟨rfl, by simp [word, h], rfl, rfl⟩

/-- **C70, the quadrant**: for a quotient with decimal digits and an integer part below 10^10 (its bytes are `FR0+1` to `FR0+1+e`), the quadrant is the first one plus the integer part, modulo 4, and these bytes are 0. -/
theorem C70_quadrant (m : M) (hc : m.c = false) (e : Nat) (he : e < 5) (hf : m.ram 0xD4 &&& 0x7F = BitVec.ofNat 8 (0x40 + e))
    (hd : (m.ram (0xD5 + BitVec.ofNat 16 e)).toNat < 0xA0) (hq : m.zp.tmp2.toNat ≤ 2) :
    ∃ m', Reach scCode scCode.sc_1 m scCode.sc_2 m' ∧
      m'.zp.tmp2.toNat % 4 = (m.zp.tmp2.toNat + bcdNum ((List.range (e + 1)).map fun i => m.ram (0xD5 + BitVec.ofNat 16 i))) % 4 ∧
      (∀ a, m'.ram a = if a = 0xD4#16 then BitVec.ofNat 8 (0x40 + e) else if 0xD5 ≤ a.toNat ∧ a.toNat ≤ 0xD5 + e then 0#8 else m.ram a) ∧ m'.stk = m.stk := by
  have k : ∀ t : B, (m.ram (0xD5 + BitVec.ofNat 16 e)) &&& 0x10 = t → t = 0 ∨ t = 0x10 → ∃ m', Reach scCode scCode.sc_1 m scCode.sc_2 m' ∧
      m'.zp.tmp2 = add8 (add8 (if t = 0 then 0 else 2) m.zp.tmp2 false) (m.ram (0xD5 + BitVec.ofNat 16 e)) false ∧
      (∀ a, m'.ram a = if a = 0xD4#16 then BitVec.ofNat 8 (0x40 + e) else if 0xD5 ≤ a.toNat ∧ a.toNat ≤ 0xD5 + e then 0#8 else m.ram a) ∧ m'.stk = m.stk := by
    intro t ht h
    have f2 : add8 63#8 192#8 true = 0#8 := rfl
    have f3 : ror8 0#8 false = 0#8 := rfl
    have f4 : ror8 16#8 false = 8#8 := rfl
    have f5 : ror8 8#8 false = 4#8 := rfl
    have f6 : ror8 4#8 false = 2#8 := rfl
    have f7 : addC 0#8 m.zp.tmp2 false = false := by unfold addC; simp; omega
    have f8 : addC 2#8 m.zp.tmp2 false = false := by unfold addC; simp; omega
    have l0 : lowBit 0#8 = false := rfl
    have l2 : lowBit 2#8 = false := rfl
    have l4 : lowBit 4#8 = false := rfl
    have l8 : lowBit 8#8 = false := rfl
    have l16 : lowBit 16#8 = false := rfl
    interval_cases e
    · have g0 : addC 64#8 191#8 true = true := rfl
      have g1 : addC 64#8 186#8 true = false := rfl
      simp at hf ht
      rcases h with rfl | rfl
      · refine ⟨?_, ⟨24, ?_⟩, ?_⟩
        rotate_left
        · rt_exec [scCode.sc_1.eq, scCode.sc_clr.eq, hc, hf, idx, ht, upd_app, g0, g1, f2, f3, f4, f5, f6, f7, f8, l0, l2, l4, l8, l16]
          rfl
        · refine ⟨by simp, ?_, rfl⟩
          intro a
          simp only [upd, ← BitVec.toNat_inj (x := a)]
          simp only [BitVec.toNat_ofNat]
          split_ifs <;> first | rfl | omega
      · refine ⟨?_, ⟨24, ?_⟩, ?_⟩
        rotate_left
        · rt_exec [scCode.sc_1.eq, scCode.sc_clr.eq, hc, hf, idx, ht, upd_app, g0, g1, f2, f3, f4, f5, f6, f7, f8, l0, l2, l4, l8, l16]
          rfl
        · refine ⟨by simp, ?_, rfl⟩
          intro a
          simp only [upd, ← BitVec.toNat_inj (x := a)]
          simp only [BitVec.toNat_ofNat]
          split_ifs <;> first | rfl | omega
    · have g0 : addC 65#8 191#8 true = true := rfl
      have g1 : addC 65#8 186#8 true = false := rfl
      simp at hf ht
      rcases h with rfl | rfl
      · refine ⟨?_, ⟨28, ?_⟩, ?_⟩
        rotate_left
        · rt_exec [scCode.sc_1.eq, scCode.sc_clr.eq, hc, hf, idx, ht, upd_app, g0, g1, f2, f3, f4, f5, f6, f7, f8, l0, l2, l4, l8, l16]
          rfl
        · refine ⟨by simp, ?_, rfl⟩
          intro a
          simp only [upd, ← BitVec.toNat_inj (x := a)]
          simp only [BitVec.toNat_ofNat]
          split_ifs <;> first | rfl | omega
      · refine ⟨?_, ⟨28, ?_⟩, ?_⟩
        rotate_left
        · rt_exec [scCode.sc_1.eq, scCode.sc_clr.eq, hc, hf, idx, ht, upd_app, g0, g1, f2, f3, f4, f5, f6, f7, f8, l0, l2, l4, l8, l16]
          rfl
        · refine ⟨by simp, ?_, rfl⟩
          intro a
          simp only [upd, ← BitVec.toNat_inj (x := a)]
          simp only [BitVec.toNat_ofNat]
          split_ifs <;> first | rfl | omega
    · have g0 : addC 66#8 191#8 true = true := rfl
      have g1 : addC 66#8 186#8 true = false := rfl
      simp at hf ht
      rcases h with rfl | rfl
      · refine ⟨?_, ⟨32, ?_⟩, ?_⟩
        rotate_left
        · rt_exec [scCode.sc_1.eq, scCode.sc_clr.eq, hc, hf, idx, ht, upd_app, g0, g1, f2, f3, f4, f5, f6, f7, f8, l0, l2, l4, l8, l16]
          rfl
        · refine ⟨by simp, ?_, rfl⟩
          intro a
          simp only [upd, ← BitVec.toNat_inj (x := a)]
          simp only [BitVec.toNat_ofNat]
          split_ifs <;> first | rfl | omega
      · refine ⟨?_, ⟨32, ?_⟩, ?_⟩
        rotate_left
        · rt_exec [scCode.sc_1.eq, scCode.sc_clr.eq, hc, hf, idx, ht, upd_app, g0, g1, f2, f3, f4, f5, f6, f7, f8, l0, l2, l4, l8, l16]
          rfl
        · refine ⟨by simp, ?_, rfl⟩
          intro a
          simp only [upd, ← BitVec.toNat_inj (x := a)]
          simp only [BitVec.toNat_ofNat]
          split_ifs <;> first | rfl | omega
    · have g0 : addC 67#8 191#8 true = true := rfl
      have g1 : addC 67#8 186#8 true = false := rfl
      simp at hf ht
      rcases h with rfl | rfl
      · refine ⟨?_, ⟨36, ?_⟩, ?_⟩
        rotate_left
        · rt_exec [scCode.sc_1.eq, scCode.sc_clr.eq, hc, hf, idx, ht, upd_app, g0, g1, f2, f3, f4, f5, f6, f7, f8, l0, l2, l4, l8, l16]
          rfl
        · refine ⟨by simp, ?_, rfl⟩
          intro a
          simp only [upd, ← BitVec.toNat_inj (x := a)]
          simp only [BitVec.toNat_ofNat]
          split_ifs <;> first | rfl | omega
      · refine ⟨?_, ⟨36, ?_⟩, ?_⟩
        rotate_left
        · rt_exec [scCode.sc_1.eq, scCode.sc_clr.eq, hc, hf, idx, ht, upd_app, g0, g1, f2, f3, f4, f5, f6, f7, f8, l0, l2, l4, l8, l16]
          rfl
        · refine ⟨by simp, ?_, rfl⟩
          intro a
          simp only [upd, ← BitVec.toNat_inj (x := a)]
          simp only [BitVec.toNat_ofNat]
          split_ifs <;> first | rfl | omega
    · have g0 : addC 68#8 191#8 true = true := rfl
      have g1 : addC 68#8 186#8 true = false := rfl
      simp at hf ht
      rcases h with rfl | rfl
      · refine ⟨?_, ⟨40, ?_⟩, ?_⟩
        rotate_left
        · rt_exec [scCode.sc_1.eq, scCode.sc_clr.eq, hc, hf, idx, ht, upd_app, g0, g1, f2, f3, f4, f5, f6, f7, f8, l0, l2, l4, l8, l16]
          rfl
        · refine ⟨by simp, ?_, rfl⟩
          intro a
          simp only [upd, ← BitVec.toNat_inj (x := a)]
          simp only [BitVec.toNat_ofNat]
          split_ifs <;> first | rfl | omega
      · refine ⟨?_, ⟨40, ?_⟩, ?_⟩
        rotate_left
        · rt_exec [scCode.sc_1.eq, scCode.sc_clr.eq, hc, hf, idx, ht, upd_app, g0, g1, f2, f3, f4, f5, f6, f7, f8, l0, l2, l4, l8, l16]
          rfl
        · refine ⟨by simp, ?_, rfl⟩
          intro a
          simp only [upd, ← BitVec.toNat_inj (x := a)]
          simp only [BitVec.toNat_ofNat]
          split_ifs <;> first | rfl | omega
  have tb : ∀ b : B, (b &&& 0x10 = 0 ∧ b.toNat / 16 % 2 = 0) ∨ (b &&& 0x10 = 0x10 ∧ b.toNat / 16 % 2 = 1) := by decide +kernel
  have e1 : bcdNum ((List.range (e + 1)).map fun i => m.ram (0xD5 + BitVec.ofNat 16 i)) % 4 = bcdVal (m.ram (0xD5 + BitVec.ofNat 16 e)) % 4 := by
    rw [List.range_succ, List.map_append, List.map_singleton, bcdNum_mod]
  obtain ⟨m', r, t, w, s⟩ := k _ rfl ((tb _).imp And.left And.left)
  refine ⟨m', r, ?_, w, s⟩
  rw [Nat.add_mod, e1, t]
  unfold bcdVal
  generalize m.ram (0xD5 + BitVec.ofNat 16 e) = b at hd ⊢
  rcases tb b with ⟨h, o⟩ | ⟨h, o⟩ <;> rw [h] <;> simp only [add8_toNat, Bool.toNat_false] <;> simp <;> omega

/-- A failed division goes to the error with the carry set. -/
theorem C70_error (m : M) (h : m.c = true) : ∃ m', Reach scCode scCode.sc_1 m scCode.sc_exit m' ∧ m'.c = true ∧ m'.ram = m.ram := by
  refine ⟨?_, ⟨1, ?_⟩, ?_⟩
  rotate_left
  · rt_exec [scCode.sc_1.eq, h]
    rfl
  · exact ⟨h, rfl⟩

/-- **C70, the mirror**: in the odd quadrants 1 minus the number is used (`FMOVE`, 1, `FSUB`), in the even ones the number; the bit of the sign stays in `tmp2`. -/
theorem C70_mirror (m : M) :
    ∃ m', Halts scCode (.lb "sc_less" :: scCode.sc_less) m m' ∧ m'.zp.tmp2.toNat = m.zp.tmp2.toNat / 2 ∧ m'.ram = m.ram ∧
      (if m.zp.tmp2.toNat % 2 = 1 then m'.stk = .ret (.lb "sc_3" :: scCode.sc_3) :: m.stk
       else m'.stk = .ret (.lb "sc_5" :: scCode.sc_5) :: m.stk ∧ m'.a = 5 ∧ word m'.x m'.y = 0x2F1C) := by
  have lb : ∀ b : B, lowBit b = decide (b.toNat % 2 = 1) ∧ (ror8 b false).toNat = b.toNat / 2 := by decide +kernel
  obtain ⟨l, r⟩ := lb m.zp.tmp2
  by_cases h : m.zp.tmp2.toNat % 2 = 1
  · simp only [h, decide_true] at l
    refine ⟨?_, ⟨5, ?_⟩, ?_⟩
    rotate_left
    · rt_exec [scCode.sc_less.eq, scCode.sc_FMOVE.eq, l]
      rfl
    · exact ⟨r, rfl, by rw [if_pos h]⟩
  · simp only [h, decide_false] at l
    refine ⟨?_, ⟨8, ?_⟩, ?_⟩
    rotate_left
    · rt_exec [scCode.sc_less.eq, scCode.sc_poly.eq, scCode.sc_EVAL.eq, l]
      rfl
    · exact ⟨r, rfl, by rw [if_neg h]; exact ⟨rfl, rfl, by simp [word]⟩⟩

/-- **C70, the sign**: a result that is not 0 gets the sign of the half of the circle, and the carry is clear. -/
theorem C70_sign (m : M) (h0 : rol8 (m.ram 0xD4#16) false ≠ 0#8) (ht : (m.ram 0xD4#16).toNat < 128) :
    ∃ m', Reach scCode (.lb "sc_5" :: scCode.sc_5) m scCode.sc_exit m' ∧
      (m'.ram 0xD4#16).toNat = (m.ram 0xD4#16).toNat + (if m.zp.tmp2.toNat % 2 = 1 then 128 else 0) ∧ m'.c = false ∧ ∀ a, a ≠ 0xD4#16 → m'.ram a = m.ram a := by
  have lb : ∀ b : B, lowBit b = decide (b.toNat % 2 = 1) := by decide +kernel
  have ev : ∀ b : B, lowBit (rol8 b false) = false := by decide +kernel
  have rr : ∀ b : B, b.toNat < 128 → (ror8 (rol8 b false) true).toNat = b.toNat + 128 ∧ (ror8 (rol8 b false) false).toNat = b.toNat := by decide +kernel
  refine ⟨?_, ⟨6, ?_⟩, ?_⟩
  rotate_left
  · rt_exec [scCode.sc_5.eq, upd_app, h0, ev]
    rfl
  · refine ⟨?_, by simp [ev], ?_⟩
    · have l := lb m.zp.tmp2
      by_cases h : m.zp.tmp2.toNat % 2 = 1
      · simp only [h, decide_true] at l
        simp only [upd_app, l, h, if_true]
        exact (rr _ ht).1
      · simp only [h, decide_false] at l
        simp only [upd_app, l, h, if_true, if_false]
        exact (rr _ ht).2
    · intro a ha; simp [upd_app, ha]

/-! ## Examples -/

/-- An array with the index 1000, and the index 40000. -/
example (m : M) (h : m.ax.toNat = 1000) : ∃ m', Halts scCode scCode.EXE_MUL6 m m' ∧ m'.ax.toNat = 6000 := by
  obtain ⟨m', r, e, -⟩ := C70_mul6 m
  exact ⟨m', r, by rw [e, h]; rfl⟩

example (m : M) (h : m.ax.toNat = 40000) : ∃ m', Halts scCode scCode.EXE_MUL6 m m' ∧ m'.ax.toNat = 6 * 40000 % 65536 + 2 := by
  obtain ⟨m', r, e, -⟩ := C70_mul6 m
  exact ⟨m', r, by rw [e, h]; rfl⟩

/-- `COS` with a quotient of 1234.5 (`41 12 34 50`): the quadrant is 1 + 1234 modulo 4. -/
example (m : M) (hc : m.c = false) (hq : m.zp.tmp2 = 1) (hm : m.ram = upd (upd (upd (upd (fun _ => 0) 0xD4 0x41) 0xD5 0x12) 0xD6 0x34) 0xD7 0x50) :
    ∃ m', Reach scCode scCode.sc_1 m scCode.sc_2 m' ∧ m'.zp.tmp2.toNat % 4 = (1 + 1234) % 4 ∧ m'.ram 0xD6 = 0 ∧ m'.ram 0xD7 = 0x50 := by
  obtain ⟨m', r, q, w, -⟩ := C70_quadrant m hc 1 (by omega) (by rw [hm]; simp [upd]) (by rw [hm]; simp [upd]) (by rw [hq]; decide)
  refine ⟨m', r, ?_, by rw [w]; simp, by rw [w, hm]; simp [upd]⟩
  rw [q, hm, hq]; simp [upd, bcdNum, bcdVal, List.range_succ]

/-- The result `$3F` of the polynomial in the second half of the circle is `$BF`. -/
example (m : M) (hm : m.ram = upd (fun _ => 0) 0xD4#16 0x3F) (hq : m.zp.tmp2 = 1) :
    ∃ m', Reach scCode (.lb "sc_5" :: scCode.sc_5) m scCode.sc_exit m' ∧ (m'.ram 0xD4#16).toNat = 0xBF := by
  have e : m.ram 0xD4#16 = 0x3F#8 := by rw [hm]; simp [upd]
  obtain ⟨m', r, v, -⟩ := C70_sign m (by rw [e]; decide) (by rw [e]; decide)
  exact ⟨m', r, by rw [v, e, hq]; rfl⟩

end FB.Rt
