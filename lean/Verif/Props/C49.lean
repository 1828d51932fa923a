import Verif.Rt.Plot
/-!
# C49: `PLOT` and `LOCATE` on the Atari 5200

The screen is a stream of bits, from the address in `SAVMSC`, with the top bit of each byte first; the pixels of `b` bits are one after the other in it, with 40 bytes for each row.
-/
namespace FB.Rt

/-- Specification: bit `k` of the screen at address `s`. -/
def scrBit (r : W → B) (s k : Nat) : Bool := (r (BitVec.ofNat 16 (s + k / 8))).getLsbD (7 - k % 8)

/-- Specification: place of the first bit of a pixel in the screen, when each pixel has `b` bits. -/
def pixBit (b row col : Nat) : Nat := 320 * row + b * col

theorem plot_bit (b S : Nat) (o : B) (c i : Nat) (hi : i < 8) :
    ((~~~ BitVec.ofNat 8 ((2 ^ b - 1) * 2 ^ S) &&& o) ||| BitVec.ofNat 8 (c % 2 ^ b * 2 ^ S)).getLsbD i = if S ≤ i ∧ i < S + b then c.testBit (i - S) else o.getLsbD i := by
  simp only [BitVec.getLsbD_or, BitVec.getLsbD_and, BitVec.getLsbD_not, BitVec.getLsbD_ofNat, Nat.testBit_mul_two_pow, Nat.testBit_two_pow_sub_one, Nat.testBit_mod_two_pow, hi, decide_true, Bool.true_and]
  by_cases h1 : S ≤ i
  · by_cases h2 : i < S + b
    · have h3 : i - S < b := by omega
      simp [h1, h2, h3]
    · have h3 : ¬ i - S < b := by omega
      simp [h1, h2, h3]
  · simp [h1]
theorem locate_bit (b S : Nat) (o : B) (i : Nat) (hb : S + b ≤ 8) :
    (BitVec.ofNat 8 ((o &&& BitVec.ofNat 8 ((2 ^ b - 1) * 2 ^ S)).toNat / 2 ^ S)).getLsbD i = (decide (i < b) && o.getLsbD (S + i)) := by
  rw [BitVec.getLsbD_ofNat, Nat.testBit_div_two_pow, BitVec.testBit_toNat]
  simp only [BitVec.getLsbD_and, BitVec.getLsbD_ofNat, Nat.testBit_mul_two_pow, Nat.testBit_two_pow_sub_one]
  by_cases h : i < b
  · have h1 : i < 8 := by omega
    have h2 : S + i < 8 := by omega
    simp [h, h1, h2, Nat.add_comm]
  · simp [h]

theorem pix_place {b : Nat} (hb : b = 1 ∨ b = 2 ∨ b = 4) (row col : Nat) :
    pixBit b row col / 8 = 40 * row + col / (8 / b) ∧ pixShift b col = 8 - b - pixBit b row col % 8 ∧ pixBit b row col % 8 + b ≤ 8 := by
  unfold pixBit pixShift
  rcases hb with rfl | rfl | rfl <;> omega

theorem gp_low {a : W} (h : 256 ≤ a.toNat) : a ∉ gpCells := by
  intro hin
  simp only [gpCells, gaCells, List.mem_cons, List.not_mem_nil, or_false] at hin
  rcases hin with rfl | rfl | rfl | rfl | rfl | rfl | rfl | rfl <;> simp at h

/-- `PLOT` in a mode of `b` bits for each pixel, for a column below 512 and a row that is below the top of the memory, ends, writes the low bits of `COLOR` to the bits of the pixel and leaves all
the other bits of the screen, all the rest of the memory but for eight cells of page zero, the integer stack and the other cells of the interpreter as they were; the cursor is the start of the next line. -/
theorem C49_plot {b : Nat} {m : M} (hm : GMode b m) (hs : 256 ≤ savmsc m) (hc : crsCol m < 512) (hr : savmsc m + 40 * crsRow m < 16384) :
    ∃ m', Halts grCode grCode.EXE_PLOT m m' ∧
      (∀ k, savmsc m + k / 8 < 65536 → scrBit m'.ram (savmsc m) k =
        if pixBit b (crsRow m) (crsCol m) ≤ k ∧ k < pixBit b (crsRow m) (crsCol m) + b then (m.ram gColor).toNat.testBit (pixBit b (crsRow m) (crsCol m) + b - 1 - k) else scrBit m.ram (savmsc m) k) ∧
      (∀ a, a ∉ gpCells → a.toNat < savmsc m ∨ 0x4100 ≤ a.toNat → m'.ram a = m.ram a) ∧
      m'.ram OLDROW = m.ram ROWCRS ∧ m'.ram OLDCOL = m.ram COLCRS ∧ m'.ram OLDCOL1 = m.ram COLCRS1 ∧ m'.gv = m.gv ∧ m'.stk = m.stk := by
  obtain ⟨m', m1, h, w1, v, t, z, o1, o2, o3, w⟩ := plot_ok hm hr
  obtain ⟨e1, e2, e3⟩ := pix_place hm.bits (crsRow m) (crsCol m)
  generalize hq : pixBit b (crsRow m) (crsCol m) = q at *
  rw [Nat.mod_eq_of_lt hc, Nat.add_assoc, ← e1, e2] at w
  have hcol : crsCol m / (8 / b) < 256 := by rcases hm.bits with rfl | rfl | rfl <;> omega
  have hlow : ∀ a : W, a.toNat < 256 → m'.ram a = m1.ram a := by
    intro a ha
    rw [w, upd_ne]
    intro e
    rw [e, BitVec.toNat_ofNat] at ha
    omega
  refine ⟨m', h, ?_, ?_, ?_, ?_, ?_, v, t⟩
  · intro k hk
    unfold scrBit
    have hn : BitVec.ofNat 16 (savmsc m + k / 8) ∉ gpCells := by
      refine gp_low ?_
      rw [BitVec.toNat_ofNat]; omega
    by_cases hb : k / 8 = q / 8
    · rw [w, hb, upd_at, plot_bit _ _ _ _ _ (by omega), w1 _ (by rw [← hb]; exact hn)]
      by_cases hin : q ≤ k ∧ k < q + b
      · rw [if_pos hin, if_pos (by omega)]
        congr 1
        omega
      · rw [if_neg hin, if_neg (by omega)]
    · rw [w, upd_ne, w1 _ hn, if_neg (by omega)]
      intro e
      have e' := congrArg BitVec.toNat e
      rw [BitVec.toNat_ofNat, BitVec.toNat_ofNat] at e'
      omega
  · intro a ha hlt
    rw [w, upd_ne, w1 a ha]
    intro e
    rw [e, BitVec.toNat_ofNat] at hlt
    omega
  · rw [hlow _ (by decide), o1]
  · rw [hlow _ (by decide), o2]
  · rw [hlow _ (by decide), o3]

/-- `PLOT` for a row above the top of the memory ends with error 18 and writes nothing to the screen, or to any other part of the memory but for the cells of page zero. -/
theorem C49_error {b : Nat} {m : M} (hm : GMode b m) (hr : 16384 ≤ savmsc m + 40 * crsRow m) (hr' : savmsc m + 40 * crsRow m < 65536) :
    ∃ m', Halts grCode grCode.EXE_PLOT m m' ∧ m'.zp.ioerr = 18#8 ∧ (∀ a, a ∉ gpCells → m'.ram a = m.ram a) ∧ m'.sl = m.sl ∧ m'.sh = m.sh ∧ m'.zp.sptr = m.zp.sptr ∧ m'.stk = m.stk := by
  obtain ⟨m', h, v, t, w⟩ := plot_err hm hr hr'
  simp only [M.gv, Prod.mk.injEq, Zp.mk.injEq] at v
  exact ⟨m', h, by simp [v], w, v.1, v.2.1, by simp [v], t⟩

/-- `LOCATE` returns the bits of the pixel, as a number below `2 ^ b`, and changes nothing but the cells of page zero. -/
theorem C49_locate {b : Nat} {m : M} (hm : GMode b m) (hs : 256 ≤ savmsc m) (hc : crsCol m < 512) (hr : savmsc m + 40 * crsRow m < 16384) :
    ∃ m', Halts grCode grCode.EXE_LOCATE m m' ∧ m'.x = 0#8 ∧ m'.a.toNat < 2 ^ b ∧
      (∀ j, j < b → m'.a.getLsbD j = scrBit m.ram (savmsc m) (pixBit b (crsRow m) (crsCol m) + b - 1 - j)) ∧
      (∀ a, a ∉ gpCells → m'.ram a = m.ram a) ∧ m'.gv = m.gv ∧ m'.stk = m.stk := by
  obtain ⟨m', m1, h, w1, w, v, t, x, -, -, -, e⟩ := locate_ok hm hr
  obtain ⟨e1, e2, e3⟩ := pix_place hm.bits (crsRow m) (crsCol m)
  generalize hq : pixBit b (crsRow m) (crsCol m) = q at *
  have hcol : crsCol m / (8 / b) < 256 := by rcases hm.bits with rfl | rfl | rfl <;> omega
  rw [Nat.mod_eq_of_lt hc, Nat.add_assoc, ← e1, e2] at e
  have hbit : ∀ j, m'.a.getLsbD j = (decide (j < b) && (m1.ram (BitVec.ofNat 16 (savmsc m + q / 8))).getLsbD (8 - b - q % 8 + j)) := by
    intro j
    rw [e, locate_bit _ _ _ _ (by omega)]
  refine ⟨m', h, x, ?_, ?_, fun a ha => by rw [w, w1 a ha], v, t⟩
  · apply Nat.lt_pow_two_of_testBit
    intro i hi
    rw [BitVec.testBit_toNat, hbit]
    simp [Nat.not_lt.2 hi]
  · intro j hj
    have hn : BitVec.ofNat 16 (savmsc m + q / 8) ∉ gpCells := by
      refine gp_low ?_
      rw [BitVec.toNat_ofNat]; omega
    have d1 : (q + b - 1 - j) / 8 = q / 8 := by omega
    have d2 : 7 - (q + b - 1 - j) % 8 = 8 - b - q % 8 + j := by omega
    rw [hbit, scrBit, d1, d2, w1 _ hn]
    simp [hj]

/-- `LOCATE` after `PLOT`, at the same place, returns the color. -/
theorem C49_round {b : Nat} {m m' m'' : M} (hm : GMode b m) (hs : 256 ≤ savmsc m) (hc : crsCol m < 512) (hr : savmsc m + 40 * crsRow m < 16384)
    (h1 : Halts grCode grCode.EXE_PLOT m m') (h2 : Halts grCode grCode.EXE_LOCATE m' m'') : m''.a.toNat = (m.ram gColor).toNat % 2 ^ b := by
  obtain ⟨p, hp, hb, hl, -⟩ := C49_plot hm hs hc hr
  cases hp.unique h1
  have hk : ∀ a : W, a ∈ [ROWCRS, COLCRS, COLCRS1, SAVMSC, SAVMSC1] → m'.ram a = m.ram a := by
    intro a ha
    simp only [List.mem_cons, List.not_mem_nil, or_false] at ha
    apply hl
    · rcases ha with rfl | rfl | rfl | rfl | rfl <;> decide
    · left
      rcases ha with rfl | rfl | rfl | rfl | rfl <;> (simp; omega)
  have es : savmsc m' = savmsc m := by unfold savmsc; rw [hk SAVMSC (by simp), hk SAVMSC1 (by simp)]
  have er : crsRow m' = crsRow m := by unfold crsRow; rw [hk ROWCRS (by simp)]
  have ec : crsCol m' = crsCol m := by unfold crsCol; rw [hk COLCRS (by simp), hk COLCRS1 (by simp)]
  have hd : ∀ a : W, a = DINDEX ∨ 45056 ≤ a.toNat → m'.ram a = m.ram a := by
    intro a ha
    rcases ha with rfl | ha
    · exact hl _ (by decide) (.inl (by simp; omega))
    · exact hl _ (gp_low (by omega)) (.inr (by omega))
  have hm' : GMode b m' := hm.of_same hd
  obtain ⟨p, hp, -, hlt, hbits, -⟩ := C49_locate hm' (by rw [es]; exact hs) (by rw [ec]; exact hc) (by rw [es, er]; exact hr)
  cases hp.unique h2
  apply Nat.eq_of_testBit_eq
  intro j
  obtain ⟨e1, e2, e3⟩ := pix_place hm.bits (crsRow m) (crsCol m)
  have hcol : crsCol m / (8 / b) < 256 := by rcases hm.bits with rfl | rfl | rfl <;> omega
  rw [Nat.testBit_mod_two_pow]
  by_cases hj : j < b
  · rw [BitVec.testBit_toNat, hbits j hj, es, er, ec, hb _ (by omega), if_pos (by omega)]
    simp only [hj, decide_true, Bool.true_and]
    congr 1
    omega
  · simp only [hj, decide_false, Bool.false_and]
    exact Nat.testBit_lt_two_pow (Nat.lt_of_lt_of_le hlt (Nat.pow_le_pow_right (by omega) (by omega)))

/-- A machine in the mode of 2 bits, with the screen at `$21F0`, the cursor at column 161 of row 3 and color 6. -/
def c49M : M where
  a := 0
  x := 0
  y := 0
  c := false
  z := false
  n := false
  v := false
  stk := []
  zp := { tmp1 := 0, tmp1h := 0, tmp2 := 0, tmp2h := 0, tmp3 := 0, tmp3h := 0, dsign := 0, sptr := 0, saddr := 0, saddrh := 0, msrc := 0, msrch := 0, mdst := 0, mdsth := 0, mins := 0, arr := 0, arrh := 0, op1 := 0, op2 := 0, op3 := 0, tmp4 := 0, ioerr := 0, inb := 0, inbh := 0, cix := 0 }
  sl := fun _ => 0
  sh := fun _ => 0
  ram := fun a => if a = 0xB000#16 then 3#8 else if a = 0xB010#16 then 2#8 else if a = SAVMSC then 0xF0#8 else if a = SAVMSC1 then 0x21#8 else if a = ROWCRS then 3#8 else if a = COLCRS then 161#8
    else if a = gColor then 6#8 else if a = 0x2290#16 then 0xFF#8 else 0#8

theorem c49M_mode : GMode 2 c49M := ⟨0#8, rfl, by simp, rfl, rfl⟩

/-- The cursor is on the pixel with bits 1282 and 1283 of the screen; the color 6 is 2 in two bits, so these get the values 1 and 0, and the two bits before stay as they were. -/
example : ∃ m', Halts grCode grCode.EXE_PLOT c49M m' ∧ scrBit m'.ram 0x21F0 1281 = true ∧ scrBit m'.ram 0x21F0 1282 = true ∧ scrBit m'.ram 0x21F0 1283 = false := by
  have h1 : savmsc c49M = 0x21F0 := rfl
  have h2 : crsRow c49M = 3 := rfl
  have h3 : crsCol c49M = 161 := rfl
  obtain ⟨m', h, hb, -⟩ := C49_plot c49M_mode (by rw [h1]; omega) (by rw [h3]; omega) (by rw [h1, h2]; omega)
  rw [h1, h2, h3] at hb
  refine ⟨m', h, ?_, ?_, ?_⟩
  · rw [hb _ (by omega)]; rfl
  · rw [hb _ (by omega)]; rfl
  · rw [hb _ (by omega)]; rfl

end FB.Rt
