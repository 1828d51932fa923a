import Verif.Rt.Vbi52
/-!
# C65: controllers and keypads of the Atari 5200
-/
namespace FB.Rt

/-! ## Specification -/

/-- Specification: the value of `STICK` for the horizontal and vertical positions of a controller, that are 114 in the center: 15, less 1 (up), 2 (down), 4 (left) and 8 (right) if the controller is more than 40 away (or exactly 40 for down and right). -/
def stickOf (h v : B) : Nat := 15 - (if v.toNat < 74 then 1 else if 154 ≤ v.toNat then 2 else 0) - (if h.toNat < 74 then 4 else if 154 ≤ h.toNat then 8 else 0)

/-- Specification: bit 3 of the byte. -/
def bit3 (b : B) : Nat := b.toNat / 8 % 2

/-- Specification: after the interruption with the keypad `k` selected. -/
structure VbiOk (m m' : M) (k : Nat) : Prop where
  stick : ∀ i < 4, (m'.ram (vbStick + BitVec.ofNat 16 i)).toNat = stickOf (m.ram (vbPaddl + BitVec.ofNat 16 (2 * i))) (m.ram (vbPaddl + BitVec.ofNat 16 (2 * i + 1)))
  trig : ∀ i < 4, m'.ram (vbStrig + BitVec.ofNat 16 i) = m.ram (vbTrig + BitVec.ofNat 16 i)
  old : m'.ram (vbOld + BitVec.ofNat 16 k) = m.ram (vbNew + BitVec.ofNat 16 k)
  key : m.ram (vbNew + BitVec.ofNat 16 k) ≠ m.ram (vbOld + BitVec.ofNat 16 k) → m.ram (vbNew + BitVec.ofNat 16 k) ≠ 255 →
    m'.ram (vbCH0 + BitVec.ofNat 16 k) = m.ram (vbNew + BitVec.ofNat 16 k) ∧ m'.ram vbCH = BitVec.ofNat 8 (16 * k) ||| m.ram (vbNew + BitVec.ofNat 16 k)
  nokey : (m.ram (vbNew + BitVec.ofNat 16 k) = m.ram (vbOld + BitVec.ofNat 16 k) ∨ m.ram (vbNew + BitVec.ofNat 16 k) = 255) →
    m'.ram (vbCH0 + BitVec.ofNat 16 k) = m.ram (vbCH0 + BitVec.ofNat 16 k) ∧ m'.ram vbCH = m.ram vbCH
  button : (m'.ram (vbStrigB + BitVec.ofNat 16 k)).toNat = bit3 (m.ram vbSkstat)
  next : m'.ram vbCurr = BitVec.ofNat 8 ((k + 1) % 4) ∧ m'.ram (vbNew + BitVec.ofNat 16 ((k + 1) % 4)) = 255 ∧ m'.ram vbConsol = BitVec.ofNat 8 (4 + (k + 1) % 4)
  prior : m'.ram vbPrior = m.ram vbGprior
  rest : ∀ a : W, (∀ i < 4, a ≠ vbStick + BitVec.ofNat 16 i ∧ a ≠ vbStrig + BitVec.ofNat 16 i) → a ∉ [vbColrsh, vbSkctl, vbIrqen, vbConsol, vbPrior, vbCurr, vbCH, vbStrigB + BitVec.ofNat 16 k, vbOld + BitVec.ofNat 16 k, vbCH0 + BitVec.ofNat 16 k, vbNew + BitVec.ofNat 16 ((k + 1) % 4)] →
    m'.ram a = m.ram a
  stk : m'.stk = m.stk
  zp : m'.zp = m.zp
  sl : m'.sl = m.sl
  sh : m'.sh = m.sh

/-! ## The controllers -/

/-- The value that the code computes. -/
def stickCode (h v : B) : B := rol8 (rol8 (rol8 (rol8 0#8 (addC h 101#8 true)) (addC h 181#8 true)) (addC v 101#8 true)) (addC v 181#8 true) ^^^ 10#8

theorem stick_ok (h v : B) : (stickCode h v).toNat = stickOf h v := by
  have e1 : ∀ b : B, addC b 101#8 true = decide (154 ≤ b.toNat) := by decide +kernel
  have e2 : ∀ b : B, addC b 181#8 true = decide (74 ≤ b.toNat) := by decide +kernel
  have key : ∀ a b c d : Bool, (rol8 (rol8 (rol8 (rol8 0#8 a) b) c) d ^^^ 10#8).toNat = 15 - (if d then (if c then 2 else 0) else (if c then 3 else 1)) - (if b then (if a then 8 else 0) else (if a then 12 else 4)) := by decide
  rw [stickCode, e1, e2, e1, e2, key, stickOf]
  simp only [decide_eq_true_eq]
  (repeat' split) <;> omega

/-- One controller: `Y` is `2 * i`. -/
theorem vb_one (m : M) (i : Nat) (hi : i < 4) (hy : m.y = BitVec.ofNat 8 (2 * i)) :
    ∃ m', Reach vbCode vbCode.vb_stick m (if i = 0 then .lb "vb_key" :: vbCode.vb_key else vbCode.vb_stick) m' ∧ m'.y = BitVec.ofNat 8 (2 * i) - 2#8 ∧
      m'.ram = upd (upd m.ram (vbStick + BitVec.ofNat 16 i) (stickCode (m.ram (vbPaddl + BitVec.ofNat 16 (2 * i))) (m.ram (vbPaddl + BitVec.ofNat 16 (2 * i + 1))))) (vbStrig + BitVec.ofNat 16 i) (m.ram (vbTrig + BitVec.ofNat 16 i)) ∧
      m'.stk = m.stk ∧ m'.zp = m.zp ∧ m'.sl = m.sl ∧ m'.sh = m.sh := by
  have l6 : ror8 6#8 false = 3#8 := rfl
  have l4 : ror8 4#8 false = 2#8 := rfl
  have l2 : ror8 2#8 false = 1#8 := rfl
  have l0 : ror8 0#8 false = 0#8 := rfl
  have t4 : topBit 4#8 = false := rfl
  have t2 : topBit 2#8 = false := rfl
  have t254 : topBit 254#8 = true := rfl
  rcases (by omega : i = 3 ∨ i = 2 ∨ i = 1 ∨ i = 0) with rfl | rfl | rfl | rfl
  all_goals
    simp at hy
    refine ⟨?_, ⟨23, ?_⟩, ?_⟩
    rotate_left
    · rt_exec [vbCode.vb_stick.eq, hy, idx, upd_app, l6, l4, l2, l0, t4, t2, t254]
      rfl
    · exact ⟨rfl, rfl, rfl, rfl, rfl, rfl⟩

/-! ## The keypads -/

/-- The value of the second button that the code computes. -/
def buttonCode (b : B) : B := ror8 (ror8 (ror8 b false) false) false &&& 1#8

theorem button_ok (b : B) : (buttonCode b).toNat = bit3 b := by revert b; decide +kernel

/-- The memory after the part of the keypads. -/
def keyRam (r : W → B) (k : Nat) : W → B :=
  let new := r (vbNew + BitVec.ofNat 16 k)
  let r1 := upd (upd r vbPrior (r vbGprior)) (vbOld + BitVec.ofNat 16 k) new
  let r2 := if new ≠ r (vbOld + BitVec.ofNat 16 k) ∧ new ≠ 255#8 then upd (upd r1 (vbCH0 + BitVec.ofNat 16 k) new) vbCH (BitVec.ofNat 8 (16 * k) ||| new) else r1
  upd (upd (upd (upd (upd (upd r2 (vbStrigB + BitVec.ofNat 16 k) (buttonCode (r vbSkstat))) vbCurr (BitVec.ofNat 8 ((k + 1) % 4))) vbConsol (BitVec.ofNat 8 (4 + (k + 1) % 4))) (vbNew + BitVec.ofNat 16 ((k + 1) % 4)) 255#8) vbIrqen 0x40#8) vbSkctl 2#8

theorem vb_keys (m : M) (k : Nat) (hk : k < 4) (hc : m.ram vbCurr = BitVec.ofNat 8 k) :
    ∃ m', Halts vbCode (.lb "vb_key" :: vbCode.vb_key) m m' ∧ m'.ram = keyRam m.ram k ∧ m'.stk = m.stk ∧ m'.zp = m.zp ∧ m'.sl = m.sl ∧ m'.sh = m.sh := by
  have r0 : rol8 0#8 false = 0#8 := rfl
  have r1 : rol8 1#8 false = 2#8 := rfl
  have r2 : rol8 2#8 false = 4#8 := rfl
  have r3 : rol8 3#8 false = 6#8 := rfl
  have r4 : rol8 4#8 false = 8#8 := rfl
  have r6 : rol8 6#8 false = 12#8 := rfl
  have r8 : rol8 8#8 false = 16#8 := rfl
  have r12 : rol8 12#8 false = 24#8 := rfl
  have r16 : rol8 16#8 false = 32#8 := rfl
  have r24 : rol8 24#8 false = 48#8 := rfl
  by_cases h1 : m.ram (vbNew + BitVec.ofNat 16 k) = m.ram (vbOld + BitVec.ofNat 16 k)
  · have hr : ¬ (m.ram (vbNew + BitVec.ofNat 16 k) ≠ m.ram (vbOld + BitVec.ofNat 16 k) ∧ m.ram (vbNew + BitVec.ofNat 16 k) ≠ 255#8) := fun h => h.1 h1
    simp only [keyRam, if_neg hr]
    rcases (by omega : k = 0 ∨ k = 1 ∨ k = 2 ∨ k = 3) with rfl | rfl | rfl | rfl
    all_goals
      simp at hc h1
      refine ⟨?_, ⟨28, ?_⟩, ?_⟩
      rotate_left
      · rt_exec [vbCode.vb_key.eq, vbCode.vb_same.eq, hc, idx, upd_app, h1]
        rfl
      · refine ⟨?_, rfl, rfl, rfl, rfl⟩
        simp [buttonCode, h1]
  · have s1 : ¬ m.ram (vbNew + BitVec.ofNat 16 k) - m.ram (vbOld + BitVec.ofNat 16 k) = 0#8 := fun h => h1 (by
      have := congrArg (· + m.ram (vbOld + BitVec.ofNat 16 k)) h
      simpa [BitVec.sub_add_cancel] using this)
    by_cases h2 : m.ram (vbNew + BitVec.ofNat 16 k) = 255#8
    · have hr : ¬ (m.ram (vbNew + BitVec.ofNat 16 k) ≠ m.ram (vbOld + BitVec.ofNat 16 k) ∧ m.ram (vbNew + BitVec.ofNat 16 k) ≠ 255#8) := fun h => h.2 h2
      simp only [keyRam, if_neg hr]
      rcases (by omega : k = 0 ∨ k = 1 ∨ k = 2 ∨ k = 3) with rfl | rfl | rfl | rfl
      all_goals
        simp at hc h2
        simp [h2] at s1
        refine ⟨?_, ⟨30, ?_⟩, ?_⟩
        rotate_left
        · rt_exec [vbCode.vb_key.eq, vbCode.vb_same.eq, hc, idx, upd_app, h2, s1]
          rfl
        · refine ⟨?_, rfl, rfl, rfl, rfl⟩
          simp [buttonCode, h2]
    · have s2 : ¬ m.ram (vbNew + BitVec.ofNat 16 k) - 255#8 = 0#8 := by
        revert h2; generalize m.ram (vbNew + BitVec.ofNat 16 k) = b; revert b; decide +kernel
      have hr : m.ram (vbNew + BitVec.ofNat 16 k) ≠ m.ram (vbOld + BitVec.ofNat 16 k) ∧ m.ram (vbNew + BitVec.ofNat 16 k) ≠ 255#8 := ⟨h1, h2⟩
      simp only [keyRam, if_pos hr]
      clear h1 h2 hr
      rcases (by omega : k = 0 ∨ k = 1 ∨ k = 2 ∨ k = 3) with rfl | rfl | rfl | rfl
      all_goals
        simp only [Nat.reduceMul, BitVec.ofNat_eq_ofNat, BitVec.reduceAdd] at hc s1 s2
        refine ⟨?_, ⟨39, ?_⟩, ?_⟩
        rotate_left
        · rt_exec [vbCode.vb_key.eq, vbCode.vb_same.eq, hc, idx, upd_app, s1, s2, r0, r1, r2, r3, r4, r6, r8, r12, r16, r24]
          rfl
        · refine ⟨?_, rfl, rfl, rfl, rfl⟩
          simp [buttonCode]

/-- The memory after the four controllers. -/
def padRam (r : W → B) : Nat → (W → B)
  | 0 => upd (upd r vbColrsh 0#8) vbSkctl 1#8
  | n + 1 => upd (upd (padRam r n) (vbStick + BitVec.ofNat 16 (3 - n)) (stickCode (r (vbPaddl + BitVec.ofNat 16 (2 * (3 - n)))) (r (vbPaddl + BitVec.ofNat 16 (2 * (3 - n) + 1))))) (vbStrig + BitVec.ofNat 16 (3 - n)) (r (vbTrig + BitVec.ofNat 16 (3 - n)))

theorem vb_pads (m : M) : ∃ m', Reach vbCode vbCode.vbi m (.lb "vb_key" :: vbCode.vb_key) m' ∧ m'.ram = padRam m.ram 4 ∧ m'.stk = m.stk ∧ m'.zp = m.zp ∧ m'.sl = m.sl ∧ m'.sh = m.sh := by
  obtain ⟨m0, q0, y0, u0, s0, z0, l0, k0⟩ : ∃ m0, Reach vbCode vbCode.vbi m vbCode.vb_stick m0 ∧ m0.y = 6#8 ∧ m0.ram = padRam m.ram 0 ∧ m0.stk = m.stk ∧ m0.zp = m.zp ∧ m0.sl = m.sl ∧ m0.sh = m.sh := by
    refine ⟨?_, ⟨6, ?_⟩, ?_⟩
    rotate_left
    · rt_exec [vbCode.vbi.eq]
      rfl
    · exact ⟨rfl, rfl, rfl, rfl, rfl, rfl⟩
  obtain ⟨m1, q1, y1, u1, s1, z1, l1, k1⟩ := vb_one m0 3 (by omega) y0
  obtain ⟨m2, q2, y2, u2, s2, z2, l2, k2⟩ := vb_one m1 2 (by omega) y1
  obtain ⟨m3, q3, y3, u3, s3, z3, l3, k3⟩ := vb_one m2 1 (by omega) y2
  obtain ⟨m4, q4, y4, u4, s4, z4, l4, k4⟩ := vb_one m3 0 (by omega) y3
  refine ⟨m4, (((q0.trans q1).trans q2).trans q3).trans q4, ?_, (((s4.trans s3).trans s2).trans s1).trans s0, (((z4.trans z3).trans z2).trans z1).trans z0, (((l4.trans l3).trans l2).trans l1).trans l0, (((k4.trans k3).trans k2).trans k1).trans k0⟩
  rw [u4, u3, u2, u1, u0]
  simp [padRam, upd_app]

/-- **C65**: the interruption of the vertical blank gives the programs the controllers, the triggers and a new key of the keypad that is selected, and selects the next one. -/
theorem C65_vbi (m : M) (k : Nat) (hk : k < 4) (hc : m.ram vbCurr = BitVec.ofNat 8 k) : ∃ m', Halts vbCode vbCode.vbi m m' ∧ VbiOk m m' k := by
  obtain ⟨m1, q1, u1, s1, z1, l1, k1⟩ := vb_pads m
  have c1 : m1.ram vbCurr = BitVec.ofNat 8 k := by rw [u1, ← hc]; simp [padRam, upd_app]
  obtain ⟨m2, q2, u2, s2, z2, l2, k2⟩ := vb_keys m1 k hk c1
  refine ⟨m2, q1.halts q2, ?_⟩
  have st := fun h v => stick_ok h v
  have bt := button_ok (m.ram vbSkstat)
  rw [u1] at u2
  constructor
  case stk => exact s2.trans s1
  case zp => exact z2.trans z1
  case sl => exact l2.trans l1
  case sh => exact k2.trans k1
  all_goals rw [u2]
  all_goals clear u2 u1 hc c1 q1 q2 s1 s2 z1 z2 l1 l2 k1 k2
  case stick =>
    intro i hi
    rw [← st]
    rcases (by omega : k = 0 ∨ k = 1 ∨ k = 2 ∨ k = 3) with rfl | rfl | rfl | rfl <;> rcases (by omega : i = 0 ∨ i = 1 ∨ i = 2 ∨ i = 3) with rfl | rfl | rfl | rfl <;> simp [keyRam, padRam, upd_app, ite_apply]
  case trig =>
    intro i hi
    rcases (by omega : k = 0 ∨ k = 1 ∨ k = 2 ∨ k = 3) with rfl | rfl | rfl | rfl <;> rcases (by omega : i = 0 ∨ i = 1 ∨ i = 2 ∨ i = 3) with rfl | rfl | rfl | rfl <;> simp [keyRam, padRam, upd_app, ite_apply]
  case old => rcases (by omega : k = 0 ∨ k = 1 ∨ k = 2 ∨ k = 3) with rfl | rfl | rfl | rfl <;> simp [keyRam, padRam, upd_app, ite_apply]
  case key =>
    intro h1 h2
    have h2 : m.ram (vbNew + BitVec.ofNat 16 k) ≠ 255#8 := h2
    rcases (by omega : k = 0 ∨ k = 1 ∨ k = 2 ∨ k = 3) with rfl | rfl | rfl | rfl <;> simp at h1 h2 <;> simp [keyRam, padRam, upd_app, ite_apply, h1, h2]
  case nokey =>
    intro h1
    have h2 : ¬ (m.ram (vbNew + BitVec.ofNat 16 k) ≠ m.ram (vbOld + BitVec.ofNat 16 k) ∧ m.ram (vbNew + BitVec.ofNat 16 k) ≠ 255#8) := fun h => h1.elim h.1 h.2
    clear h1
    rcases (by omega : k = 0 ∨ k = 1 ∨ k = 2 ∨ k = 3) with rfl | rfl | rfl | rfl <;> simp only [BitVec.ofNat_eq_ofNat, BitVec.reduceAdd] at h2 <;> simp [keyRam, padRam, upd_app, ite_apply, h2]
  case button =>
    rw [← bt]
    rcases (by omega : k = 0 ∨ k = 1 ∨ k = 2 ∨ k = 3) with rfl | rfl | rfl | rfl <;> simp [keyRam, padRam, upd_app, ite_apply]
  case next => rcases (by omega : k = 0 ∨ k = 1 ∨ k = 2 ∨ k = 3) with rfl | rfl | rfl | rfl <;> simp [keyRam, padRam, upd_app, ite_apply]
  case prior => rcases (by omega : k = 0 ∨ k = 1 ∨ k = 2 ∨ k = 3) with rfl | rfl | rfl | rfl <;> simp [keyRam, padRam, upd_app, ite_apply]
  case rest =>
    intro a h1 h2
    have a0 := h1 0 (by omega)
    have a1 := h1 1 (by omega)
    have a2 := h1 2 (by omega)
    have a3 := h1 3 (by omega)
    simp only [List.mem_cons, List.not_mem_nil, or_false, not_or] at h2
    rcases (by omega : k = 0 ∨ k = 1 ∨ k = 2 ∨ k = 3) with rfl | rfl | rfl | rfl <;> simp at a0 a1 a2 a3 h2 <;> simp [keyRam, padRam, upd_app, ite_apply, a0, a1, a2, a3, h2]

/-- **C65, the interruption of the keypad**: it stores the key in the cell of the keypad that is selected. -/
theorem C65_kb (m : M) (k : Nat) (hk : k < 4) (hc : m.ram vbCurr = BitVec.ofNat 8 k) :
    ∃ m', Halts vbCode vbCode.kb_continue m m' ∧ m'.ram = upd m.ram (vbNew + BitVec.ofNat 16 k) m.a ∧ m'.stk = m.stk ∧ m'.zp = m.zp ∧ m'.sl = m.sl ∧ m'.sh = m.sh := by
  have e : idx vbNew (BitVec.ofNat 8 k) = vbNew + BitVec.ofNat 16 k := by rw [idx, BitVec.toNat_ofNat, Nat.mod_eq_of_lt (by omega)]
  refine ⟨?_, ⟨3, ?_⟩, ?_⟩
  rotate_left
  · rt_exec [vbCode.kb_continue.eq, hc, e]
    rfl
  · exact ⟨rfl, rfl, rfl, rfl, rfl⟩

/-! ## Many interruptions -/

/-- Specification: the keypads: which one is selected, the key that each one had when it was last selected (255 is none), and the last key for the program. -/
structure Pads where
  sel : Nat
  old : Nat → B
  ch : B

/-- Specification: a scan of the screen, with a key of the selected keypad pressed or not: the program gets the key (with the number of the keypad) if it is not the one that the keypad had. -/
def Pads.scan (s : Pads) (p : Option B) : Pads where
  sel := (s.sel + 1) % 4
  old := fun j => if j = s.sel then p.getD 255 else s.old j
  ch := if p.getD 255 ≠ s.old s.sel ∧ p.getD 255 ≠ 255 then BitVec.ofNat 8 (16 * s.sel) ||| p.getD 255 else s.ch

/-- The memory holds that state. -/
structure Pads.In (s : Pads) (m : M) : Prop where
  lt : s.sel < 4
  sel : m.ram vbCurr = BitVec.ofNat 8 s.sel
  new : m.ram (vbNew + BitVec.ofNat 16 s.sel) = 255
  old : ∀ j < 4, m.ram (vbOld + BitVec.ofNat 16 j) = s.old j
  ch : m.ram vbCH = s.ch

/-- A scan of the screen: the interruption of the keypad, if a key is pressed, and that of the vertical blank. -/
def ScanRun (m : M) (p : Option B) (m' : M) : Prop :=
  ∃ m1, (match p with | none => m1 = m | some c => Halts vbCode vbCode.kb_continue { m with a := c } m1) ∧ Halts vbCode vbCode.vbi m1 m'

/-- Scans one after the other. -/
inductive ScansRun : M → List (Option B) → M → Prop
  | nil (m : M) : ScansRun m [] m
  | cons {m m1 m' : M} {p : Option B} {ps : List (Option B)} : ScanRun m p m1 → ScansRun m1 ps m' → ScansRun m (p :: ps) m'

/-- One scan. -/
theorem C65_scan (s : Pads) (m : M) (h : s.In m) (p : Option B) : ∃ m', ScanRun m p m' ∧ (s.scan p).In m' := by
  obtain ⟨m1, q1, c1, n1, o1, h1⟩ : ∃ m1, (match p with | none => m1 = m | some c => Halts vbCode vbCode.kb_continue { m with a := c } m1) ∧ m1.ram vbCurr = BitVec.ofNat 8 s.sel ∧
      m1.ram (vbNew + BitVec.ofNat 16 s.sel) = p.getD 255 ∧ (∀ j < 4, m1.ram (vbOld + BitVec.ofNat 16 j) = s.old j) ∧ m1.ram vbCH = s.ch := by
    cases p with
    | none => exact ⟨m, rfl, h.sel, h.new, h.old, h.ch⟩
    | some c =>
      obtain ⟨m1, q, u, -⟩ := C65_kb { m with a := c } s.sel h.lt h.sel
      refine ⟨m1, q, ?_, ?_, fun j hj => ?_, ?_⟩
      · rw [u, ← h.sel, upd_app, if_neg]
        rcases (by have := h.lt; omega : s.sel = 0 ∨ s.sel = 1 ∨ s.sel = 2 ∨ s.sel = 3) with e | e | e | e <;> rw [e] <;> simp
      · rw [u, upd_app, if_pos rfl]; rfl
      · rw [u, ← h.old j hj, upd_app, if_neg]
        rcases (by have := h.lt; omega : s.sel = 0 ∨ s.sel = 1 ∨ s.sel = 2 ∨ s.sel = 3) with e | e | e | e <;> rw [e] <;> rcases (by omega : j = 0 ∨ j = 1 ∨ j = 2 ∨ j = 3) with rfl | rfl | rfl | rfl <;> simp
      · rw [u, ← h.ch, upd_app, if_neg]
        rcases (by have := h.lt; omega : s.sel = 0 ∨ s.sel = 1 ∨ s.sel = 2 ∨ s.sel = 3) with e | e | e | e <;> rw [e] <;> simp
  obtain ⟨m', q2, v⟩ := C65_vbi m1 s.sel h.lt c1
  refine ⟨m', ⟨m1, q1, q2⟩, Nat.mod_lt _ (by omega), v.next.1, v.next.2.1, fun j hj => ?_, ?_⟩
  · show m'.ram _ = if j = s.sel then p.getD 255 else s.old j
    by_cases e : j = s.sel
    · rw [if_pos e, e, v.old, n1]
    · rw [if_neg e, ← o1 j hj]
      apply v.rest
      · intro i hi
        rcases (by omega : j = 0 ∨ j = 1 ∨ j = 2 ∨ j = 3) with rfl | rfl | rfl | rfl <;> rcases (by omega : i = 0 ∨ i = 1 ∨ i = 2 ∨ i = 3) with rfl | rfl | rfl | rfl <;> simp
      · have hl := h.lt
        generalize s.sel = k at *
        rcases (by omega : k = 0 ∨ k = 1 ∨ k = 2 ∨ k = 3) with rfl | rfl | rfl | rfl <;> rcases (by omega : j = 0 ∨ j = 1 ∨ j = 2 ∨ j = 3) with rfl | rfl | rfl | rfl <;> simp at e ⊢
  · show m'.ram vbCH = if p.getD 255 ≠ s.old s.sel ∧ p.getD 255 ≠ 255 then BitVec.ofNat 8 (16 * s.sel) ||| p.getD 255 else s.ch
    have o2 := o1 s.sel h.lt
    by_cases c : p.getD 255 ≠ s.old s.sel ∧ p.getD 255 ≠ 255
    · rw [if_pos c, (v.key (by rw [n1, o2]; exact c.1) (by rw [n1]; exact c.2)).2, n1]
    · rw [if_neg c, (v.nokey (by rw [n1, o2]; by_cases d : p.getD 255 = s.old s.sel; · exact .inl d
                                 exact .inr (by by_contra d2; exact c ⟨d, d2⟩))).2, h1]

/-- **C65, any number of scans**: whatever keys are pressed, the memory follows the specification of the keypads. -/
theorem C65_scans (ps : List (Option B)) : ∀ (s : Pads) (m : M), s.In m → ∃ m', ScansRun m ps m' ∧ (ps.foldl Pads.scan s).In m' := by
  induction ps with
  | nil => exact fun s m h => ⟨m, .nil m, h⟩
  | cons p ps ih =>
    intro s m h
    obtain ⟨m1, q, h1⟩ := C65_scan s m h p
    obtain ⟨m', q', h'⟩ := ih _ m1 h1
    exact ⟨m', .cons q q', h'⟩

/-! ## Cases -/

/-- A controller at the right and up: 15 - 8 - 1. -/
example (m : M) (hc : m.ram vbCurr = 2#8) (h : m.ram 0x13#16 = 200#8) (v : m.ram 0x14#16 = 20#8) : ∃ m', Halts vbCode vbCode.vbi m m' ∧ (m'.ram 0x21D#16).toNat = 6 := by
  obtain ⟨m', q, r⟩ := C65_vbi m 2 (by omega) hc
  refine ⟨m', q, ?_⟩
  have e := r.stick 1 (by omega)
  rw [show vbPaddl + BitVec.ofNat 16 (2 * 1) = 0x13#16 from rfl, show vbPaddl + BitVec.ofNat 16 (2 * 1 + 1) = 0x14#16 from rfl, h, v] at e
  exact e

/-- The key 5 of keypad 1 is held for three turns of the keypads, and the program takes it (by writing 255) after the first one: it does not get it again; after it is released and pressed again it does. -/
example : let s : Pads := ⟨1, fun _ => 255, 255⟩
    let t := ([some 5, none, none, none] : List (Option B)).foldl Pads.scan s
    t.ch = 0x15 ∧ (([some 5, none, none, none, some 5, none, none, none] : List (Option B)).foldl Pads.scan { t with ch := 255 }).ch = 255 ∧
    (([none, none, none, none, some 5] : List (Option B)).foldl Pads.scan { t with ch := 255 }).ch = 0x15 := by decide

end FB.Rt
