import Verif.Rt.Pmg
/-!
# C63: the players and missiles
-/
namespace FB.Rt

/-! ## Specification -/

/-- Specification: pages of the memory of the players and missiles: 8 in mode 1 (one line), 4 in mode 2 (two lines). -/
def pmPages (d : Nat) : Nat := if d = 1 then 8 else 4

/-- Specification: where the display processor reads player `p` (or the missiles, -1), for the value of its register `PMBASE`: it drops the low bits of the page; each player has the eighth part of the memory, the missiles are before them. -/
def anticPm (d : Nat) (base : Nat) (p : Int) : Int := (base / pmPages d * pmPages d : Nat) * 256 + (p + 4) * (32 * pmPages d : Nat)

/-- Specification: the value of `PMADR(p)`, with the contents of the two variables (`pm.syn:30-32`). -/
def pmAdr (mode base : Nat) (p : Int) : Int := (p + 4) * (2 * mode : Nat) + (256 * base : Nat)

/-- Specification: the registers after `PMGRAPHICS`. -/
structure PmRegs (m m' : M) (base mode dma gractl : B) : Prop where
  base : m'.ram pmPmbase = base ∧ m'.ram pmgBase = base
  mode : m'.ram pmgMode = mode
  dma : m'.ram pmSdmctl = m.ram pmSdmctl &&& 0xE3 ||| dma
  ctl : m'.ram pmGractl = gractl
  pri : m'.ram pmGprior = (gractl ||| m.ram pmGprior) &&& 0xC1
  pos : ∀ i : Nat, i < 18 → m'.ram (pmHposp0 + BitVec.ofNat 16 i) = 0
  rest : ∀ a : W, a ∉ [pmPmbase, pmgBase, pmgMode, pmSdmctl, pmGractl, pmGprior] → 18 ≤ (a - pmHposp0).toNat → m'.ram a = m.ram a
  stk : m'.stk = m.stk
  sl : m'.sl = m.sl
  sh : m'.sh = m.sh
  zp : m'.zp = m.zp

/-! ## The code -/

/-- From the place where the base is known. -/
theorem pm_set (m : M) (xv : Nat) (hx : m.x = BitVec.ofNat 8 xv) (hx3 : xv < 3) (dma mode : B) (hd : m.ram (idx 0x2F02 m.x) = dma) (hm : m.ram (idx 0x2F04 m.x) = mode) :
    ∃ m', Halts pmCode pmCode.pm_ok m m' ∧ PmRegs m m' m.a mode dma m.y := by
  have i1 : idx 0x2F02#16 m.x = 0x2F02#16 + BitVec.ofNat 16 xv := by rw [idx, hx, BitVec.toNat_ofNat, Nat.mod_eq_of_lt (by omega)]
  have i2 : idx 0x2F04#16 m.x = 0x2F04#16 + BitVec.ofNat 16 xv := by rw [idx, hx, BitVec.toNat_ofNat, Nat.mod_eq_of_lt (by omega)]
  have hd : m.ram (0x2F02#16 + BitVec.ofNat 16 xv) = dma := by rw [← i1]; exact hd
  have hm : m.ram (0x2F04#16 + BitVec.ofNat 16 xv) = mode := by rw [← i2]; exact hm
  have n1 : ∀ xv, xv < 3 → ∀ w ∈ ([pmPmbase, pmgBase, pmSdmctl, pmGractl, pmGprior] : List W), 0x2F02#16 + BitVec.ofNat 16 xv ≠ w ∧ 0x2F04#16 + BitVec.ofNat 16 xv ≠ w := by
    intro xv hx
    have : xv = 0 ∨ xv = 1 ∨ xv = 2 := by omega
    rcases this with rfl | rfl | rfl <;> simp
  have n1 := n1 xv hx3
  simp only [List.forall_mem_cons, List.not_mem_nil, false_imp_iff, implies_true, and_true, ne_eq] at n1
  obtain ⟨m1, r1, e1⟩ : ∃ m1, Reach pmCode pmCode.pm_ok m pmCode.pm_lp m1 ∧ m1.y = 17#8 ∧ m1.a = 0#8 ∧ m1.stk = m.stk ∧ m1.sl = m.sl ∧ m1.sh = m.sh ∧ m1.zp = m.zp ∧
      m1.ram = upd (upd (upd (upd (upd (upd m.ram pmgBase m.a) pmPmbase m.a) pmSdmctl (m.ram pmSdmctl &&& 0xE3#8 ||| dma)) pmGractl m.y) pmGprior ((m.y ||| m.ram pmGprior) &&& 0xC1#8)) pmgMode mode := by
    refine ⟨?_, ⟨16, ?_⟩, ?_⟩
    rotate_left
    · rt_exec [pmCode.pm_ok.eq, upd_app, i1, i2, hd, hm, n1]
      rfl
    · exact ⟨rfl, rfl, rfl, rfl, rfl, rfl, rfl⟩
  obtain ⟨y1, a1, s1, l1, k1, z1, u1⟩ := e1
  obtain ⟨m', h, u, s, l, k, z⟩ := pm_loop 17 (by omega) m1 y1
  have hu : ∀ a : W, 18 ≤ (a - pmHposp0).toNat → m'.ram a = m1.ram a := fun a ha => by rw [u, if_neg (by omega)]
  refine ⟨m', r1.halts h, ⟨⟨?_, ?_⟩, ?_, ?_, ?_, ?_, fun i hi => ?_, fun a h1 h2 => ?_, s.trans s1, l.trans l1, k.trans k1, z.trans z1⟩⟩
  · rw [hu _ (by decide), u1]; simp [upd_app]
  · rw [hu _ (by decide), u1]; simp [upd_app]
  · rw [hu _ (by decide), u1]; simp [upd_app]
  · rw [hu _ (by decide), u1]; simp [upd_app]
  · rw [hu _ (by decide), u1]; simp [upd_app]
  · rw [hu _ (by decide), u1]; simp [upd_app]
  · rw [u, if_pos, a1]; · rfl
    rw [BitVec.add_comm, BitVec.add_sub_cancel, BitVec.toNat_ofNat]; omega
  · rw [hu _ h2, u1]
    simp only [List.mem_cons, List.not_mem_nil, or_false, not_or] at h1
    simp [upd_app, h1]

/-- **C63, mode 0**: everything is off. -/
theorem C63_off (m : M) (hr : PmRom m.ram) (ha : m.a.toNat % 4 = 0) : ∃ m', Halts pmCode pmCode.EXE_PMGRAPHICS m m' ∧ PmRegs m m' 0 0x0C 0 0 := by
  have e : m.a &&& 3#8 = 0#8 := by revert ha; generalize m.a = a; revert a; decide +kernel
  obtain ⟨m1, r1, e1⟩ : ∃ m1, Reach pmCode pmCode.EXE_PMGRAPHICS m pmCode.pm_ok m1 ∧ m1 = { m with a := 0#8, x := 0#8, y := 0#8, z := true, n := false } := by
    refine ⟨_, ⟨5, ?_⟩, rfl⟩
    rt_exec [pmCode.EXE_PMGRAPHICS.eq, pmCode.pm_off.eq, e, topBit]
  obtain ⟨m', h, p⟩ := pm_set m1 0 (by rw [e1]) (by omega) 0 0x0C (by rw [e1]; exact hr.2.2.1) (by rw [e1]; exact hr.2.2.2.2.1)
  rw [e1] at p
  exact ⟨m', r1.halts h, p.1, p.2, p.3, p.4, p.5, p.6, p.7, p.8, p.9, p.10, p.11⟩

/-- The base for the last page of the memory. -/
theorem pm_base (t : B) : (8 ≤ t.toNat → (add8 (0xF8#8 &&& t) 0xF8#8 false).toNat = (t.toNat / 8 - 1) * 8) ∧ (4 ≤ t.toNat → (add8 (0xFC#8 &&& t) 0xFC#8 false).toNat = (t.toNat / 4 - 1) * 4) := by
  revert t; decide +kernel

theorem pm_calc (m : M) (hr : PmRom m.ram) (d : Nat) (hd : d = 1 ∨ d = 2) (ha : m.a.toNat % 4 = d) (ht : pmPages d ≤ (m.ram pmMemtop).toNat) :
    (m.zp.arrh.toNat ≤ ((m.ram pmMemtop).toNat / pmPages d - 1) * pmPages d → ∃ m1, Reach pmCode pmCode.EXE_PMGRAPHICS m pmCode.pm_ok m1 ∧ m1.a.toNat = ((m.ram pmMemtop).toNat / pmPages d - 1) * pmPages d ∧
      m1.x = BitVec.ofNat 8 d ∧ m1.y = 3#8 ∧ m1.ram = m.ram ∧ m1.stk = m.stk ∧ m1.sl = m.sl ∧ m1.sh = m.sh ∧ m1.zp = m.zp) ∧
    (((m.ram pmMemtop).toNat / pmPages d - 1) * pmPages d < m.zp.arrh.toNat → Fails pmCode pmCode.EXE_PMGRAPHICS m) := by
  generalize hT : m.ram pmMemtop = t at *
  obtain ⟨b1, b2⟩ := pm_base t
  obtain ⟨q1, q2, -⟩ := hr
  have hand : ∀ a : B, (a.toNat % 4 = 1 → a &&& 3#8 = 1#8) ∧ (a.toNat % 4 = 2 → a &&& 3#8 = 2#8) := by decide +kernel
  rcases hd with rfl | rfl
  · have e : m.a &&& 3#8 = 1#8 := (hand m.a).1 ha
    have e2 : m.ram (idx 0x2EFF#16 1#8) = 0xF8#8 := q1
    have hb := b1 ht
    generalize hB : add8 (0xF8#8 &&& t) 0xF8#8 false = b at hb
    have hp : pmPages 1 = 8 := rfl
    rw [hp]
    constructor
    · intro hc
      have hcmp : addC b (~~~ m.zp.arrh) true = true := by rw [addC_le]; simp; omega
      refine ⟨?_, ⟨10, ?_⟩, ?_⟩
      rotate_left
      · rt_exec [pmCode.EXE_PMGRAPHICS.eq, e, e2, hT, hB, hcmp]
        rfl
      · exact ⟨hb, rfl, rfl, rfl, rfl, rfl, rfl, rfl⟩
    · intro hc
      have hcmp : addC b (~~~ m.zp.arrh) true = false := by rw [addC_le]; simp; omega
      refine ⟨11, ?_⟩
      rt_exec [pmCode.EXE_PMGRAPHICS.eq, e, e2, hT, hB, hcmp]
  · have e : m.a &&& 3#8 = 2#8 := (hand m.a).2 ha
    have e2 : m.ram (idx 0x2EFF#16 2#8) = 0xFC#8 := q2
    have hb := b2 ht
    generalize hB : add8 (0xFC#8 &&& t) 0xFC#8 false = b at hb
    have hp : pmPages 2 = 4 := rfl
    rw [hp]
    constructor
    · intro hc
      have hcmp : addC b (~~~ m.zp.arrh) true = true := by rw [addC_le]; simp; omega
      refine ⟨?_, ⟨10, ?_⟩, ?_⟩
      rotate_left
      · rt_exec [pmCode.EXE_PMGRAPHICS.eq, e, e2, hT, hB, hcmp]
        rfl
      · exact ⟨hb, rfl, rfl, rfl, rfl, rfl, rfl, rfl⟩
    · intro hc
      have hcmp : addC b (~~~ m.zp.arrh) true = false := by rw [addC_le]; simp; omega
      refine ⟨11, ?_⟩
      rt_exec [pmCode.EXE_PMGRAPHICS.eq, e, e2, hT, hB, hcmp]

/-- **C63, modes 1 and 2**: the memory of the players is the last aligned block that ends at or below the last page of the free memory. If there is place, the registers are set, `PMADR` is where the display processor reads each player, and
what it reads, from the missiles to the last player, is above the arrays and below the end of the free memory; if not, the program ends with the error of memory. -/
theorem C63_on (m : M) (hr : PmRom m.ram) (d : Nat) (hd : d = 1 ∨ d = 2) (ha : m.a.toNat % 4 = d) (ht : pmPages d ≤ (m.ram pmMemtop).toNat) (base : Nat)
    (hbase : base = ((m.ram pmMemtop).toNat / pmPages d - 1) * pmPages d) :
    (base < m.zp.arrh.toNat → Fails pmCode pmCode.EXE_PMGRAPHICS m) ∧
    (m.zp.arrh.toNat ≤ base → ∃ m' mode, Halts pmCode pmCode.EXE_PMGRAPHICS m m' ∧ PmRegs m m' (BitVec.ofNat 8 base) mode (if d = 1 then 0x1C else 0x0C) 3 ∧
      (∀ p, pmAdr (m'.ram pmgMode).toNat (m'.ram pmgBase).toNat p = anticPm d (m'.ram pmPmbase).toNat p) ∧
      ((word m.zp.arr m.zp.arrh).toNat : Int) < anticPm d (m'.ram pmPmbase).toNat (-1) ∧ anticPm d (m'.ram pmPmbase).toNat 4 ≤ (256 * (m.ram pmMemtop).toNat : Nat)) := by
  obtain ⟨c1, c2⟩ := pm_calc m hr d hd ha ht
  rw [← hbase] at c1 c2
  refine ⟨c2, fun hc => ?_⟩
  obtain ⟨m1, r1, a1, x1, y1, u1, s1, l1, k1, z1⟩ := c1 hc
  have lt := (m.ram pmMemtop).isLt
  have hb : base < 256 := by rw [← a1]; exact m1.a.isLt
  have ha1 : m1.a = BitVec.ofNat 8 base := BitVec.eq_of_toNat_eq (by rw [a1, BitVec.toNat_ofNat]; omega)
  have hbn : (BitVec.ofNat 8 base).toNat = base := by rw [BitVec.toNat_ofNat]; omega
  obtain ⟨q1, q2, q3, q4, q5, q6, q7⟩ := hr
  have arl := m.zp.arr.isLt
  have wl : (word m.zp.arr m.zp.arrh).toNat = m.zp.arr.toNat + 256 * m.zp.arrh.toNat := by
    have := m.zp.arrh.isLt
    rw [word, BitVec.toNat_ofNat]; omega
  obtain ⟨m', h, p⟩ : ∃ m', Halts pmCode pmCode.pm_ok m1 m' ∧ PmRegs m1 m' m1.a (if d = 1 then 0x80 else 0x40) (if d = 1 then 0x1C else 0x0C) m1.y := by
    rcases hd with rfl | rfl
    · exact pm_set m1 1 x1 (by omega) _ _ (by rw [x1, u1]; exact q4) (by rw [x1, u1]; exact q6)
    · exact pm_set m1 2 x1 (by omega) _ _ (by rw [x1, u1]; exact q5) (by rw [x1, u1]; exact q7)
  rw [ha1, y1] at p
  refine ⟨m', _, r1.halts h, ⟨p.base, p.mode, by rw [← u1]; exact p.dma, p.ctl, by rw [← u1]; exact p.pri, p.pos, by rw [← u1]; exact p.rest, p.stk.trans s1, p.sl.trans l1, p.sh.trans k1, p.zp.trans z1⟩, ?_, ?_, ?_⟩
  · intro q
    rw [p.mode, p.base.1, p.base.2, hbn, hbase]
    rcases hd with rfl | rfl <;> simp [pmAdr, anticPm, pmPages] <;> omega
  · rw [p.base.1, hbn, wl]
    rcases hd with rfl | rfl <;> simp [anticPm, pmPages] at hbase ⊢ <;> omega
  · rw [p.base.1, hbn]
    rcases hd with rfl | rfl <;> simp [anticPm, pmPages] at hbase ht ⊢ <;> omega

/-- **C63, mode 3**: it is always an error of memory. -/
theorem C63_three (m : M) (hr : PmRom m.ram) (ha : m.a.toNat % 4 = 3) (hc : m.zp.arrh ≠ 0) : Fails pmCode pmCode.EXE_PMGRAPHICS m := by
  have hand : ∀ a : B, a.toNat % 4 = 3 → a &&& 3#8 = 3#8 := by decide +kernel
  have e : m.a &&& 3#8 = 3#8 := hand _ ha
  have e2 : m.ram (idx 0x2EFF#16 3#8) = 0#8 := hr.2.2.1
  have h0 : add8 0#8 0#8 false = 0#8 := rfl
  have hcmp : addC 0#8 (~~~ m.zp.arrh) true = false := by
    rw [addC_le]; simp
    exact fun h => hc (BitVec.eq_of_toNat_eq h)
  refine ⟨11, ?_⟩
  rt_exec [pmCode.EXE_PMGRAPHICS.eq, e, e2, h0, hcmp]

/-! ## A case -/

/-- `PMGRAPHICS 1` with the free memory up to page `$BC` and the arrays ending in page `$40`: the base is page `$B0`, and player 0 is at `$B400`. With arrays up to page `$B1` it is an error. -/
example (m : M) (hr : PmRom m.ram) (ha : m.a = 1) (ht : m.ram pmMemtop = 0xBC) :
    (m.zp.arrh = 0x40 → ∃ m', Halts pmCode pmCode.EXE_PMGRAPHICS m m' ∧ m'.ram pmPmbase = 0xB0 ∧ m'.ram pmGractl = 3 ∧ pmAdr (m'.ram pmgMode).toNat (m'.ram pmgBase).toNat 0 = 0xB400) ∧
    (m.zp.arrh = 0xB1 → Fails pmCode pmCode.EXE_PMGRAPHICS m) := by
  obtain ⟨f, o⟩ := C63_on m hr 1 (.inl rfl) (by rw [ha]; rfl) (by rw [ht]; decide) 0xB0 (by rw [ht]; rfl)
  refine ⟨fun hc => ?_, fun hc => f (by rw [hc]; decide)⟩
  obtain ⟨m', mode, h, p, q, -⟩ := o (by rw [hc]; decide)
  refine ⟨m', h, p.base.1, p.ctl, ?_⟩
  rw [q, p.base.1]
  rfl

end FB.Rt
