import Verif.Rt.Graph
/-!
# Graphics of the Atari 5200: `PLOT` and `LOCATE`

What the code of `Verif.Rt.Graph` does for one pixel.
-/
namespace FB.Rt
open Ins Opd

theorem GMode.of_same {b : Nat} {m m' : M} (h1 : ∀ a : W, a = DINDEX ∨ 45056 ≤ a.toNat → m'.ram a = m.ram a) (hm : GMode b m) : GMode b m' := by
  obtain ⟨i, hi, hb, hM, hS⟩ := hm
  refine ⟨i, by rw [h1 _ (.inl rfl), hi], hb, ?_, ?_⟩
  all_goals
    simp only [List.mem_cons, Prod.mk.injEq, List.not_mem_nil, or_false] at hb
    rw [h1 _ (.inr ?_)]
    · assumption
    · obtain ⟨rfl, -⟩ | ⟨rfl, -⟩ | ⟨rfl, -⟩ | ⟨rfl, -⟩ := hb <;> decide

theorem GMode.congr {b : Nat} {m m' : M} {cs : List W} (h : GSame cs m m') (hc : ∀ c ∈ cs, c ≠ DINDEX ∧ c.toNat < 45056) (hm : GMode b m) : GMode b m' := by
  refine hm.of_same fun a ha => h a fun hin => ?_
  have := hc a hin
  rcases ha with rfl | ha
  · exact this.1 rfl
  · omega

/-- The number of shifts of a pixel in its byte, in steps of one bit. -/
def pixShift (b col : Nat) : Nat := b * (8 / b - 1 - col % (8 / b))

/-- Cells of page zero that `get_addr` changes. -/
def gaCells : List W := [gTmp4, gTmp41, plotMask, plotRc, colorS]

theorem get_addr_ok {b : Nat} {m : M} {k : Code} {st : List Slot} (hm : GMode b m) (hs : m.stk = .ret k :: st) (hr : rowAddr m < 16384) : ∃ m', Reach grCode grCode.get_addr m k m' ∧
    m'.gv = m.gv ∧ m'.stk = st ∧ GSame gaCells m m' ∧ m'.zp = { m.zp with tmp1 := m'.zp.tmp1 } ∧
    idx (word (m'.ram gTmp4) (m'.ram gTmp41)) m'.y = BitVec.ofNat 16 (rowAddr m + colOf m % 512 / (8 / b)) ∧
    (m'.ram plotRc).toNat = pixShift b (colOf m) ∧ m'.ram plotMask = BitVec.ofNat 8 ((2 ^ b - 1) * 2 ^ pixShift b (colOf m)) ∧
    m'.ram colorS = BitVec.ofNat 8 ((m.ram gColor).toNat % 2 ^ b * 2 ^ pixShift b (colOf m)) := by
  obtain ⟨m1, v1, z1, s1, a1, w1, r1⟩ := ga_addr m (by omega)
  rw [if_pos hr] at r1
  have hm1 : GMode b m1 := hm.congr w1 (by simp)
  obtain ⟨m2, r2, v2, s2, w2, x2, t2, z2⟩ := ga_shift b m1 hm1
  have hb : b = 1 ∨ b = 2 ∨ b = 4 := by
    obtain ⟨i, -, hb, -⟩ := hm
    simp only [List.mem_cons, Prod.mk.injEq, List.not_mem_nil, or_false] at hb
    omega
  have hx2 : m2.x.toNat < 8 := by
    rw [x2]
    rcases hb with rfl | rfl | rfl <;> omega
  obtain ⟨m3, r3, v3, z3, s3, w3, y3, c3, p3, k3⟩ := ga_pix (m := m2) (k := k) (st := st) (by rw [s2, s1, hs]) hx2
  have hc : colOf m1 = colOf m := by unfold colOf; rw [w1 _ (by decide), w1 _ (by decide)]
  have w12 : GSame [gTmp4, gTmp41, plotMask] m m2 := by
    intro a ha
    simp only [List.mem_cons, List.not_mem_nil, or_false, not_or] at ha
    rw [w2, upd_ne ha.2.2, w1 _ (by simp [ha])]
  rw [hc] at x2 t2
  replace x2 : m2.x.toNat = pixShift b (colOf m) := x2
  have e1 : m2.ram plotMask = BitVec.ofNat 8 (2 ^ b - 1) := by rw [w2, upd_at]
  have e2 : (BitVec.ofNat 8 (2 ^ b - 1)).toNat = 2 ^ b - 1 := by rcases hb with rfl | rfl | rfl <;> rfl
  have e3 : m2.ram gColor = m.ram gColor := w12 _ (by decide)
  refine ⟨m3, r1.trans (r2.trans r3), v3.trans (v2.trans v1), s3, ?_, ?_, ?_, ?_, ?_, ?_⟩
  · intro a ha
    simp only [gaCells, List.mem_cons, List.not_mem_nil, or_false, not_or] at ha
    rw [w3 _ (by simp [ha]), w12 _ (by simp [ha])]
  · rw [z3, z2, z1]
  · have f1 : m3.ram gTmp4 = m1.ram gTmp4 := by rw [w3 _ (by decide), w2, upd_ne (by decide)]
    have f2 : m3.ram gTmp41 = m1.ram gTmp41 := by rw [w3 _ (by decide), w2, upd_ne (by decide)]
    rw [y3, f1, f2, word, idx, a1, t2, ← BitVec.ofNat_add]
  · rw [c3, x2]
  · rw [p3, e1, e2, x2]
  · rw [k3, e1, e3, x2, BitVec.toNat_and, e2, Nat.and_two_pow_sub_one_eq_mod]

/-- Cells of page zero that change in `get_pixel_addr`. -/
def gpCells : List W := OLDROW :: OLDCOL :: OLDCOL1 :: gaCells

/-- `get_pixel_addr`: the position is copied before the address is computed. -/
theorem get_pixel_copy (m : M) : ∃ m', Reach grCode grCode.get_pixel_addr m grCode.get_addr m' ∧ m'.gv = m.gv ∧ m'.stk = m.stk ∧ m'.zp = m.zp ∧
    GSame [OLDROW, OLDCOL, OLDCOL1] m m' ∧ m'.ram OLDROW = m.ram ROWCRS ∧ m'.ram OLDCOL = m.ram COLCRS ∧ m'.ram OLDCOL1 = m.ram COLCRS1 := by
  refine ⟨?_, ⟨15, ?_⟩, ?_⟩
  rotate_left
  · rt_exec [grCode.get_pixel_addr.eq, grCode.cp_pos.eq, upd_app, idx]
    rfl
  · refine ⟨rfl, rfl, rfl, ?_, ?_, ?_, ?_⟩
    · intro a ha
      simp only [List.mem_cons, List.not_mem_nil, or_false, not_or] at ha
      simp [upd_app, ha]
    all_goals simp [upd_app]

/-- Address of the screen, row and column of the cursor. -/
def savmsc (m : M) : Nat := (m.ram SAVMSC).toNat + 256 * (m.ram SAVMSC1).toNat
def crsRow (m : M) : Nat := (m.ram ROWCRS).toNat
def crsCol (m : M) : Nat := (m.ram COLCRS).toNat + 256 * (m.ram COLCRS1).toNat

theorem GMode.pos {b : Nat} {m : M} (hm : GMode b m) : topBit (m.ram DINDEX) = false := by
  obtain ⟨i, hi, hb, -⟩ := hm
  rw [hi]
  simp only [List.mem_cons, Prod.mk.injEq, List.not_mem_nil, or_false] at hb
  obtain ⟨rfl, -⟩ | ⟨rfl, -⟩ | ⟨rfl, -⟩ | ⟨rfl, -⟩ := hb <;> rfl

theorem GMode.bits {b : Nat} {m : M} (hm : GMode b m) : b = 1 ∨ b = 2 ∨ b = 4 := by
  obtain ⟨i, -, hb, -⟩ := hm
  simp only [List.mem_cons, Prod.mk.injEq, List.not_mem_nil, or_false] at hb
  omega

/-- `get_pixel_addr` for a row below the top of the memory. -/
theorem get_pixel_ok {b : Nat} {m : M} {k : Code} {st : List Slot} (hm : GMode b m) (hs : m.stk = .ret k :: st) (hr : savmsc m + 40 * crsRow m < 16384) :
    ∃ m', Reach grCode grCode.get_pixel_addr m k m' ∧
    m'.gv = m.gv ∧ m'.stk = st ∧ GSame gpCells m m' ∧ m'.zp = { m.zp with tmp1 := m'.zp.tmp1 } ∧
    idx (word (m'.ram gTmp4) (m'.ram gTmp41)) m'.y = BitVec.ofNat 16 (savmsc m + 40 * crsRow m + crsCol m % 512 / (8 / b)) ∧
    (m'.ram plotRc).toNat = pixShift b (crsCol m) ∧ m'.ram plotMask = BitVec.ofNat 8 ((2 ^ b - 1) * 2 ^ pixShift b (crsCol m)) ∧
    m'.ram colorS = BitVec.ofNat 8 ((m.ram gColor).toNat % 2 ^ b * 2 ^ pixShift b (crsCol m)) ∧
    m'.ram OLDROW = m.ram ROWCRS ∧ m'.ram OLDCOL = m.ram COLCRS ∧ m'.ram OLDCOL1 = m.ram COLCRS1 := by
  obtain ⟨m1, r1, v1, s1, z1, w1, o1, o2, o3⟩ := get_pixel_copy m
  have e1 : rowAddr m1 = savmsc m + 40 * crsRow m := by
    unfold rowAddr savmsc crsRow; rw [o1, w1 _ (by decide), w1 _ (by decide)]
  have e2 : colOf m1 = crsCol m := by unfold colOf crsCol; rw [o2, o3]
  obtain ⟨m2, r2, v2, s2, w2, z2, a2, c2, p2, k2⟩ := get_addr_ok (hm.congr w1 (by simp)) (s1.trans hs) (by rw [e1]; exact hr)
  rw [e1, e2] at a2
  rw [e2] at c2 p2 k2
  rw [w1 gColor (by decide)] at k2
  refine ⟨m2, r1.trans r2, v2.trans v1, s2, ?_, ?_, a2, c2, p2, k2, ?_, ?_, ?_⟩
  · intro a ha
    have h1 : a ∉ gaCells := fun h => ha (by simp [gpCells, h])
    have h2 : a ∉ [OLDROW, OLDCOL, OLDCOL1] := fun h => ha (by
      simp only [List.mem_cons, List.not_mem_nil, or_false] at h
      rcases h with rfl | rfl | rfl <;> simp [gpCells])
    rw [w2 a h1, w1 a h2]
  · rw [z2, z1]
  · rw [w2 _ (by decide), o1]
  · rw [w2 _ (by decide), o2]
  · rw [w2 _ (by decide), o3]

/-- `get_pixel_addr` for other rows: error 18. -/
theorem get_pixel_err {m : M} {k : Code} {st : List Slot} (hs : m.stk = .ret k :: st) (hr : 16384 ≤ savmsc m + 40 * crsRow m) (hr' : savmsc m + 40 * crsRow m < 65536) :
    ∃ m', Halts grCode grCode.get_pixel_addr m m' ∧ m'.gv = ({ m with zp := { m.zp with ioerr := 18 } } : M).gv ∧ m'.stk = st ∧ GSame gpCells m m' := by
  obtain ⟨m1, r1, v1, s1, z1, w1, o1, o2, o3⟩ := get_pixel_copy m
  have e1 : rowAddr m1 = savmsc m + 40 * crsRow m := by
    unfold rowAddr savmsc crsRow; rw [o1, w1 _ (by decide), w1 _ (by decide)]
  obtain ⟨m2, v2, z2, s2, a2, w2, r2⟩ := ga_addr m1 (by omega)
  rw [if_neg (by omega)] at r2
  have hs2 : m2.stk = .ret k :: st := by rw [s2, s1, hs]
  refine ⟨?_, Reach.halts (r1.trans r2) ⟨4, ?_⟩, ?_⟩
  rotate_left
  · rt_exec [grCode.ret_error.eq, hs2]
    rfl
  · refine ⟨?_, rfl, ?_⟩
    · have h := v2.trans v1
      simp only [M.gv, Prod.mk.injEq] at h ⊢
      rw [z2, z1]
      exact ⟨h.1, h.2.1, rfl, h.2.2.2⟩
    · intro a ha
      have h1 : a ∉ [gTmp4, gTmp41] := fun h => ha (by
        simp only [List.mem_cons, List.not_mem_nil, or_false] at h
        rcases h with rfl | rfl <;> simp [gpCells, gaCells])
      have h2 : a ∉ [OLDROW, OLDCOL, OLDCOL1] := fun h => ha (by
        simp only [List.mem_cons, List.not_mem_nil, or_false] at h
        rcases h with rfl | rfl | rfl <;> simp [gpCells])
      exact (w2 a h1).trans (w1 a h2)

theorem xor255 (b : B) : b ^^^ 255#8 = ~~~ b := by
  have : (255#8) = BitVec.allOnes 8 := rfl
  rw [this, BitVec.xor_allOnes]

theorem same_ram {m m0 : M} (w : m0.ram = m.ram) : savmsc m0 = savmsc m ∧ crsRow m0 = crsRow m ∧ crsCol m0 = crsCol m ∧ ∀ {b}, GMode b m → GMode b m0 := by
  refine ⟨by unfold savmsc; rw [w], by unfold crsRow; rw [w], by unfold crsCol; rw [w], fun {b} h => ?_⟩
  exact h.congr (cs := []) (fun a _ => by rw [w]) (by simp)

/-- `EXE_PLOT`: the byte that is written. -/
theorem plot_ok {b : Nat} {m : M} (hm : GMode b m) (hr : savmsc m + 40 * crsRow m < 16384) :
    ∃ m' m1, Halts grCode grCode.EXE_PLOT m m' ∧ GSame gpCells m m1 ∧ m'.gv = m.gv ∧ m'.stk = m.stk ∧ m'.zp = { m.zp with tmp1 := m'.zp.tmp1 } ∧
    m1.ram OLDROW = m.ram ROWCRS ∧ m1.ram OLDCOL = m.ram COLCRS ∧ m1.ram OLDCOL1 = m.ram COLCRS1 ∧
    m'.ram = upd m1.ram (BitVec.ofNat 16 (savmsc m + 40 * crsRow m + crsCol m % 512 / (8 / b)))
      ((~~~ BitVec.ofNat 8 ((2 ^ b - 1) * 2 ^ pixShift b (crsCol m)) &&& m1.ram (BitVec.ofNat 16 (savmsc m + 40 * crsRow m + crsCol m % 512 / (8 / b)))) |||
        BitVec.ofNat 8 ((m.ram gColor).toNat % 2 ^ b * 2 ^ pixShift b (crsCol m))) := by
  have hp := hm.pos
  obtain ⟨m0, r0, s0, w0, z0, v0⟩ : ∃ m0, Reach grCode grCode.EXE_PLOT m grCode.get_pixel_addr m0 ∧ m0.stk = .ret (.lb "pl_1" :: grCode.pl_1) :: m.stk ∧ m0.ram = m.ram ∧ m0.zp = m.zp ∧ m0.gv = m.gv := by
    refine ⟨?_, ⟨3, ?_⟩, ?_⟩
    rotate_left
    · rt_exec [grCode.EXE_PLOT.eq, grCode.do_plot.eq, hp]
      rfl
    · exact ⟨rfl, rfl, rfl, rfl⟩
  obtain ⟨e1, e2, e3, e4⟩ := same_ram w0
  obtain ⟨m1, r1, v1, s1, w1, z1, a1, c1, p1, k1, o1, o2, o3⟩ := get_pixel_ok (e4 hm) s0 (by rw [e1, e2]; exact hr)
  rw [e1, e2, e3] at a1
  rw [e3] at p1 k1
  rw [w0] at k1 o1 o2 o3
  refine ⟨?_, m1, Reach.halts (r0.trans r1) ⟨8, ?_⟩, ?_, ?_⟩
  rotate_left
  · rt_exec [grCode.pl_1.eq, grCode.pl_end.eq, a1, p1, k1]
    rfl
  · intro a ha; rw [w1 a ha, w0]
  · exact ⟨v1.trans v0, s1, by rw [z1, z0], o1, o2, o3, by dsimp only; rw [xor255]⟩

/-- `EXE_PLOT` out of the memory. -/
theorem plot_err {b : Nat} {m : M} (hm : GMode b m) (hr : 16384 ≤ savmsc m + 40 * crsRow m) (hr' : savmsc m + 40 * crsRow m < 65536) :
    ∃ m', Halts grCode grCode.EXE_PLOT m m' ∧ m'.gv = ({ m with zp := { m.zp with ioerr := 18 } } : M).gv ∧ m'.stk = m.stk ∧ GSame gpCells m m' := by
  have hp := hm.pos
  obtain ⟨m0, r0, s0, w0, z0, v0⟩ : ∃ m0, Reach grCode grCode.EXE_PLOT m grCode.get_pixel_addr m0 ∧ m0.stk = .ret (.lb "pl_1" :: grCode.pl_1) :: m.stk ∧ m0.ram = m.ram ∧
      ({ m0 with zp := { m0.zp with ioerr := 18 } } : M).gv = ({ m with zp := { m.zp with ioerr := 18 } } : M).gv ∧ m0.gv = m.gv := by
    refine ⟨?_, ⟨3, ?_⟩, ?_⟩
    rotate_left
    · rt_exec [grCode.EXE_PLOT.eq, grCode.do_plot.eq, hp]
      rfl
    · exact ⟨rfl, rfl, rfl, rfl⟩
  obtain ⟨e1, e2, e3, e4⟩ := same_ram w0
  obtain ⟨m1, r1, v1, s1, w1⟩ := get_pixel_err s0 (by rw [e1, e2]; exact hr) (by rw [e1, e2]; exact hr')
  exact ⟨m1, r0.halts r1, v1.trans z0, s1, fun a ha => by rw [w1 a ha, w0]⟩

theorem ror8_pow (a d : Nat) (h : a < 256) : ror8 (BitVec.ofNat 8 (a / 2 ^ d)) false = BitVec.ofNat 8 (a / 2 ^ (d + 1)) := by
  have h1 : a / 2 ^ d < 256 := Nat.lt_of_le_of_lt (Nat.div_le_self _ _) h
  apply BitVec.eq_of_toNat_eq
  have h2 : a / 2 ^ (d + 1) = a / 2 ^ d / 2 := by rw [Nat.pow_succ, Nat.div_div_eq_div_mul]
  rw [h2]
  generalize a / 2 ^ d = q at *
  simp
  omega

/-- The loop of `EXE_LOCATE` that moves the pixel to the right. -/
theorem lo_loop (d : Nat) : ∀ m : M, m.x.toNat = d + 1 → d < 8 → ∃ m', Reach grCode grCode.rol_pix m grCode.ok_ret m' ∧ m'.gv = m.gv ∧ m'.zp = m.zp ∧ m'.stk = m.stk ∧ m'.ram = m.ram ∧
    m'.a = BitVec.ofNat 8 (m.a.toNat / 2 ^ (d + 1)) ∧ m'.x = 0#8 := by
  induction d with
  | zero =>
    intro m hx _
    have hx' : m.x = 1#8 := BitVec.eq_of_toNat_eq hx
    refine ⟨?_, ⟨4, ?_⟩, ?_⟩
    rotate_left
    · rt_exec [grCode.rol_pix.eq, hx']
      rfl
    · refine ⟨rfl, rfl, rfl, rfl, ?_, rfl⟩
      have := ror8_pow m.a.toNat 0 m.a.isLt
      simpa using this
  | succ d ih =>
    intro m hx hd
    have hne : m.x ≠ 0#8 := by intro h; rw [h] at hx; simp at hx
    have hx1 : (m.x - 1#8).toNat = d + 1 := by rw [dec_sub hne]; omega
    have hne1 : ¬ m.x - 1#8 = 0#8 := by intro h; rw [h] at hx1; simp at hx1
    obtain ⟨m', r, v, z, t, w, a, x⟩ := ih { m with a := ror8 m.a false, x := m.x - 1#8, c := lowBit m.a, z := false, n := topBit (m.x - 1#8) } hx1 (by omega)
    refine ⟨m', Reach.trans ⟨3, ?_⟩ r, v, z, t, w, ?_, x⟩
    · rt_exec [grCode.rol_pix.eq, hne1]
    · rw [a]
      have := m.a.isLt
      apply BitVec.eq_of_toNat_eq
      have e : (ror8 m.a false).toNat = m.a.toNat / 2 := by simp
      dsimp only
      rw [e, Nat.div_div_eq_div_mul, ← Nat.pow_succ']

/-- `EXE_LOCATE`: the value that is returned. -/
theorem locate_ok {b : Nat} {m : M} (hm : GMode b m) (hr : savmsc m + 40 * crsRow m < 16384) :
    ∃ m' m1, Halts grCode grCode.EXE_LOCATE m m' ∧ GSame gpCells m m1 ∧ m'.ram = m1.ram ∧ m'.gv = m.gv ∧ m'.stk = m.stk ∧ m'.x = 0#8 ∧
    m1.ram OLDROW = m.ram ROWCRS ∧ m1.ram OLDCOL = m.ram COLCRS ∧ m1.ram OLDCOL1 = m.ram COLCRS1 ∧
    m'.a = BitVec.ofNat 8 ((m1.ram (BitVec.ofNat 16 (savmsc m + 40 * crsRow m + crsCol m % 512 / (8 / b))) &&& BitVec.ofNat 8 ((2 ^ b - 1) * 2 ^ pixShift b (crsCol m))).toNat
      / 2 ^ pixShift b (crsCol m)) := by
  have hp := hm.pos
  have hb := hm.bits
  obtain ⟨m0, r0, s0, w0, v0⟩ : ∃ m0, Reach grCode grCode.EXE_LOCATE m grCode.get_pixel_addr m0 ∧ m0.stk = .ret (.lb "lo_1" :: grCode.lo_1) :: m.stk ∧ m0.ram = m.ram ∧ m0.gv = m.gv := by
    refine ⟨?_, ⟨3, ?_⟩, ?_⟩
    rotate_left
    · rt_exec [grCode.EXE_LOCATE.eq, hp]
      rfl
    · exact ⟨rfl, rfl, rfl⟩
  obtain ⟨e1, e2, e3, e4⟩ := same_ram w0
  obtain ⟨m1, r1, v1, s1, w1, z1, a1, c1, p1, k1, o1, o2, o3⟩ := get_pixel_ok (e4 hm) s0 (by rw [e1, e2]; exact hr)
  rw [e1, e2, e3] at a1
  rw [e3] at p1 c1
  rw [w0] at o1 o2 o3
  have hw : GSame gpCells m m1 := fun a ha => by rw [w1 a ha, w0]
  have hS : pixShift b (crsCol m) < 8 := by unfold pixShift; rcases hb with rfl | rfl | rfl <;> omega
  generalize hA : BitVec.ofNat 16 (savmsc m + 40 * crsRow m + crsCol m % 512 / (8 / b)) = ad at *
  generalize hP : BitVec.ofNat 8 ((2 ^ b - 1) * 2 ^ pixShift b (crsCol m)) = pm at *
  by_cases h0 : m1.ram plotRc = 0#8
  · have e0 : pixShift b (crsCol m) = 0 := by rw [← c1, h0]; rfl
    refine ⟨?_, m1, Reach.halts (r0.trans r1) ⟨6, ?_⟩, hw, ?_⟩
    rotate_left
    · rt_exec [grCode.lo_1.eq, grCode.ok_ret.eq, a1, p1, h0]
      rfl
    · refine ⟨rfl, v1.trans v0, s1, rfl, o1, o2, o3, ?_⟩
      rw [e0]
      simp
  · have hne : (m1.ram plotRc).toNat ≠ 0 := fun h => h0 (BitVec.eq_of_toNat_eq h)
    obtain ⟨m2, r2, v2, s2, w2, a2, x2⟩ : ∃ m2, Reach grCode (.lb "lo_1" :: grCode.lo_1) m1 grCode.rol_pix m2 ∧ m2.gv = m1.gv ∧ m2.stk = m1.stk ∧ m2.ram = m1.ram ∧ m2.a = m1.ram ad &&& pm ∧
        m2.x = m1.ram plotRc := by
      refine ⟨?_, ⟨6, ?_⟩, ?_⟩
      rotate_left
      · rt_exec [grCode.lo_1.eq, a1, p1, h0]
        rfl
      · exact ⟨rfl, rfl, rfl, rfl, rfl⟩
    obtain ⟨m3, r3, v3, z3, s3, w3, a3, x3⟩ := lo_loop (pixShift b (crsCol m) - 1) m2 (by rw [x2]; omega) (by omega)
    refine ⟨m3, m1, Reach.halts (r0.trans (r1.trans (r2.trans r3))) ⟨1, ?_⟩, hw, ?_⟩
    · rt_exec [grCode.ok_ret.eq]
    · refine ⟨w3.trans w2, v3.trans (v2.trans (v1.trans v0)), s3.trans (s2.trans s1), x3, o1, o2, o3, ?_⟩
      have e : pixShift b (crsCol m) - 1 + 1 = pixShift b (crsCol m) := by omega
      rw [a3, a2, e]

end FB.Rt
