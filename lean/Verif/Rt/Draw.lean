import Verif.Rt.Plot
/-!
# Graphics of the Atari 5200: the loop of `DRAWTO`

What each part of `EXE_DRAWTO` (`Verif.Rt.Graph`) does with its cells.
-/
namespace FB.Rt
open Ins Opd

/-- Numbers that do not change in the loop: the end of the line, `comp`, `delta_x`, `delta_y`, `row_add` and `col_add`. -/
structure Ln where
  y1 : Nat
  x1 : Nat
  comp : Nat
  dx : Nat
  dy : Nat
  ra : Nat
  ca : Nat

/-- The cells of the loop: row and column of the pixel, and the error. -/
structure DS (d : Ln) (row col : Nat) (E : Int) (m : M) : Prop where
  y1 : crsRow m = d.y1
  x1 : crsCol m = d.x1
  row : (m.ram OLDROW).toNat = row
  col : colOf m = col
  comp : (m.ram gComp).toNat + 256 * (m.ram gComp1).toNat = d.comp
  err : ((m.ram gErr).toNat + 256 * (m.ram gErr1).toNat : Int) = E % 65536
  dx : m.zp.tmp2.toNat + 256 * m.zp.tmp2h.toNat = d.dx
  dy : m.zp.tmp3.toNat = d.dy
  ra : (m.ram rowAdd).toNat = d.ra
  ca : (m.ram colAdd).toNat + 256 * (m.ram colAdd1).toNat = d.ca

/-- Cells of page zero that change in the loop. -/
def drCells : List W := [gErr, gErr1, OLDROW, OLDCOL, OLDCOL1]

/-- What the parts of the loop leave as it was. -/
structure DK (m m' : M) : Prop where
  gv : m'.gv = m.gv
  stk : m'.stk = m.stk
  same : GSame drCells m m'

theorem DK.trans {m m1 m2 : M} (h : DK m m1) (h' : DK m1 m2) : DK m m2 := ⟨h'.gv.trans h.gv, h'.stk.trans h.stk, h.same.trans h'.same⟩

section
variable {d : Ln} {row col : Nat} {E : Int} {m : M}

/-- The comparison of the error with `comp`. -/
theorem err_lt {el eh cl ch : B} {C : Nat} (h : ((el.toNat + 256 * eh.toNat : Nat) : Int) = E % 65536) (hC : cl.toNat + 256 * ch.toNat = C) (b1 : -16384 ≤ E) (b2 : E < 16384) (b3 : C < 16384) :
    topBit (add8 eh (~~~ ch) (addC el (~~~ cl) true)) = decide (E < C) := by
  have l1 := el.isLt; have l2 := eh.isLt; have l3 := cl.isLt; have l4 := ch.isLt
  have e1 : (addC el (~~~ cl) true).toNat = (el.toNat + (255 - cl.toNat) + 1) / 256 := by simp
  by_cases hlt : E < C
  · rw [decide_eq_true hlt]
    apply bool1
    rw [topBit_toNat, add8_toNat, e1]
    simp
    omega
  · rw [decide_eq_false hlt]
    apply bool0
    rw [topBit_toNat, add8_toNat, e1]
    simp
    omega

theorem err_neg {el eh : B} (h : ((el.toNat + 256 * eh.toNat : Nat) : Int) = E % 65536) (b1 : -16384 ≤ E) (b2 : E < 16384) : topBit eh = decide (E < 0) := by
  have l1 := el.isLt; have l2 := eh.isLt
  by_cases hlt : E < 0
  · rw [decide_eq_true hlt]
    apply bool1
    rw [topBit_toNat]
    omega
  · rw [decide_eq_false hlt]
    apply bool0
    rw [topBit_toNat]
    omega

/-- `line_start`, when the row does not change. -/
theorem ls_none (h : DS d row col E m) (b1 : -16384 ≤ E) (b2 : E < 16384) (b3 : d.comp < 16384) (hE : (d.comp : Int) ≤ E) :
    ∃ m', Reach grCode grCode.line_start m grCode.no_inc_y m' ∧ DS d row col E m' ∧ topBit m'.zp.tmp1h = decide (E < 0) ∧ DK m m' := by
  have hl := err_lt (by exact_mod_cast h.err) h.comp b1 b2 b3
  have hn := err_neg (by exact_mod_cast h.err) b1 b2
  rw [decide_eq_false (by omega)] at hl
  refine ⟨?_, ⟨6, ?_⟩, ?_⟩
  rotate_left
  · rt_exec [grCode.line_start.eq, hl]
    rfl
  · exact ⟨⟨h.y1, h.x1, h.row, h.col, h.comp, h.err, h.dx, h.dy, h.ra, h.ca⟩, hn, rfl, rfl, fun _ _ => rfl⟩

theorem sub_zero8 {a b : B} : a - b = 0#8 ↔ a.toNat = b.toNat := by
  constructor
  · intro h
    have := congrArg BitVec.toNat h
    have := a.isLt; have := b.isLt
    simp at *
    omega
  · intro h
    rw [BitVec.eq_of_toNat_eq h]
    simp

/-- `line_start`, when the row changes. -/
theorem ls_inc (h : DS d row col E m) (b1 : -16384 ≤ E) (b2 : E < 16384) (b3 : d.comp < 16384) (hE : E < d.comp) (hr : row ≠ d.y1) :
    ∃ m', Reach grCode grCode.line_start m grCode.no_inc_y m' ∧ DS d ((row + d.ra) % 256) col (E + d.dx) m' ∧ topBit m'.zp.tmp1h = decide (E < 0) ∧ DK m m' := by
  have hl := err_lt (by exact_mod_cast h.err) h.comp b1 b2 b3
  have hn := err_neg (by exact_mod_cast h.err) b1 b2
  rw [decide_eq_true (by omega)] at hl
  have hz : ¬ m.ram OLDROW - m.ram ROWCRS = 0#8 := fun e => hr (by rw [← h.row, ← h.y1]; exact sub_zero8.1 e)
  have hz' : ¬ m.ram OLDROW = m.ram ROWCRS := fun e => hz (by rw [e]; simp)
  have q1 := h.err
  have q2 := h.dx
  have q3 := h.row
  have q4 := h.ra
  have q5 := (m.ram gErr).isLt
  have q6 := m.zp.tmp2.isLt
  refine ⟨?_, ⟨20, ?_⟩, ?_⟩
  rotate_left
  · rt_exec [grCode.line_start.eq, hl, hz, hz', upd_app]
    rfl
  · refine ⟨⟨?_, ?_, ?_, ?_, ?_, ?_, h.dx, h.dy, ?_, ?_⟩, hn, rfl, rfl, ?_⟩
    · simpa [crsRow, upd_app] using h.y1
    · simpa [crsCol, upd_app] using h.x1
    · simp [upd_app, q3, q4]
    · simpa [colOf, upd_app] using h.col
    · simpa [upd_app] using h.comp
    · simp [upd_app]
      omega
    · simpa [upd_app] using h.ra
    · simpa [upd_app] using h.ca
    · intro a ha
      simp only [drCells, List.mem_cons, List.not_mem_nil, or_false, not_or] at ha
      simp [upd_app, ha]

/-- `line_start`, when the row should change but is the last: the end. -/
theorem ls_end (h : DS d row col E m) (b1 : -16384 ≤ E) (b2 : E < 16384) (b3 : d.comp < 16384) (hE : E < d.comp) (hr : row = d.y1) :
    ∃ m', Halts grCode grCode.line_start m m' ∧ (m'.ram OLDROW).toNat = row ∧ colOf m' = col ∧ DK m m' := by
  have hl := err_lt (by exact_mod_cast h.err) h.comp b1 b2 b3
  rw [decide_eq_true (by omega)] at hl
  have hz : m.ram OLDROW = m.ram ROWCRS := BitVec.eq_of_toNat_eq (by rw [h.row, hr, ← h.y1]; rfl)
  have hz' : m.ram OLDROW - m.ram ROWCRS = 0#8 := by rw [hz]; simp
  refine ⟨?_, ⟨18, ?_⟩, ?_⟩
  rotate_left
  · rt_exec [grCode.line_start.eq, grCode.end_line.eq, hl, hz, upd_app]
    rfl
  · refine ⟨?_, ?_, rfl, rfl, ?_⟩
    · simpa [upd_app] using h.row
    · simpa [colOf, upd_app] using h.col
    · intro a ha
      simp only [drCells, List.mem_cons, List.not_mem_nil, or_false, not_or] at ha
      simp [upd_app, ha]

/-- `no_inc_y`, when the column does not change. -/
theorem nx_none (h : DS d row col E m) (hn : topBit m.zp.tmp1h = true) : ∃ m', Reach grCode grCode.no_inc_y m grCode.no_inc_x m' ∧ DS d row col E m' ∧ DK m m' := by
  refine ⟨?_, ⟨2, ?_⟩, ?_⟩
  rotate_left
  · rt_exec [grCode.no_inc_y.eq, hn]
    rfl
  · exact ⟨⟨h.y1, h.x1, h.row, h.col, h.comp, h.err, h.dx, h.dy, h.ra, h.ca⟩, rfl, rfl, fun _ _ => rfl⟩

/-- `no_inc_y`, when the column changes: the new error. -/
theorem nx_err (h : DS d row col E m) (hn : topBit m.zp.tmp1h = false) : ∃ m', Reach grCode grCode.no_inc_y m grCode.nx_1 m' ∧ DS d row col (E - d.dy) m' ∧ DK m m' := by
  have q1 := h.err
  have q2 := h.dy
  have q5 := (m.ram gErr).isLt
  have q6 := m.zp.tmp3.isLt
  refine ⟨?_, ⟨10, ?_⟩, ?_⟩
  rotate_left
  · rt_exec [grCode.no_inc_y.eq, hn, upd_app]
    rfl
  · refine ⟨⟨?_, ?_, ?_, ?_, ?_, ?_, h.dx, h.dy, ?_, ?_⟩, rfl, rfl, ?_⟩
    · simpa [crsRow, upd_app] using h.y1
    · simpa [crsCol, upd_app] using h.x1
    · simpa [upd_app] using h.row
    · simpa [colOf, upd_app] using h.col
    · simpa [upd_app] using h.comp
    · simp [upd_app]
      omega
    · simpa [upd_app] using h.ra
    · simpa [upd_app] using h.ca
    · intro a ha
      simp only [drCells, List.mem_cons, List.not_mem_nil, or_false, not_or] at ha
      simp [upd_app, ha]

theorem nx_end (h : DS d row col E m) (hc : col = d.x1) : ∃ m', Halts grCode grCode.nx_1 m m' ∧ (m'.ram OLDROW).toNat = row ∧ colOf m' = col ∧ DK m m' := by
  have q1 := h.col
  have q2 := h.x1
  unfold colOf at q1
  unfold crsCol at q2
  have l1 := (m.ram OLDCOL).isLt; have l2 := (m.ram COLCRS).isLt
  have e1 : m.ram OLDCOL = m.ram COLCRS := BitVec.eq_of_toNat_eq (by omega)
  have e2 : m.ram OLDCOL1 = m.ram COLCRS1 := BitVec.eq_of_toNat_eq (by omega)
  refine ⟨?_, ⟨7, ?_⟩, ?_⟩
  rotate_left
  · rt_exec [grCode.nx_1.eq, grCode.end_line.eq, e1, e2]
    rfl
  · exact ⟨h.row, h.col, rfl, rfl, fun _ _ => rfl⟩

theorem nx_eol (h : DS d row col E m) (hc : col ≠ d.x1) : ∃ m', Reach grCode grCode.nx_1 m grCode.no_eol m' ∧ m'.zp = m.zp ∧ m'.ram = m.ram ∧ m'.a = m.ram OLDCOL ∧ m'.x = m.ram OLDCOL1 ∧ m'.gv = m.gv ∧
    m'.stk = m.stk := by
  have q1 := h.col
  have q2 := h.x1
  unfold colOf at q1
  unfold crsCol at q2
  by_cases hl : m.ram OLDCOL = m.ram COLCRS
  · have hh : ¬ m.ram OLDCOL1 = m.ram COLCRS1 := by
      intro e
      rw [hl, e] at q1
      omega
    have hz : ¬ m.ram OLDCOL1 - m.ram COLCRS1 = 0#8 := fun e => hh (BitVec.eq_of_toNat_eq (sub_zero8.1 e))
    refine ⟨?_, ⟨7, ?_⟩, ?_⟩
    rotate_left
    · rt_exec [grCode.nx_1.eq, hl, hz]
      rfl
    · exact ⟨rfl, rfl, hl.symm, rfl, rfl, rfl⟩
  · have hz : ¬ m.ram OLDCOL - m.ram COLCRS = 0#8 := fun e => hl (BitVec.eq_of_toNat_eq (sub_zero8.1 e))
    refine ⟨?_, ⟨4, ?_⟩, ?_⟩
    rotate_left
    · rt_exec [grCode.nx_1.eq, hl, hz]
      rfl
    · exact ⟨rfl, rfl, rfl, rfl, rfl, rfl⟩

theorem nx_inc (h : DS d row col E m) (hc : col ≠ d.x1) : ∃ m', Reach grCode grCode.nx_1 m grCode.no_inc_x m' ∧ DS d row ((col + d.ca) % 65536) E m' ∧ DK m m' := by
  obtain ⟨m1, r1, z1, w1, a1, x1, v1, s1⟩ := nx_eol h hc
  have q1 := h.col
  unfold colOf at q1
  have q2 := h.ca
  have l1 := (m.ram OLDCOL).isLt; have l2 := (m.ram colAdd).isLt
  refine ⟨?_, r1.trans ⟨7, ?_⟩, ?_⟩
  rotate_left
  · rt_exec [grCode.no_eol.eq, a1, x1, w1, upd_app]
    rfl
  · refine ⟨⟨?_, ?_, ?_, ?_, ?_, ?_, by simpa [z1] using h.dx, by simpa [z1] using h.dy, ?_, ?_⟩, v1, s1, ?_⟩
    · simpa [crsRow, upd_app] using h.y1
    · simpa [crsCol, upd_app] using h.x1
    · simpa [upd_app] using h.row
    · simp [colOf, upd_app]
      omega
    · simpa [upd_app] using h.comp
    · simpa [upd_app] using h.err
    · simpa [upd_app] using h.ra
    · simpa [upd_app] using h.ca
    · intro a ha
      simp only [drCells, List.mem_cons, List.not_mem_nil, or_false, not_or] at ha
      simp [upd_app, ha]

end

/-- Distance of two numbers. -/
def dist (a b : Nat) : Nat := if a ≤ b then b - a else a - b

theorem xorMod (n : Nat) : n % 256 ^^^ 255 = 255 - n % 256 := by
  have := xorFF' (BitVec.ofNat 8 n)
  simpa using this

/-- `EXE_DRAWTO`: the difference of the rows. -/
theorem dr_y (m : M) : ∃ m', Reach grCode grCode.EXE_DRAWTO m grCode.dr_ypos m' ∧ m'.a.toNat = dist (m.ram OLDROW).toNat (crsRow m) ∧
    m'.y.toNat = (if (m.ram OLDROW).toNat ≤ crsRow m then 1 else 255) ∧ m'.ram = m.ram ∧ m'.gv = m.gv ∧ m'.stk = m.stk := by
  unfold dist crsRow
  have l1 := (m.ram OLDROW).isLt; have l2 := (m.ram ROWCRS).isLt
  generalize hr : m.ram OLDROW = r at *
  generalize hq : m.ram ROWCRS = q at *
  by_cases h : r.toNat ≤ q.toNat
  · rw [if_pos h, if_pos h]
    have hc : addC q (~~~ r) true = true := by apply bool1; simp; omega
    refine ⟨?_, ⟨5, ?_⟩, ?_⟩
    rotate_left
    · rt_exec [grCode.EXE_DRAWTO.eq, hr, hq, hc]
      rfl
    · refine ⟨?_, rfl, rfl, rfl, rfl⟩
      simp; omega
  · rw [if_neg h, if_neg h]
    have hc : addC q (~~~ r) true = false := by apply bool0; simp; omega
    refine ⟨?_, ⟨9, ?_⟩, ?_⟩
    rotate_left
    · rt_exec [grCode.EXE_DRAWTO.eq, hr, hq, hc]
      rfl
    · refine ⟨?_, rfl, rfl, rfl, rfl⟩
      simp [xorMod]; omega

/-- `EXE_DRAWTO`: the difference of the columns. -/
theorem dr_x (m : M) : ∃ m', Reach grCode grCode.dr_ypos m grCode.dr_xpos m' ∧ m'.y.toNat + 256 * m'.a.toNat = dist (colOf m) (crsCol m) ∧
    m'.x.toNat + 256 * (m'.ram colAdd1).toNat = (if colOf m ≤ crsCol m then 1 else 65535) ∧ m'.c = decide (colOf m ≤ crsCol m) ∧ m'.zp.tmp3 = m.a ∧ m'.ram rowAdd = m.y ∧
    GSame [rowAdd, colAdd1] m m' ∧ m'.gv = m.gv ∧ m'.stk = m.stk := by
  unfold dist colOf crsCol
  have l1 := (m.ram OLDCOL).isLt; have l2 := (m.ram COLCRS).isLt; have l3 := (m.ram OLDCOL1).isLt; have l4 := (m.ram COLCRS1).isLt
  generalize hr : m.ram OLDCOL = r at *
  generalize hq : m.ram COLCRS = q at *
  generalize hr1 : m.ram OLDCOL1 = r1 at *
  generalize hq1 : m.ram COLCRS1 = q1 at *
  have e1 : (addC q (~~~ r) true).toNat = (q.toNat + (255 - r.toNat) + 1) / 256 := by simp
  by_cases h : r.toNat + 256 * r1.toNat ≤ q.toNat + 256 * q1.toNat
  · rw [if_pos h, if_pos h, decide_eq_true h]
    have hc : addC q1 (~~~ r1) (addC q (~~~ r) true) = true := by apply bool1; rw [addC_toNat, e1]; simp; omega
    refine ⟨?_, ⟨12, ?_⟩, ?_⟩
    rotate_left
    · rt_exec [grCode.dr_ypos.eq, hr, hq, hr1, hq1, hc, upd_app]
      rfl
    · refine ⟨?_, ?_, rfl, rfl, ?_, ?_, rfl, rfl⟩
      · simp; omega
      · simp [upd_app]
      · simp [upd_app]
      · intro a ha
        simp only [List.mem_cons, List.not_mem_nil, or_false, not_or] at ha
        simp [upd_app, ha]
  · rw [if_neg h, if_neg h, decide_eq_false h]
    have hc : addC q1 (~~~ r1) (addC q (~~~ r) true) = false := by apply bool0; rw [addC_toNat, e1]; simp; omega
    refine ⟨?_, ⟨23, ?_⟩, ?_⟩
    rotate_left
    · rt_exec [grCode.dr_ypos.eq, hr, hq, hr1, hq1, hc, upd_app]
      rfl
    · refine ⟨?_, ?_, ?_, rfl, ?_, ?_, rfl, rfl⟩
      · simp [xorMod]; omega
      · simp [upd_app]
      · apply bool0; simp [xorMod]; omega
      · simp [upd_app]
      · intro a ha
        simp only [List.mem_cons, List.not_mem_nil, or_false, not_or] at ha
        simp [upd_app, ha]

/-- `EXE_DRAWTO`: `comp` and the error. -/
theorem dr_c (m : M) (hx : m.y.toNat + 256 * m.a.toNat < 32768) : ∃ m', Reach grCode grCode.dr_xpos m grCode.line_start m' ∧
    m'.zp.tmp2 = m.y ∧ m'.zp.tmp2h = m.a ∧ m'.zp.tmp3 = m.zp.tmp3 ∧ m'.ram colAdd = m.x ∧
    (m'.ram gComp).toNat + 256 * (m'.ram gComp1).toNat = (m.y.toNat + 256 * m.a.toNat + m.zp.tmp3.toNat + m.c.toNat) / 2 ∧
    ((m'.ram gErr).toNat + 256 * (m'.ram gErr1).toNat : Int) = ((m.y.toNat + 256 * m.a.toNat : Nat) - (m.zp.tmp3.toNat / 2 : Nat) : Int) % 65536 ∧
    GSame [colAdd, gComp, gComp1, gErr, gErr1] m m' ∧ m'.gv = m.gv ∧ m'.stk = m.stk := by
  have l1 := m.y.isLt; have l2 := m.a.isLt; have l3 := m.zp.tmp3.isLt
  have lc : m.c.toNat ≤ 1 := by cases m.c <;> decide
  refine ⟨?_, ⟨22, ?_⟩, ?_⟩
  rotate_left
  · rt_exec [grCode.dr_xpos.eq, grCode.dr_go.eq, upd_app]
    rfl
  · refine ⟨rfl, rfl, rfl, ?_, ?_, ?_, ?_, rfl, rfl⟩
    · simp [upd_app]
    · simp [upd_app]; omega
    · have hq := xorMod (m.zp.tmp3.toNat / 2)
      rw [Nat.mod_eq_of_lt (by omega)] at hq
      simp [upd_app, hq]; omega
    · intro a ha
      simp only [List.mem_cons, List.not_mem_nil, or_false, not_or] at ha
      simp [upd_app, ha]

/-- The numbers of a line. -/
def lineOf (x0 y0 x1 y1 : Nat) : Ln where
  y1 := y1
  x1 := x1
  dx := dist x0 x1
  dy := dist y0 y1
  comp := (dist x0 x1 + dist y0 y1 + if x0 ≤ x1 then 1 else 0) / 2
  ra := if y0 ≤ y1 then 1 else 255
  ca := if x0 ≤ x1 then 1 else 65535

/-- Cells of page zero that the start of `EXE_DRAWTO` changes. -/
def dsCells : List W := [rowAdd, colAdd, colAdd1, gComp, gComp1, gErr, gErr1]

/-- The start of `EXE_DRAWTO`. -/
theorem dr_start (m : M) (h0 : colOf m < 512) (h1 : crsCol m < 512) : ∃ m', Reach grCode grCode.EXE_DRAWTO m grCode.line_start m' ∧
    DS (lineOf (colOf m) (m.ram OLDROW).toNat (crsCol m) (crsRow m)) (m.ram OLDROW).toNat (colOf m) (dist (colOf m) (crsCol m) - (dist (m.ram OLDROW).toNat (crsRow m) / 2 : Nat)) m' ∧
    GSame dsCells m m' ∧ m'.gv = m.gv ∧ m'.stk = m.stk := by
  obtain ⟨m1, r1, a1, y1, w1, v1, s1⟩ := dr_y m
  obtain ⟨m2, r2, a2, x2, c2, t2, k2, w2, v2, s2⟩ := dr_x m1
  have e1 : colOf m1 = colOf m := by unfold colOf; rw [w1]
  have e2 : crsCol m1 = crsCol m := by unfold crsCol; rw [w1]
  rw [e1, e2] at a2 x2 c2
  have hd : dist (colOf m) (crsCol m) < 512 := by unfold dist; split <;> omega
  obtain ⟨m3, r3, p3, q3, t3, k3, c3, f3, w3, v3, s3⟩ := dr_c m2 (by omega)
  have hs : GSame dsCells m m3 := by
    intro a ha
    simp only [dsCells, List.mem_cons, List.not_mem_nil, or_false, not_or] at ha
    rw [w3 a (by simp [ha]), w2 a (by simp [ha]), w1]
  refine ⟨m3, r1.trans (r2.trans r3), ⟨?_, ?_, ?_, ?_, ?_, ?_, ?_, ?_, ?_, ?_⟩, hs, v3.trans (v2.trans v1), s3.trans (s2.trans s1)⟩
  · unfold crsRow; rw [hs _ (by decide)]; rfl
  · unfold crsCol; rw [hs _ (by decide), hs _ (by decide)]; rfl
  · rw [hs _ (by decide)]
  · unfold colOf; rw [hs _ (by decide), hs _ (by decide)]
  · rw [c3, a2, t2, a1, c2]
    simp only [lineOf]
    by_cases h : colOf m ≤ crsCol m <;> simp [h]
  · rw [f3, a2, t2, a1]
  · rw [p3, q3, a2]; rfl
  · rw [t3, t2, a1]; rfl
  · rw [w3 _ (by decide), k2, y1]; rfl
  · rw [k3, w3 colAdd1 (by decide), x2]; rfl

end FB.Rt
