import Verif.Rt.Draw
import Verif.Props.C49
/-!
# C50: `DRAWTO` on the Atari 5200
-/
namespace FB.Rt
open Ins Opd

/-- Specification: the pixel `(col, row)` has bit `k` of the screen. -/
def covers (b k : Nat) (p : Nat × Nat) : Bool := decide (pixBit b p.2 p.1 ≤ k ∧ k < pixBit b p.2 p.1 + b)

/-- Specification: the screen at `s` is the same, but for the pixels of the list, that have the color. -/
def Paint (b s color : Nat) (ps : List (Nat × Nat)) (r r' : W → B) : Prop :=
  ∀ k, s + k / 8 < 65536 → scrBit r' s k = if ps.any (covers b k) then color.testBit (b - 1 - k % b) else scrBit r s k

theorem Paint.trans {b s color : Nat} {ps qs : List (Nat × Nat)} {r r' r'' : W → B} (h : Paint b s color ps r r') (h' : Paint b s color qs r' r'') : Paint b s color (ps ++ qs) r r'' := by
  intro k hk
  rw [h' k hk, h k hk, List.any_append]
  cases ps.any (covers b k) <;> cases qs.any (covers b k) <;> rfl

theorem Paint.nil {b s color : Nat} {r r' : W → B} (h : ∀ a : W, s ≤ a.toNat → r' a = r a) : Paint b s color [] r r' := by
  intro k hk
  rw [scrBit, scrBit, h _ (by rw [BitVec.toNat_ofNat]; omega)]
  rfl

/-- Cells of page zero that change in `DRAWTO`. -/
def dwCells : List W := gaCells ++ drCells ++ dsCells

theorem dw_low {a : W} (h : 256 ≤ a.toNat) : a ∉ dwCells := by
  intro hin
  have : ∀ c ∈ dwCells, c.toNat < 256 := by simp [dwCells, gaCells, drCells, dsCells]
  have := this a hin
  omega

/-- The memory is the same, but for the screen and the cells. -/
def DFr (s : Nat) (m m' : M) : Prop := ∀ a, a ∉ dwCells → a.toNat < s ∨ 0x4100 ≤ a.toNat → m'.ram a = m.ram a

theorem DFr.trans {s : Nat} {m m1 m2 : M} (h : DFr s m m1) (h' : DFr s m1 m2) : DFr s m m2 := fun a ha hs => (h' a ha hs).trans (h a ha hs)

/-- The mode of graphics, the address of the screen and the color. -/
structure GS (b s color : Nat) (m : M) : Prop where
  mode : GMode b m
  scr : savmsc m = s
  color : (m.ram gColor).toNat = color

theorem GS.keep {b s color : Nat} {m m' : M} (h : GS b s color m) (hs : 256 ≤ s) (hf : DFr s m m') : GS b s color m' := by
  have hk : ∀ a : W, a ∈ [DINDEX, SAVMSC, SAVMSC1, gColor] → m'.ram a = m.ram a := by
    intro a ha
    simp only [List.mem_cons, List.not_mem_nil, or_false] at ha
    apply hf
    · rcases ha with rfl | rfl | rfl | rfl <;> decide
    · left
      rcases ha with rfl | rfl | rfl | rfl <;> (simp; omega)
  refine ⟨h.mode.of_same ?_, ?_, ?_⟩
  · intro a ha
    rcases ha with rfl | ha
    · exact hk _ (by simp)
    · exact hf a (dw_low (by omega)) (.inr (by omega))
  · rw [← h.scr]; unfold savmsc; rw [hk SAVMSC (by simp), hk SAVMSC1 (by simp)]
  · rw [hk gColor (by simp), h.color]

theorem DFr.of_same {s : Nat} {cs : List W} {m m' : M} (h : GSame cs m m') (hc : ∀ c ∈ cs, c ∈ dwCells) : DFr s m m' := fun a ha _ => h a fun hin => ha (hc a hin)

theorem Paint.of_same {b s color : Nat} {cs : List W} {m m' : M} (hs : 256 ≤ s) (h : GSame cs m m') (hc : ∀ c ∈ cs, c ∈ dwCells) : Paint b s color [] m.ram m'.ram :=
  .nil fun a ha => h a fun hin => dw_low (by omega) (hc a hin)

theorem pix_mod {b : Nat} (hb : b = 1 ∨ b = 2 ∨ b = 4) (row col k : Nat) (h : pixBit b row col ≤ k) (h' : k < pixBit b row col + b) : pixBit b row col + b - 1 - k = b - 1 - k % b := by
  unfold pixBit at *
  rcases hb with rfl | rfl | rfl <;> omega

/-- Writing the byte of a pixel. -/
theorem paint_one {b s color row col : Nat} {r r' : W → B} (hb : b = 1 ∨ b = 2 ∨ b = 4) (hc : col < 512) (hr : s + 40 * row < 16384)
    (w : r' = upd r (BitVec.ofNat 16 (s + 40 * row + col % 512 / (8 / b)))
      ((~~~ BitVec.ofNat 8 ((2 ^ b - 1) * 2 ^ pixShift b col) &&& r (BitVec.ofNat 16 (s + 40 * row + col % 512 / (8 / b)))) ||| BitVec.ofNat 8 (color % 2 ^ b * 2 ^ pixShift b col))) :
    Paint b s color [(col, row)] r r' ∧ ∀ a, a.toNat < s ∨ 0x4100 ≤ a.toNat → r' a = r a := by
  obtain ⟨e1, e2, e3⟩ := pix_place hb row col
  have e4 := pix_mod hb row col
  generalize hq : pixBit b row col = q at *
  rw [Nat.mod_eq_of_lt hc, Nat.add_assoc, ← e1, e2] at w
  have hcol : col / (8 / b) < 256 := by rcases hb with rfl | rfl | rfl <;> omega
  constructor
  · intro k hk
    simp only [List.any_cons, List.any_nil, Bool.or_false, covers, hq, decide_eq_true_eq]
    unfold scrBit
    by_cases hb : k / 8 = q / 8
    · rw [w, hb, upd_at, plot_bit _ _ _ _ _ (by omega)]
      by_cases hin : q ≤ k ∧ k < q + b
      · rw [if_pos hin, if_pos (by omega), ← e4 k hin.1 hin.2]
        congr 1
        omega
      · rw [if_neg hin, if_neg (by omega)]
    · rw [w, upd_ne, if_neg (by omega)]
      intro e
      have e' := congrArg BitVec.toNat e
      rw [BitVec.toNat_ofNat, BitVec.toNat_ofNat] at e'
      omega
  · intro a hlt
    rw [w, upd_ne]
    intro e
    rw [e, BitVec.toNat_ofNat] at hlt
    omega

/-- The part of the loop that paints. -/
theorem dr_plot {d : Ln} {row col : Nat} {E : Int} {m : M} {b s color : Nat} (h : DS d row col E m) (g : GS b s color m) (hs : 256 ≤ s) (hc : col < 512) (hr : s + 40 * row < 16384) :
    ∃ m', Reach grCode grCode.no_inc_x m grCode.line_start m' ∧ DS d row col E m' ∧ GS b s color m' ∧ Paint b s color [(col, row)] m.ram m'.ram ∧ DFr s m m' ∧ m'.gv = m.gv ∧ m'.stk = m.stk := by
  obtain ⟨m0, r0, s0, w0, z0, v0⟩ : ∃ m0, Reach grCode grCode.no_inc_x m grCode.get_addr m0 ∧ m0.stk = .ret (.lb "dr_1" :: grCode.dr_1) :: m.stk ∧ m0.ram = m.ram ∧ m0.zp = m.zp ∧ m0.gv = m.gv := by
    refine ⟨?_, ⟨1, ?_⟩, ?_⟩
    rotate_left
    · rt_exec [grCode.no_inc_x.eq]
      rfl
    · exact ⟨rfl, rfl, rfl, rfl⟩
  have e1 : rowAddr m0 = s + 40 * row := by
    rw [← g.scr, ← h.row]; unfold rowAddr savmsc; rw [w0]
  have e2 : colOf m0 = col := by rw [← h.col]; unfold colOf; rw [w0]
  obtain ⟨m1, r1, v1, s1, w1, z1, a1, c1, p1, k1⟩ := get_addr_ok (b := b) (g.mode.congr (cs := []) (fun a _ => by rw [w0]) (by simp)) s0 (by rw [e1]; exact hr)
  rw [e1, e2] at a1
  rw [e2] at p1 k1
  rw [w0, g.color] at k1
  obtain ⟨m2, r2, v2, s2, z2, w2⟩ : ∃ m2, Reach grCode (.lb "dr_1" :: grCode.dr_1) m1 grCode.line_start m2 ∧ m2.gv = m1.gv ∧ m2.stk = m1.stk ∧ m2.zp = m1.zp ∧
      m2.ram = upd m1.ram (BitVec.ofNat 16 (s + 40 * row + col % 512 / (8 / b)))
        ((~~~ BitVec.ofNat 8 ((2 ^ b - 1) * 2 ^ pixShift b col) &&& m1.ram (BitVec.ofNat 16 (s + 40 * row + col % 512 / (8 / b)))) ||| BitVec.ofNat 8 (color % 2 ^ b * 2 ^ pixShift b col)) := by
    refine ⟨?_, ⟨7, ?_⟩, ?_⟩
    rotate_left
    · rt_exec [grCode.dr_1.eq, a1, p1, k1]
      rfl
    · exact ⟨rfl, rfl, rfl, by dsimp only; rw [xor255]⟩
  obtain ⟨hp, hl⟩ := paint_one g.mode.bits hc hr w2
  have w1' : GSame gaCells m m1 := fun a ha => by rw [w1 a ha, w0]
  have hcg : ∀ c ∈ gaCells, c ∈ dwCells := by simp [dwCells, gaCells]
  have hf : DFr s m m2 := (DFr.of_same w1' hcg).trans fun a _ ha' => hl a ha'
  have hk : ∀ a : W, a ∉ gaCells → a.toNat < 256 → m2.ram a = m.ram a := fun a ha ha' => by rw [hl a (.inl (by omega)), w1' a ha]
  refine ⟨m2, r0.trans (r1.trans r2), ⟨?_, ?_, ?_, ?_, ?_, ?_, ?_, ?_, ?_, ?_⟩, g.keep hs hf, ?_, hf, v2.trans (v1.trans v0), s2.trans s1⟩
  · rw [← h.y1]; unfold crsRow; rw [hk _ (by decide) (by decide)]
  · rw [← h.x1]; unfold crsCol; rw [hk _ (by decide) (by decide), hk _ (by decide) (by decide)]
  · rw [hk _ (by decide) (by decide), h.row]
  · rw [← h.col]; unfold colOf; rw [hk _ (by decide) (by decide), hk _ (by decide) (by decide)]
  · rw [← h.comp, hk _ (by decide) (by decide), hk _ (by decide) (by decide)]
  · rw [← h.err, hk _ (by decide) (by decide), hk _ (by decide) (by decide)]
  · rw [← h.dx, z2, z1, z0]
  · rw [← h.dy, z2, z1, z0]
  · rw [hk _ (by decide) (by decide), h.ra]
  · rw [← h.ca, hk _ (by decide) (by decide), hk _ (by decide) (by decide)]
  · exact (Paint.of_same hs w1' hcg).trans hp

/-- Specification: `j` steps from `a` in the direction of `b`. -/
def stepTo (a b j : Nat) : Nat := if a ≤ b then a + j else a - j

/-- Specification: after `i` steps in one direction and `j` in the other, the distance to the line of `dx` by `dy` steps, in the direction in which the line is the shortest, is at most half a
pixel, plus one part of the long side on one of the sides of the line. -/
def Near (dx dy i j : Nat) : Prop := 2 * (dx * j) ≤ 2 * (dy * i) + max dx dy ∧ 2 * (dy * i) ≤ 2 * (dx * j) + max dx dy + 2

/-- Specification: a walk of connected points, each one near the line, that never goes back. -/
inductive Walk (dx dy : Nat) : Nat × Nat → List (Nat × Nat) → Prop
  | nil (p : Nat × Nat) : Walk dx dy p []
  | cons {i j i' j' : Nat} {ps : List (Nat × Nat)} (hi : i' = i ∨ i' = i + 1) (hj : j' = j ∨ j' = j + 1) (hne : (i', j') ≠ (i, j)) (hdx : i' ≤ dx) (hdy : j' ≤ dy) (hn : Near dx dy i' j')
      (h : Walk dx dy (i', j') ps) : Walk dx dy (i, j) ((i', j') :: ps)

/-- The lines with a last pixel that is not painted. -/
def lost (x0 y0 x1 y1 : Nat) : Prop := dist y0 y1 = 1 ∧ dist x0 x1 + (if x0 ≤ x1 then 1 else 0) ≤ 2

instance (x0 y0 x1 y1 : Nat) : Decidable (lost x0 y0 x1 y1) := inferInstanceAs (Decidable (_ ∧ _))

/-- The pixel after some steps. -/
def pt (x0 y0 x1 y1 : Nat) (p : Nat × Nat) : Nat × Nat := (stepTo x0 x1 p.1, stepTo y0 y1 p.2)

theorem stepTo_eq {a b j : Nat} (h : j ≤ dist a b) : stepTo a b j = b ↔ j = dist a b := by
  by_cases hab : a ≤ b
  · simp only [stepTo, dist, if_pos hab] at *; omega
  · simp only [stepTo, dist, if_neg hab] at *; omega

theorem stepTo_lt {a b j n : Nat} (h : j ≤ dist a b) (ha : a < n) (hb : b < n) : stepTo a b j < n := by
  by_cases hab : a ≤ b
  · simp only [stepTo, dist, if_pos hab] at *; omega
  · simp only [stepTo, dist, if_neg hab] at *; omega

theorem stepTo_add {a b j n : Nat} (h : j < dist a b) (ha : a < n) (hb : b < n) : (stepTo a b j + if a ≤ b then 1 else n - 1) % n = stepTo a b (j + 1) := by
  by_cases hab : a ≤ b
  · simp only [stepTo, dist, if_pos hab] at *
    rw [Nat.mod_eq_of_lt (by omega)]; omega
  · simp only [stepTo, dist, if_neg hab] at *
    rw [show a - j + (n - 1) = a - (j + 1) + n by omega, Nat.add_mod_right, Nat.mod_eq_of_lt (by omega)]

theorem near_of {dx dy i j c C : Nat} {E : Int} (hc : c ≤ 1) (hC : C = (dx + dy + c) / 2) (hE : E = (dx * j : Nat) + dx - (dy * i : Nat) - (dy / 2 : Nat))
    (hlo : E ≥ C - dy ∨ E ≥ (dx : Int) - dy) (hup : E ≤ dx - (dy / 2 : Nat) ∨ E ≤ (dx : Int) - 1 ∨ E ≤ C - 1 + dx - dy) : Near dx dy i j := by
  unfold Near
  generalize dx * j = P at *
  generalize dy * i = Q at *
  rcases Nat.le_total dx dy with h | h
  · rw [Nat.max_eq_right h]
    rcases hlo with hlo | hlo <;> rcases hup with hup | hup | hup <;> omega
  · rw [Nat.max_eq_left h]
    rcases hlo with hlo | hlo <;> rcases hup with hup | hup | hup <;> omega

/-- Arithmetic: the products, that are linear for each step. -/
theorem err_mul {dx dy i j : Nat} : ((dx * (j + 1) : Nat) : Int) = (dx * j : Nat) + dx ∧ ((dy * (i + 1) : Nat) : Int) = (dy * i : Nat) + dy := by
  rw [Nat.mul_add, Nat.mul_add]; omega

theorem walk_end1 {dx dy i C : Nat} {E : Int} (hC : 2 * C ≤ dx + dy + 1) (hi : i ≤ dx) (hE : E = (dx * dy : Nat) + dx - (dy * i : Nat) - (dy / 2 : Nat)) (h : E < C) : i = dx := by
  rcases Nat.lt_or_eq_of_le hi with hlt | rfl
  · exfalso
    have h1 : dy * (i + 1) ≤ dy * dx := Nat.mul_le_mul_left _ hlt
    rw [Nat.mul_add, Nat.mul_comm dy dx] at h1
    omega
  · rfl

theorem walk_end2 {dx dy j : Nat} {E : Int} (hj : j < dy) (hE : E = (dx * j : Nat) + dx - (dy * dx : Nat) - (dy / 2 : Nat)) (h : 0 ≤ E) : dy = 1 ∧ j = 0 ∧ E = 0 := by
  have h1 : dx * (j + 1) ≤ dx * dy := Nat.mul_le_mul_left _ hj
  rw [Nat.mul_add, Nat.mul_comm dx dy] at h1
  have h2 : dy = 1 := by omega
  subst h2
  have h3 : j = 0 := by omega
  subst h3
  refine ⟨rfl, rfl, ?_⟩
  simp at hE
  omega

/-- What is true of the steps and of the error at each time in the loop. -/
structure LInv (dx dy c C i j : Nat) (E : Int) : Prop where
  hi : i ≤ dx
  hj : j ≤ dy
  err : E = (dx * j : Nat) + dx - (dy * i : Nat) - (dy / 2 : Nat)
  lo : E ≥ C - dy ∨ E ≥ (dx : Int) - dy
  up : E ≤ dx - (dy / 2 : Nat) ∨ E ≤ (dx : Int) - 1 ∨ E ≤ C - 1 + dx - dy
  z : j = 0 → i = 0 ∨ C ≤ E + dy
  lost : dy = 1 ∧ dx + c ≤ 2 → j = 0

section
variable {dx dy c C i j : Nat} {E : Int}

theorem LInv.stepY (h : LInv dx dy c C i j E) (hC : C = (dx + dy + c) / 2) (hE : E < 0) (hj : j ≠ dy) : LInv dx dy c C i (j + 1) (E + dx) := by
  obtain ⟨h1, h2, h3, h4, h5, h6, h7⟩ := h
  have mul := err_mul (dx := dx) (dy := dy) (i := i) (j := j)
  refine ⟨h1, by omega, by omega, by omega, by omega, by omega, ?_⟩
  intro hl
  have h0 := h7 hl
  subst h0
  rw [hl.1] at h3
  omega

theorem LInv.stepX (h : LInv dx dy c C i j E) (hE : C ≤ E) (hi : i ≠ dx) : LInv dx dy c C (i + 1) j (E - dy) := by
  obtain ⟨h1, h2, h3, h4, h5, h6, h7⟩ := h
  have mul := err_mul (dx := dx) (dy := dy) (i := i) (j := j)
  exact ⟨by omega, h2, by omega, by omega, by omega, by omega, h7⟩

theorem LInv.stepXY (h : LInv dx dy c C i j E) (hC : C = (dx + dy + c) / 2) (hE : E < C) (hE' : 0 ≤ E) (hi : i ≠ dx) (hj : j ≠ dy) : LInv dx dy c C (i + 1) (j + 1) (E + dx - dy) := by
  obtain ⟨h1, h2, h3, h4, h5, h6, h7⟩ := h
  have mul := err_mul (dx := dx) (dy := dy) (i := i) (j := j)
  refine ⟨by omega, by omega, by omega, by omega, by omega, by omega, ?_⟩
  intro hl
  have h0 := h7 hl
  subst h0
  rw [hl.1] at h3 hC
  omega

theorem LInv.range (h : LInv dx dy c C i j E) (hC : C = (dx + dy + c) / 2) (hc : c ≤ 1) (hx : dx < 512) (hy : dy < 256) : -16384 ≤ E ∧ E < 16384 ∧ C < 16384 := by
  obtain ⟨h1, h2, h3, h4, h5, h6, h7⟩ := h
  clear h3 h6 h7
  omega

theorem LInv.lostEnd (h : LInv dx 1 c C dx 0 0) (hC : C = (dx + 1 + c) / 2) (hc : c ≤ 1) : dx + c ≤ 2 := by
  rcases h.z rfl with h | h <;> omega

end

theorem fuel {dx dy i j i' j' n : Nat} (hn : dx - i + (dy - j) = n) (hi : i' = i ∨ i' = i + 1) (hj : j' = j ∨ j' = j + 1) (hne : (i', j') ≠ (i, j)) (hdx : i' ≤ dx) (hdy : j' ≤ dy) :
    dx - i' + (dy - j') < n := by
  have : i' ≠ i ∨ j' ≠ j := by
    by_cases e : i' = i
    · exact .inr fun e' => hne (by rw [e, e'])
    · exact .inl e
  omega

/-- The loop of `DRAWTO`. -/
theorem dr_loop {x0 y0 x1 y1 b s color c : Nat} (hx0 : x0 < 512) (hx1 : x1 < 512) (hy0 : y0 < 256) (hy1 : y1 < 256) (hs : 256 ≤ s) (hr0 : s + 40 * y0 < 16384) (hr1 : s + 40 * y1 < 16384)
    (hc : c = if x0 ≤ x1 then 1 else 0) (n : Nat) :
    ∀ (i j : Nat) (E : Int) (m : M), dist x0 x1 - i + (dist y0 y1 - j) = n → LInv (dist x0 x1) (dist y0 y1) c (lineOf x0 y0 x1 y1).comp i j E →
      DS (lineOf x0 y0 x1 y1) (stepTo y0 y1 j) (stepTo x0 x1 i) E m → GS b s color m →
      ∃ m' ps, Halts grCode grCode.line_start m m' ∧ Walk (dist x0 x1) (dist y0 y1) (i, j) ps ∧ ps.getLastD (i, j) = (dist x0 x1, if lost x0 y0 x1 y1 then 0 else dist y0 y1) ∧
        Paint b s color (ps.map (pt x0 y0 x1 y1)) m.ram m'.ram ∧ DFr s m m' ∧ (m'.ram OLDROW).toNat = y1 ∧ colOf m' = x1 ∧ m'.gv = m.gv ∧ m'.stk = m.stk := by
  have hdx : dist x0 x1 < 512 := by unfold dist; split <;> omega
  have hdy : dist y0 y1 < 256 := by unfold dist; split <;> omega
  have hC : (lineOf x0 y0 x1 y1).comp = (dist x0 x1 + dist y0 y1 + c) / 2 := by rw [hc]; rfl
  have hC1 : c ≤ 1 := by rw [hc]; split <;> omega
  have hC0 : dist x0 x1 = 0 → c = 1 := by
    unfold dist
    intro h
    split at h
    · simp [*]
    · omega
  have hla : lost x0 y0 x1 y1 ↔ dist y0 y1 = 1 ∧ dist x0 x1 + c ≤ 2 := by rw [hc]; exact Iff.rfl
  have hra : ∀ j, j < dist y0 y1 → (stepTo y0 y1 j + (lineOf x0 y0 x1 y1).ra) % 256 = stepTo y0 y1 (j + 1) := fun j hj => stepTo_add hj hy0 hy1
  have hca : ∀ i, i < dist x0 x1 → (stepTo x0 x1 i + (lineOf x0 y0 x1 y1).ca) % 65536 = stepTo x0 x1 (i + 1) := fun i hi => stepTo_add (n := 65536) hi (by omega) (by omega)
  have hdc : ∀ c ∈ drCells, c ∈ dwCells := by simp [dwCells, drCells]
  have hLx : (lineOf x0 y0 x1 y1).dx = dist x0 x1 := rfl
  have hLy : (lineOf x0 y0 x1 y1).dy = dist y0 y1 := rfl
  have hrow : ∀ j, j ≤ dist y0 y1 → s + 40 * stepTo y0 y1 j < 16384 := by
    intro j hj
    have := stepTo_lt (a := y0) (b := y1) (j := j) (n := (16384 - s + 39) / 40) hj (by omega) (by omega)
    omega
  have hcol : ∀ i, i ≤ dist x0 x1 → stepTo x0 x1 i < 512 := fun i hi => stepTo_lt hi hx0 hx1
  have hrE : ∀ j, j ≤ dist y0 y1 → (stepTo y0 y1 j = y1 ↔ j = dist y0 y1) := fun j => stepTo_eq
  have hcE : ∀ i, i ≤ dist x0 x1 → (stepTo x0 x1 i = x1 ↔ i = dist x0 x1) := fun j => stepTo_eq
  generalize hDx : dist x0 x1 = dx at *
  generalize hDy : dist y0 y1 = dy at *
  clear hc hr0 hr1 hx0 hx1 hy0 hy1 hDx hDy
  induction n using Nat.strongRecOn with
  | ind n ih =>
  intro i j E m hn hI h g
  obtain ⟨b1, b2, b3⟩ := hI.range hC hC1 hdx hdy
  have hi := hI.hi
  have hj := hI.hj
  -- one more pixel
  have more : ∀ (i' j' : Nat) (E' : Int) (m1 : M), Reach grCode grCode.line_start m grCode.no_inc_x m1 → DK m m1 → DS (lineOf x0 y0 x1 y1) (stepTo y0 y1 j') (stepTo x0 x1 i') E' m1 →
      (i' = i ∨ i' = i + 1) → (j' = j ∨ j' = j + 1) → (i', j') ≠ (i, j) → LInv dx dy c (lineOf x0 y0 x1 y1).comp i' j' E' →
      ∃ m' ps, Halts grCode grCode.line_start m m' ∧ Walk dx dy (i, j) ps ∧ ps.getLastD (i, j) = (dx, if lost x0 y0 x1 y1 then 0 else dy) ∧
        Paint b s color (ps.map (pt x0 y0 x1 y1)) m.ram m'.ram ∧ DFr s m m' ∧ (m'.ram OLDROW).toNat = y1 ∧ colOf m' = x1 ∧ m'.gv = m.gv ∧ m'.stk = m.stk := by
    intro i' j' E' m1 r1 k1 d1 hi' hj' hne hI'
    have g1 : GS b s color m1 := g.keep hs (DFr.of_same k1.same hdc)
    obtain ⟨m2, r2, d2, g2, p2, f2, v2, s2⟩ := dr_plot d1 g1 hs (hcol _ hI'.hi) (hrow _ hI'.hj)
    obtain ⟨m3, ps, h3, w3, l3, p3, f3, o3, c3, v3, s3⟩ := ih _ (fuel hn hi' hj' hne hI'.hi hI'.hj) i' j' E' m2 rfl hI' d2 g2
    refine ⟨m3, (i', j') :: ps, Reach.halts (r1.trans r2) h3, .cons hi' hj' hne hI'.hi hI'.hj (near_of hC1 hC hI'.err hI'.lo hI'.up) w3, ?_, ?_, ?_, o3, c3, v3.trans (v2.trans k1.gv), s3.trans (s2.trans k1.stk)⟩
    · rw [List.getLastD_cons, l3]
    · exact ((Paint.of_same hs k1.same hdc).trans p2).trans p3
    · exact ((DFr.of_same k1.same hdc).trans f2).trans f3
  have notLost : j = dy → ¬ lost x0 y0 x1 y1 := by
    intro e hl
    have := hI.lost (hla.1 hl)
    have := (hla.1 hl).1
    omega
  by_cases hEC : E < (lineOf x0 y0 x1 y1).comp
  · by_cases hjd : j = dy
    · have hid : i = dx := walk_end1 (dy := dy) (C := (lineOf x0 y0 x1 y1).comp) (by omega) hi (by rw [hI.err, hjd]) hEC
      obtain ⟨m', h', o', c', k'⟩ := ls_end h b1 b2 b3 hEC ((hrE j hj).2 hjd)
      refine ⟨m', [], h', .nil _, ?_, Paint.of_same hs k'.same hdc, DFr.of_same k'.same hdc, ?_, ?_, k'.gv, k'.stk⟩
      · rw [if_neg (notLost hjd), hid, hjd]; rfl
      · rw [o', (hrE j hj).2 hjd]
      · rw [c', (hcE i hi).2 hid]
    · obtain ⟨m1, r1, d1, t1, k1⟩ := ls_inc h b1 b2 b3 hEC (fun e => hjd ((hrE j hj).1 e))
      rw [hra j (by omega), hLx] at d1
      by_cases hE0 : E < 0
      · obtain ⟨m2, r2, d2, k2⟩ := nx_none d1 (by rw [t1, decide_eq_true hE0])
        exact more i (j + 1) (E + dx) m2 (r1.trans r2) (k1.trans k2) d2 (.inl rfl) (.inr rfl) (by simp) (hI.stepY hC hE0 hjd)
      · obtain ⟨m2, r2, d2, k2⟩ := nx_err d1 (by rw [t1, decide_eq_false hE0])
        rw [hLy] at d2
        by_cases hid : i = dx
        · obtain ⟨e1, e2, e3⟩ := walk_end2 (dx := dx) (dy := dy) (j := j) (E := E) (by omega) (by rw [hI.err, hid]) (by omega)
          obtain ⟨m3, h3, o3, c3, k3⟩ := nx_end d2 ((hcE i hi).2 hid)
          have k := (k1.trans k2).trans k3
          have hl : lost x0 y0 x1 y1 := by
            subst e1 e2 e3 hid
            exact hla.2 ⟨rfl, hI.lostEnd hC hC1⟩
          refine ⟨m3, [], Reach.halts (r1.trans r2) h3, .nil _, ?_, Paint.of_same hs k.same hdc, DFr.of_same k.same hdc, ?_, ?_, k.gv, k.stk⟩
          · rw [if_pos hl, e2, hid]; rfl
          · rw [o3, (hrE _ (by omega)).2 (by omega)]
          · rw [c3, (hcE i hi).2 hid]
        · obtain ⟨m3, r3, d3, k3⟩ := nx_inc d2 (fun e => hid ((hcE i hi).1 e))
          rw [hca i (by omega)] at d3
          exact more (i + 1) (j + 1) (E + dx - dy) m3 (r1.trans (r2.trans r3)) ((k1.trans k2).trans k3) d3 (.inr rfl) (.inr rfl) (by simp) (hI.stepXY hC hEC (by omega) hid hjd)
  · obtain ⟨m1, r1, d1, t1, k1⟩ := ls_none h b1 b2 b3 (by omega)
    obtain ⟨m2, r2, d2, k2⟩ := nx_err d1 (by rw [t1, decide_eq_false (by omega)])
    rw [hLy] at d2
    by_cases hid : i = dx
    · have hjd : j = dy := by
        rcases Nat.lt_or_eq_of_le hj with hlt | e
        · obtain ⟨e1, e2, e3⟩ := walk_end2 (dx := dx) (dy := dy) (j := j) (E := E) hlt (by rw [hI.err, hid]) (by omega)
          omega
        · exact e
      obtain ⟨m3, h3, o3, c3, k3⟩ := nx_end d2 ((hcE i hi).2 hid)
      have k := (k1.trans k2).trans k3
      refine ⟨m3, [], Reach.halts (r1.trans r2) h3, .nil _, ?_, Paint.of_same hs k.same hdc, DFr.of_same k.same hdc, ?_, ?_, k.gv, k.stk⟩
      · rw [if_neg (notLost hjd), hid, hjd]; rfl
      · rw [o3, (hrE j hj).2 hjd]
      · rw [c3, (hcE i hi).2 hid]
    · obtain ⟨m3, r3, d3, k3⟩ := nx_inc d2 (fun e => hid ((hcE i hi).1 e))
      rw [hca i (by omega)] at d3
      exact more (i + 1) j (E - dy) m3 (r1.trans (r2.trans r3)) ((k1.trans k2).trans k3) d3 (.inr rfl) (.inl rfl) (by simp) (hI.stepX (by omega) hid)

theorem Walk.le {dx dy : Nat} {ps : List (Nat × Nat)} {p : Nat × Nat} (h : Walk dx dy p ps) : ∀ q ∈ p :: ps, q.1 ≤ max p.1 dx ∧ p.2 ≤ q.2 ∧ q.2 ≤ (ps.getLastD p).2 := by
  induction h with
  | nil p => intro q hq; simp only [List.mem_singleton] at hq; subst hq; simp only [List.getLastD_nil]; omega
  | @cons i j i' j' ps hi hj hne hdx hdy hn h ih =>
    intro q hq
    have h0 := ih (i', j') (by simp)
    rw [List.getLastD_cons]
    rcases List.mem_cons.1 hq with rfl | hq
    · dsimp only at *; omega
    · have := ih q hq; dsimp only at *; omega

/-- `DRAWTO` from the point of the last `PLOT` or `DRAWTO` to the cursor, in a mode of `b` bits for each pixel, for columns below 512 and rows that are below the top of the memory, ends.  It
paints a connected walk of pixels: each one is a neighbor of the one before, never goes back, and is near the line.  The walk starts beside the first point, that is not painted, and ends at the
cursor, but for the lines in `lost`, in which the last pixel is left out.  No other pixel changes, nor any other part of the memory but for some cells of page zero.  After it, the cursor is the start
of the next line. -/
theorem C50_drawto {b : Nat} {m : M} (hm : GMode b m) (hs : 256 ≤ savmsc m) (h0 : colOf m < 512) (h1 : crsCol m < 512) (hr0 : savmsc m + 40 * (m.ram OLDROW).toNat < 16384)
    (hr1 : savmsc m + 40 * crsRow m < 16384) :
    ∃ m' ps, Halts grCode grCode.EXE_DRAWTO m m' ∧
      Walk (dist (colOf m) (crsCol m)) (dist (m.ram OLDROW).toNat (crsRow m)) (0, 0) ps ∧
      ps.getLastD (0, 0) = (dist (colOf m) (crsCol m), if lost (colOf m) (m.ram OLDROW).toNat (crsCol m) (crsRow m) then 0 else dist (m.ram OLDROW).toNat (crsRow m)) ∧
      Paint b (savmsc m) (m.ram gColor).toNat (ps.map (pt (colOf m) (m.ram OLDROW).toNat (crsCol m) (crsRow m))) m.ram m'.ram ∧
      DFr (savmsc m) m m' ∧ (m'.ram OLDROW).toNat = crsRow m ∧ colOf m' = crsCol m ∧ m'.gv = m.gv ∧ m'.stk = m.stk := by
  obtain ⟨m1, r1, d1, w1, v1, s1⟩ := dr_start m h0 h1
  have hcd : ∀ c ∈ dsCells, c ∈ dwCells := by simp [dwCells, dsCells]
  have f1 : DFr (savmsc m) m m1 := DFr.of_same w1 hcd
  have g0 : GS b (savmsc m) (m.ram gColor).toNat m := ⟨hm, rfl, rfl⟩
  have hy0 := (m.ram OLDROW).isLt
  have hy1 : crsRow m < 256 := (m.ram ROWCRS).isLt
  generalize hx0 : colOf m = x0 at *
  generalize hyy0 : (m.ram OLDROW).toNat = y0 at *
  generalize crsCol m = x1 at *
  generalize crsRow m = y1 at *
  have z1 : stepTo x0 x1 0 = x0 := by unfold stepTo; split <;> omega
  have z2 : stepTo y0 y1 0 = y0 := by unfold stepTo; split <;> omega
  have hI : LInv (dist x0 x1) (dist y0 y1) (if x0 ≤ x1 then 1 else 0) (lineOf x0 y0 x1 y1).comp 0 0 (dist x0 x1 - (dist y0 y1 / 2 : Nat)) := by
    refine ⟨by omega, by omega, by simp, ?_, .inl (by omega), fun _ => .inl rfl, fun _ => rfl⟩
    right
    omega
  obtain ⟨m', ps, h2, k2, l2, p2, f2, o2, c2, v2, s2⟩ := dr_loop h0 h1 hy0 hy1 hs hr0 hr1 rfl _ 0 0 _ m1 rfl hI (by rw [z1, z2]; exact d1) (g0.keep hs f1)
  exact ⟨m', ps, Reach.halts r1 h2, k2, l2, (Paint.of_same hs w1 hcd).trans p2, f1.trans f2, o2, c2, v2.trans v1, s2.trans s1⟩

/-- The pixel at the end of the line has the color, when the line has at least one step and is not in `lost`. -/
theorem C50_last {b : Nat} {m m' : M} (hm : GMode b m) (hs : 256 ≤ savmsc m) (h0 : colOf m < 512) (h1 : crsCol m < 512) (hr0 : savmsc m + 40 * (m.ram OLDROW).toNat < 16384)
    (hr1 : savmsc m + 40 * crsRow m < 16384) (h : Halts grCode grCode.EXE_DRAWTO m m') (hne : (colOf m, (m.ram OLDROW).toNat) ≠ (crsCol m, crsRow m))
    (hl : ¬ lost (colOf m) (m.ram OLDROW).toNat (crsCol m) (crsRow m)) (i : Nat) (hi : i < b) :
    scrBit m'.ram (savmsc m) (pixBit b (crsRow m) (crsCol m) + b - 1 - i) = (m.ram gColor).toNat.testBit i := by
  obtain ⟨m1, ps, h2, -, l2, p2, -⟩ := C50_drawto hm hs h0 h1 hr0 hr1
  cases h2.unique h
  rw [if_neg hl] at l2
  have hin : (crsCol m, crsRow m) ∈ ps.map (pt (colOf m) (m.ram OLDROW).toNat (crsCol m) (crsRow m)) := by
    refine List.mem_map.2 ⟨ps.getLastD (0, 0), ?_, ?_⟩
    · cases ps with
      | nil =>
        rw [List.getLastD_nil, Prod.mk.injEq] at l2
        refine absurd ?_ hne
        have a1 := l2.1
        have a2 := l2.2
        unfold dist at a1 a2
        rw [Prod.mk.injEq]
        split at a1 <;> split at a2 <;> omega
      | cons p ps =>
        rw [List.getLastD_cons, ← List.getLast_eq_getLastD]
        exact List.getLast_mem (List.cons_ne_nil _ _)
    · rw [l2]
      simp only [pt, Prod.mk.injEq]
      exact ⟨(stepTo_eq (by omega)).2 rfl, (stepTo_eq (by omega)).2 rfl⟩
  obtain ⟨e1, e2, e3⟩ := pix_place hm.bits (crsRow m) (crsCol m)
  have hcol : crsCol m / (8 / b) < 256 := by rcases hm.bits with rfl | rfl | rfl <;> omega
  have hmod := pix_mod hm.bits (crsRow m) (crsCol m) (pixBit b (crsRow m) (crsCol m) + b - 1 - i) (by omega) (by omega)
  rw [p2 _ (by omega), if_pos, ← hmod]
  · congr 1
    omega
  · exact List.any_eq_true.2 ⟨_, hin, by simp only [covers, decide_eq_true_eq]; omega⟩

/-- For the lines in `lost` the pixel at the end is as it was: this is an error in the code, as all the other lines paint it. -/
theorem C50_lost {b : Nat} {m m' : M} (hm : GMode b m) (hs : 256 ≤ savmsc m) (h0 : colOf m < 512) (h1 : crsCol m < 512) (hr0 : savmsc m + 40 * (m.ram OLDROW).toNat < 16384)
    (hr1 : savmsc m + 40 * crsRow m < 16384) (h : Halts grCode grCode.EXE_DRAWTO m m') (hl : lost (colOf m) (m.ram OLDROW).toNat (crsCol m) (crsRow m)) (k : Nat)
    (hk : covers b k (crsCol m, crsRow m)) : scrBit m'.ram (savmsc m) k = scrBit m.ram (savmsc m) k := by
  obtain ⟨m1, ps, h2, w2, l2, p2, -⟩ := C50_drawto hm hs h0 h1 hr0 hr1
  cases h2.unique h
  rw [if_pos hl] at l2
  simp only [covers, decide_eq_true_eq] at hk
  obtain ⟨e1, e2, e3⟩ := pix_place hm.bits (crsRow m) (crsCol m)
  have hcol : crsCol m / (8 / b) < 256 := by rcases hm.bits with rfl | rfl | rfl <;> omega
  rw [p2 _ (by omega), if_neg]
  intro ha
  obtain ⟨q, hq, hc⟩ := List.any_eq_true.1 ha
  obtain ⟨p, hp, rfl⟩ := List.mem_map.1 hq
  obtain ⟨a1, -, a2⟩ := w2.le p (List.mem_cons_of_mem _ hp)
  rw [l2] at a2
  have a3 : p.2 = 0 := by dsimp only at a2; omega
  simp only [covers, decide_eq_true_eq, pt, a3] at hc
  obtain ⟨l3, l4⟩ := hl
  have z2 : stepTo (m.ram OLDROW).toNat (crsRow m) 0 = (m.ram OLDROW).toNat := by unfold stepTo; split <;> omega
  rw [z2] at hc
  have y1 : (m.ram OLDROW).toNat + 1 = crsRow m ∨ (m.ram OLDROW).toNat = crsRow m + 1 := by
    unfold dist at l3; split at l3 <;> omega
  have x1 : stepTo (colOf m) (crsCol m) p.1 ≤ crsCol m + 2 ∧ crsCol m ≤ stepTo (colOf m) (crsCol m) p.1 + 2 := by
    dsimp only at a1
    by_cases hle : colOf m ≤ crsCol m
    · simp only [dist, stepTo, if_pos hle] at l4 a1 ⊢
      omega
    · simp only [dist, stepTo, if_neg hle] at l4 a1 ⊢
      omega
  unfold pixBit at hk hc
  rcases hm.bits with rfl | rfl | rfl <;> omega

/-- A machine with a line to draw: color 6, from column 161 of row 3. -/
def c50M (x1 y1 : B) : M := { c49M with ram := fun a => if a = OLDROW then 3#8 else if a = OLDCOL then 161#8 else if a = ROWCRS then y1 else if a = COLCRS then x1 else c49M.ram a }

theorem c50M_mode (x1 y1 : B) : GMode 2 (c50M x1 y1) := ⟨0#8, rfl, by simp, rfl, rfl⟩

/-- To column 200 of row 20 the line gets to the end: the pixel has the color 2, the low bits of 6. -/
example : ∃ m', Halts grCode grCode.EXE_DRAWTO (c50M 200 20) m' ∧ scrBit m'.ram 0x21F0 (320 * 20 + 2 * 200) = true ∧ scrBit m'.ram 0x21F0 (320 * 20 + 2 * 200 + 1) = false := by
  obtain ⟨m', -, h, -⟩ := C50_drawto (c50M_mode 200 20) (by decide) (by decide) (by decide) (by decide) (by decide)
  have hb := C50_last (c50M_mode 200 20) (by decide) (by decide) (by decide) (by decide) (by decide) h (by decide) (by decide)
  exact ⟨m', h, hb 1 (by omega), hb 0 (by omega)⟩

/-- To column 161 of row 4, one pixel below, the line is lost: the pixel is still 0. -/
example : ∃ m', Halts grCode grCode.EXE_DRAWTO (c50M 161 4) m' ∧ scrBit m'.ram 0x21F0 (320 * 4 + 2 * 161) = false ∧ scrBit m'.ram 0x21F0 (320 * 4 + 2 * 161 + 1) = false := by
  obtain ⟨m', -, h, -⟩ := C50_drawto (c50M_mode 161 4) (by decide) (by decide) (by decide) (by decide) (by decide)
  have hb := C50_lost (c50M_mode 161 4) (by decide) (by decide) (by decide) (by decide) (by decide) h (by decide)
  exact ⟨m', h, hb 1602 (by decide), hb 1603 (by decide)⟩

end FB.Rt
