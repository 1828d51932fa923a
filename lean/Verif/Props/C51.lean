import Verif.Rt.Tab
import Verif.Rt.Div
/-!
# C51: `TAB` and `RTAB` in `PRINT`

The manual (`manual.md:1124-1144`): `TAB` advances to a column that is a multiple of the argument, `RTAB` so that the next string ends just before such a column, and both write at least one space.
-/
namespace FB.Rt
open Ins Opd

/-- Specification: `n` spaces to the channel. -/
def spaces (m : M) (n : Nat) : List (B × B) := List.replicate n (m.zp.chn, 0x20#8)

/-- Specification: the characters of the string at an address, with the color, to the channel. -/
def strOut (m : M) (a : W) : List (B × B) := (List.range (m.ram a).toNat).map fun j => (m.zp.chn, m.ram (a + BitVec.ofNat 16 (j + 1)) ^^^ m.ram tabClr)

theorem strOut_eq (m : M) (a : W) : printed m.view tabClr a 0 (m.ram a).toNat = strOut m a := by
  unfold printed strOut
  refine List.map_congr_left fun j _ => ?_
  rw [Nat.zero_add]
  rfl

theorem mul_mod_zero {n k x : Nat} (h : x = n * k) : x % n = 0 := by rw [h]; exact Nat.mul_mod_right ..

/-- The routine of `TAB`, for all arguments but 0. -/
theorem tab_does (m : M) (hn : m.a ≠ 0#8) : ∃ ax s, Does tabCode tabCode.EXE_PRINT_TAB m { m.view with ax := ax, out := m.out ++ spaces m (tabCnt s) } ∧
    1 ≤ s ∧ s ≤ m.a.toNat ∧ ((m.ram tabCol).toNat + s) % m.a.toNat = 0 := by
  obtain ⟨m0, r0, s0, a0, t0, w0, o0, c0, v0⟩ : ∃ m0, Reach tabCode tabCode.EXE_PRINT_TAB m tabCode.do_tab m0 ∧ m0.stk = .ret (.lb "tab_1" :: tabCode.tab_1) :: m.stk ∧ m0.a = m.a ∧ m0.zp.tmp3 = m.a ∧
      m0.ram = m.ram ∧ m0.out = m.out ∧ m0.zp.chn = m.zp.chn ∧ m0.view = { m.view with stk := m0.stk } := by
    refine ⟨?_, ⟨2, ?_⟩, ?_⟩
    rotate_left
    · rt_exec [tabCode.EXE_PRINT_TAB.eq]
      rfl
    · exact ⟨rfl, rfl, rfl, rfl, rfl, rfl, rfl⟩
  obtain ⟨m1, s, j, r1, h1, he, hj, k1, s1⟩ := tab_sub s0 (by rw [t0]; exact hn)
  rw [a0, t0, w0] at he
  rw [t0] at hj
  have e1 := k1.view
  rw [s1, o0, c0, v0] at e1
  refine ⟨m1.view.ax, s, (r0.trans r1).does ⟨m1, ⟨2, ?_⟩, ?_⟩, h1, ?_, ?_⟩
  · rt_exec [tabCode.tab_1.eq]
  · rw [e1]; rfl
  · rcases hj with rfl | hj
    · omega
    · exact hj
  · exact mul_mod_zero (k := j + 1) (by rw [Nat.mul_add]; omega)

/-- `TAB` writes from one space up to its argument, and then the column is a multiple of the argument; nothing else changes.  This is for distances of at most 129 columns. -/
theorem C51_tab (m : M) (hn : m.a ≠ 0#8) (hf : m.a.toNat - (m.ram tabCol).toNat % m.a.toNat ≤ 129) :
    ∃ ax s, Does tabCode tabCode.EXE_PRINT_TAB m { m.view with ax := ax, out := m.out ++ spaces m s } ∧ 1 ≤ s ∧ s ≤ m.a.toNat ∧ ((m.ram tabCol).toNat + s) % m.a.toNat = 0 := by
  obtain ⟨ax, s, h, h1, h2, h3⟩ := tab_does m hn
  refine ⟨ax, s, ?_, h1, h2, h3⟩
  have hs : s ≤ 129 := by
    refine Nat.le_trans ?_ hf
    generalize m.a.toNat = n at *
    generalize (m.ram tabCol).toNat = c at *
    have hd := Nat.div_add_mod c n
    have hl := Nat.mod_lt c (show n > 0 by omega)
    obtain ⟨q, hq⟩ := Nat.dvd_of_mod_eq_zero h3
    by_cases hqc : q ≤ c / n + 1
    · have := Nat.mul_le_mul_left n hqc
      rw [Nat.mul_add] at this
      omega
    · have := Nat.mul_le_mul_left n (show c / n + 2 ≤ q by omega)
      rw [Nat.mul_add] at this
      omega
  rwa [tabCnt, if_pos hs] at h

/-- When more than 129 spaces are needed only one is written. -/
theorem C51_far (m : M) (hn : m.a ≠ 0#8) (hf : 129 < m.a.toNat - (m.ram tabCol).toNat % m.a.toNat) :
    ∃ ax, Does tabCode tabCode.EXE_PRINT_TAB m { m.view with ax := ax, out := m.out ++ spaces m 1 } := by
  obtain ⟨ax, s, h, h1, h2, h3⟩ := tab_does m hn
  refine ⟨ax, ?_⟩
  have hs : ¬ s ≤ 129 := by
    refine fun hle => absurd hf (Nat.not_lt.2 (Nat.le_trans ?_ hle))
    generalize m.a.toNat = n at *
    generalize (m.ram tabCol).toNat = c at *
    have hd := Nat.div_add_mod c n
    have hl := Nat.mod_lt c (show n > 0 by omega)
    obtain ⟨q, hq⟩ := Nat.dvd_of_mod_eq_zero h3
    by_cases hqc : c / n + 1 ≤ q
    · have := Nat.mul_le_mul_left n hqc
      rw [Nat.mul_add] at this
      omega
    · have := Nat.mul_le_mul_left n (show q ≤ c / n by omega)
      omega
  rwa [tabCnt, if_neg hs] at h

/-- The routine of `RTAB`, for all arguments but 0. -/
theorem rtab_does (m : M) (hn : m.zp.tmp3 ≠ 0#8) : ∃ ax s j, Does tabCode tabCode.EXE_PRINT_RTAB m { m.view with ax := ax, out := m.out ++ (spaces m (tabCnt s) ++ strOut m m.ax) } ∧
    1 ≤ s ∧ s + (m.ram tabCol).toNat = (m.zp.tmp3.toNat + 256 - (m.ram m.ax).toNat) % 256 + m.zp.tmp3.toNat * j ∧ (j = 0 ∨ s ≤ m.zp.tmp3.toNat) := by
  obtain ⟨m0, r0, s0, a0, t0, w0, o0, c0, p0, q0, v0⟩ : ∃ m0, Reach tabCode tabCode.EXE_PRINT_RTAB m tabCode.do_tab m0 ∧ m0.stk = .ret (.lb "rtab_1" :: tabCode.rtab_1) :: m.stk ∧
      m0.a.toNat = (m.zp.tmp3.toNat + 256 - (m.ram m.ax).toNat) % 256 ∧ m0.zp.tmp3 = m.zp.tmp3 ∧
      m0.ram = m.ram ∧ m0.out = m.out ∧ m0.zp.chn = m.zp.chn ∧ m0.zp.tmp1 = m.a ∧ m0.zp.tmp1h = m.x ∧ m0.view = { m.view with stk := m0.stk, ax := m0.view.ax } := by
    have := (m.ram m.ax).isLt
    refine ⟨?_, ⟨7, ?_⟩, ?_⟩
    rotate_left
    · rt_exec [tabCode.EXE_PRINT_RTAB.eq, idx0]
      rfl
    · refine ⟨rfl, ?_, rfl, rfl, rfl, rfl, rfl, rfl, rfl⟩
      simp [M.ax] at *
      congr 1
      omega
  obtain ⟨m1, s, j, r1, h1, he, hj, k1, s1⟩ := tab_sub s0 (by rw [t0]; exact hn)
  rw [a0, t0, w0] at he
  rw [t0] at hj
  have e1 := k1.view
  rw [s1, o0, c0, v0] at e1
  have hr : m1.view.ram = m.view.ram := by have e := congrArg View.ram e1; exact e
  have hc : m1.view.chn = m.view.chn := by have e := congrArg View.chn e1; exact e
  have ho : m1.out = m.out ++ spaces m (tabCnt s) := by have e := congrArg View.out e1; exact e
  have hw : word m1.zp.tmp1 m1.zp.tmp1h = m.ax := by rw [k1.tmp1, k1.tmp1h, p0, q0]; rfl
  obtain ⟨ax, h2⟩ := tab_str m1
  have r2 : Reach tabCode (.lb "rtab_1" :: tabCode.rtab_1) m1 tabCode.print_str_tmp1 m1 := ⟨2, by rt_exec [tabCode.rtab_1.eq]⟩
  refine ⟨ax, s, j, (r0.trans (r1.trans r2)).does (h2.cast ?_), h1, he, hj⟩
  have hp : printed m1.view tabClr m.ax 0 (m1.ram m.ax).toNat = strOut m m.ax := by
    rw [← strOut_eq, show m1.ram = m.ram from hr]
    simp only [printed, hc, hr]
  rw [hw, hp, ho, e1, List.append_assoc]
  rfl

/-- `RTAB` before a string that is not longer than the argument: it writes from one space up to the argument, then the string, and then the column is a multiple of the argument. -/
theorem C51_rtab (m : M) (hn : m.zp.tmp3 ≠ 0#8) (hn' : m.zp.tmp3.toNat ≤ 129) (hl : (m.ram m.ax).toNat ≤ m.zp.tmp3.toNat) :
    ∃ ax s, Does tabCode tabCode.EXE_PRINT_RTAB m { m.view with ax := ax, out := m.out ++ (spaces m s ++ strOut m m.ax) } ∧ 1 ≤ s ∧ s ≤ m.zp.tmp3.toNat ∧
      ((m.ram tabCol).toNat + s + (m.ram m.ax).toNat) % m.zp.tmp3.toNat = 0 := by
  obtain ⟨ax, s, j, h, h1, he, hj⟩ := rtab_does m hn
  have hs : s ≤ m.zp.tmp3.toNat := by
    rcases hj with rfl | hj
    · omega
    · exact hj
  rw [tabCnt, if_pos (by omega)] at h
  exact ⟨ax, s, h, h1, hs, mul_mod_zero (k := j + 1) (by rw [Nat.mul_add]; omega)⟩

/-- `RTAB` before a string that is longer than the argument does not align it: it writes one space and the string (for short strings in the columns of a screen). -/
theorem C51_long (m : M) (hn : m.zp.tmp3 ≠ 0#8) (hl : m.zp.tmp3.toNat < (m.ram m.ax).toNat) (hc : (m.ram tabCol).toNat + (m.ram m.ax).toNat ≤ m.zp.tmp3.toNat + 126) :
    ∃ ax, Does tabCode tabCode.EXE_PRINT_RTAB m { m.view with ax := ax, out := m.out ++ (spaces m 1 ++ strOut m m.ax) } := by
  obtain ⟨ax, s, j, h, h1, he, hj⟩ := rtab_does m hn
  have := (m.ram m.ax).isLt
  have hs : ¬ s ≤ 129 := by
    rcases hj with rfl | hj
    · omega
    · cases j with
      | zero => omega
      | succ j => rw [Nat.mul_add] at he; omega
  rw [tabCnt, if_neg hs] at h
  exact ⟨ax, h⟩

theorem forever {P k k' : Code} {m m' : M} {a : Nat} (h : run P a k m = .go k' m') (h' : ∀ f, ∃ k2 m2, run P f k' m' = .go k2 m2) (f : Nat) : ∃ k2 m2, run P f k m = .go k2 m2 := by
  rcases Nat.le_total a f with hf | hf
  · obtain ⟨d, rfl⟩ := Nat.exists_eq_add_of_le hf
    rw [run_add, h]
    exact h' d
  · obtain ⟨d, rfl⟩ := Nat.exists_eq_add_of_le hf
    rw [run_add] at h
    cases hr : run P f k m with
    | go k2 m2 => exact ⟨k2, m2, rfl⟩
    | _ => rw [hr] at h; cases h

theorem tab_forever (f : Nat) : ∀ m : M, m.zp.tmp3 = 0#8 → m.c = false → ∃ k2 m2, run tabCode f tabCode.dt_rep m = .go k2 m2 := by
  induction f using Nat.strongRecOn with
  | ind f ih =>
  intro m ht hc
  have h1 : addC m.a 0#8 false = false := bool0 (by simp; exact m.a.isLt)
  obtain ⟨m1, r1, t1, c1⟩ : ∃ m1, run tabCode 2 tabCode.dt_rep m = .go tabCode.dt_rep m1 ∧ m1.zp.tmp3 = 0#8 ∧ m1.c = false := by
    refine ⟨?_, ?_, ?_⟩
    rotate_left
    · rt_exec [tabCode.dt_rep.eq, hc, h1, ht]
      rfl
    · exact ⟨ht, rfl⟩
  rcases Nat.lt_or_ge f 2 with hf | hf
  · cases hr : run tabCode f tabCode.dt_rep m with
    | go k2 m2 => exact ⟨k2, m2, rfl⟩
    | _ =>
      obtain ⟨d, hd⟩ := Nat.exists_eq_add_of_lt hf
      rw [show 2 = f + (d + 1) by omega, run_add, hr] at r1
      cases r1
  · obtain ⟨d, rfl⟩ := Nat.exists_eq_add_of_le hf
    rw [run_add, r1]
    exact ih d (by omega) m1 t1 c1

/-- `TAB(0)`, and `TAB` of any multiple of 256, never ends. -/
theorem C51_zero (m : M) (hn : m.a = 0#8) (f : Nat) : ∃ k m', run tabCode f tabCode.EXE_PRINT_TAB m = .go k m' := by
  have h1 : addC 0#8 (~~~ m.ram tabCol) false = false := bool0 (by simp; omega)
  obtain ⟨m1, r1, t1, c1⟩ : ∃ m1, run tabCode 6 tabCode.EXE_PRINT_TAB m = .go tabCode.dt_rep m1 ∧ m1.zp.tmp3 = 0#8 ∧ m1.c = false := by
    refine ⟨?_, ?_, ?_⟩
    rotate_left
    · rt_exec [tabCode.EXE_PRINT_TAB.eq, tabCode.do_tab.eq, hn, h1]
      rfl
    · exact ⟨rfl, rfl⟩
  exact forever r1 (fun f => tab_forever f m1 t1 c1) f

/-- The argument of `RTAB` is in a cell that the division uses: after it the argument is the absolute value of the quotient, so `PRINT RTAB(10) A/B` aligns to another column. -/
theorem C51_div (m m' : M) (h : Halts divCode (entry divCode "EXE_DIV") m m') (h0 : m.ax ≠ 0) : m'.zp.tmp3.toNat = (m.stkAt 0).toInt.natAbs / m.ax.toInt.natAbs % 256 := by
  obtain ⟨m1, r1, d1, k1, t1, _⟩ := divmod_sub m (divCode.EXE_DIV.drop 1)
  obtain ⟨m2, r2, k2, -, e2⟩ := div_tail m1
  have r0 : Reach divCode (entry divCode "EXE_DIV") m divCode.divmod_sign_adjust { m with stk := .ret (divCode.EXE_DIV.drop 1) :: m.stk } :=
    ⟨1, by rt_exec [entry, divCode.EXE_DIV.eq]⟩
  cases ((r0.trans r1).halts r2).unique h
  rw [if_neg h0] at t1
  have := m1.zp.tmp3.isLt
  rw [e2, ← t1, divT]
  omega

/-- A machine at column 13, with the argument `n` and the string `HELLO` at `$3000`. -/
def c51M (n : B) : M where
  a := n
  x := 0x30
  y := 0
  c := false
  z := false
  n := false
  v := false
  stk := []
  zp := { tmp1 := 0, tmp1h := 0, tmp2 := 0, tmp2h := 0, tmp3 := n, tmp3h := 0, dsign := 0, sptr := 0, saddr := 0, saddrh := 0, msrc := 0, msrch := 0, mdst := 0, mdsth := 0, mins := 0, arr := 0, arrh := 0, op1 := 0, op2 := 0, op3 := 0, tmp4 := 0, ioerr := 0, inb := 0, inbh := 0, cix := 0 }
  sl := fun _ => 0
  sh := fun _ => 0
  ram := fun a => if a = tabCol then 13#8 else if a = 0x3000#16 then 5#8 else if a = 0x3001#16 then 72#8 else if a = 0x3002#16 then 69#8 else if a = 0x3003#16 then 76#8 else if a = 0x3004#16 then 76#8
    else if a = 0x3005#16 then 79#8 else 0#8

/-- From column 13, `TAB(10)` writes 7 spaces. -/
example : ∃ ax, Does tabCode tabCode.EXE_PRINT_TAB (c51M 10) { (c51M 10).view with ax := ax, out := List.replicate 7 ((c51M 10).zp.chn, 0x20#8) } := by
  obtain ⟨ax, s, h, h1, h2, h3⟩ := C51_tab (c51M 10) (by decide) (by decide)
  have e1 : (c51M 10).a.toNat = 10 := rfl
  have e2 : ((c51M 10).ram tabCol).toNat = 13 := rfl
  rw [e1] at h2
  rw [e1, e2] at h3
  have : s = 7 := by omega
  subst this
  exact ⟨ax, h⟩

/-- From column 13, `RTAB(10) "HELLO"` writes two spaces and the string, that ends just before column 20. -/
example : ∃ ax, Does tabCode tabCode.EXE_PRINT_RTAB { c51M 10 with a := 0 } { ({ c51M 10 with a := 0 } : M).view with ax := ax, out := [0x20#8, 0x20, 72, 69, 76, 76, 79].map fun b => ((c51M 10).zp.chn, b) } := by
  obtain ⟨ax, s, h, h1, h2, h3⟩ := C51_rtab { c51M 10 with a := 0 } (by decide) (by decide) (by decide)
  have e1 : ({ c51M 10 with a := 0 } : M).zp.tmp3.toNat = 10 := rfl
  have e2 : (({ c51M 10 with a := 0 } : M).ram tabCol).toNat = 13 := rfl
  have e3 : (({ c51M 10 with a := 0 } : M).ram (M.ax { c51M 10 with a := 0 })).toNat = 5 := rfl
  rw [e1] at h2
  rw [e1, e2, e3] at h3
  have : s = 2 := by omega
  subst this
  exact ⟨ax, h⟩

/-- From column 13, `RTAB(4) "HELLO"` writes one space, and the string ends before column 19. -/
example : ∃ ax, Does tabCode tabCode.EXE_PRINT_RTAB { c51M 4 with a := 0 } { ({ c51M 4 with a := 0 } : M).view with ax := ax, out := [0x20#8, 72, 69, 76, 76, 79].map fun b => ((c51M 4).zp.chn, b) } := by
  obtain ⟨ax, h⟩ := C51_long { c51M 4 with a := 0 } (by decide) (by decide) (by decide)
  exact ⟨ax, h⟩

/-- `RTAB(10) 100/3` aligns to column 33. -/
example : ∃ m', Halts divCode (entry divCode "EXE_DIV") { c51M 10 with a := 3, x := 0, sl := fun _ => 100 } m' ∧ m'.zp.tmp3 = 33#8 := by
  obtain ⟨m', h, -⟩ := div_correct { c51M 10 with a := 3, x := 0, sl := fun _ => 100 } rfl
  exact ⟨m', h, BitVec.eq_of_toNat_eq (C51_div _ _ h (by decide))⟩

/-- From column 13, `TAB(200)` writes one space. -/
example : ∃ ax, Does tabCode tabCode.EXE_PRINT_TAB (c51M 200) { (c51M 200).view with ax := ax, out := [((c51M 200).zp.chn, 0x20#8)] } := C51_far (c51M 200) (by decide) (by decide)

end FB.Rt
