import Verif.Rt.Gr52
/-!
# C59: the display list of `GRAPHICS` in the Atari 5200
-/
namespace FB.Rt

/-! ## Specification: the display processor ANTIC -/

/-- Specification: the program counter of ANTIC counts in 10 bits: it does not leave a block of 1K. -/
def inc10 (p : W) : W := BitVec.ofNat 16 (p.toNat / 1024 * 1024 + (p.toNat + 1) % 1024)

/-- Specification: the address of the data of the screen counts in 12 bits: it does not leave a block of 4K. -/
def adv12 (c : W) (n : Nat) : W := BitVec.ofNat 16 (c.toNat / 4096 * 4096 + (c.toNat + n) % 4096)

/-- Specification: bytes of a line of each mode of ANTIC, with the normal width. -/
def dlBytes : Nat → Nat
  | 6 | 7 | 10 | 11 | 12 => 20
  | 8 | 9 => 10
  | _ => 40

/-- Specification: `Antic r p c ls e`: with memory `r`, the display list at `p`, with the address of the data at `c`, shows the lines `ls`, each with its mode and the address of its data, and then
waits for the next frame, that begins with the display list at `e`. Display lists with interrupts, scrolling or jumps in the middle of the screen are not accepted. -/
inductive Antic (r : W → B) : W → W → List (Nat × W) → W → Prop
  /-- Blank scan lines. -/
  | blank {p c ls e} (h : (r p).toNat < 128) (h' : (r p).toNat % 16 = 0) : Antic r (inc10 p) c ls e → Antic r p c ls e
  /-- One line. -/
  | line {p c ls e} (h : 2 ≤ (r p).toNat) (h' : (r p).toNat < 16) : Antic r (inc10 p) (adv12 c (dlBytes (r p).toNat)) ls e → Antic r p c (((r p).toNat, c) :: ls) e
  /-- One line, that loads the address of the data. -/
  | load {p c ls e} (h : 2 ≤ (r p).toNat % 16) (h' : (r p).toNat / 16 = 4) :
    Antic r (inc10 (inc10 (inc10 p))) (adv12 (word (r (inc10 p)) (r (inc10 (inc10 p)))) (dlBytes ((r p).toNat % 16))) ls e →
    Antic r p c (((r p).toNat % 16, word (r (inc10 p)) (r (inc10 (inc10 p)))) :: ls) e
  /-- Jump, and wait for the vertical blank. -/
  | jump {p c} (h : r p = 0x41) : Antic r p c [] (word (r (inc10 p)) (r (inc10 (inc10 p))))

/-- Specification: `n` lines of `b` bytes, one after the other. -/
def linesAt (mode : Nat) (a : W) (b n : Nat) : List (Nat × W) := (List.range n).map fun j => (mode, a + BitVec.ofNat 16 (j * b))

/-- Specification: what is on the screen in a mode: mode of ANTIC, rows, address of the screen, address of the display list, kind of screen for the other routines, and top two bits of `GPRIOR`. -/
structure Screen where
  antic : Nat
  rows : Nat
  scr : W
  dl : W
  kind : B
  gtia : B

/-- Specification: the modes of `GRAPHICS`. Modes that do not exist are mode 0. -/
def screenOf : Nat → Screen
  | 1 => ⟨6, 24, 0x3E20, 0x3E00, 0xC4, 0⟩
  | 2 => ⟨7, 12, 0x3F10, 0x3EF0, 0xC5, 0⟩
  | 7 => ⟨13, 96, 0x3100, 0x3098, 0, 0⟩
  | 8 => ⟨15, 192, 0x21F0, 0x2126, 1, 0⟩
  | 9 => ⟨15, 192, 0x21F0, 0x2126, 2, 0x40⟩
  | 10 => ⟨15, 192, 0x21F0, 0x2126, 2, 0x80⟩
  | 11 => ⟨15, 192, 0x21F0, 0x2126, 2, 0xC0⟩
  | 12 => ⟨4, 24, 0x3C40, 0x3C20, 0x86, 0⟩
  | 13 => ⟨5, 12, 0x3E20, 0x3E00, 0x87, 0⟩
  | 15 => ⟨14, 192, 0x21F0, 0x2126, 3, 0⟩
  | _ => ⟨2, 24, 0x3C40, 0x3C20, 0x86, 0⟩

/-- Specification: cells that `GRAPHICS` sets. -/
def grCells : List W :=
  [SDLSTL, SDLSTH, SDMCTL, COLOR0, COLOR0 + 1, COLOR0 + 2, COLOR0 + 3, COLOR0 + 4, ROWCRS, COLCRS, COLCRS1, DINDEX, SAVMSC, SAVMSC1, gColor, memtop, memtop1, GPRIOR, DMACTL]

/-! ## The list, as ANTIC sees it -/

theorem inc10_ok {D : W} {i : Nat} (hD : D.toNat < 0x4000) (h : D.toNat % 1024 + i + 1 < 1024) : inc10 (D + BitVec.ofNat 16 i) = D + BitVec.ofNat 16 (i + 1) := by
  apply BitVec.eq_of_toNat_eq
  simp only [inc10, BitVec.toNat_ofNat, BitVec.toNat_add]
  omega

theorem adv12_ok {c : W} {b : Nat} (h : c.toNat % 4096 + b < 4096) : adv12 c b = c + BitVec.ofNat 16 b := by
  apply BitVec.eq_of_toNat_eq
  have := c.isLt
  simp only [adv12, BitVec.toNat_ofNat, BitVec.toNat_add]
  omega

theorem linesAt_add (mode : Nat) (a : W) (b n k : Nat) : linesAt mode a b (n + k) = linesAt mode a b n ++ linesAt mode (a + BitVec.ofNat 16 (n * b)) b k := by
  simp only [linesAt, List.range_add, List.map_append, List.map_map]
  congr 1
  apply List.map_congr_left
  intro j _
  simp only [Function.comp, Nat.add_mul, BitVec.ofNat_add, BitVec.add_assoc]

/-- The bytes `l` are in memory at `D + i`. -/
def Has (r : W → B) (D : W) (i : Nat) (l : List B) : Prop := ∀ j, j < l.length → r (D + BitVec.ofNat 16 (i + j)) = l.getD j 0

theorem Has.split {r : W → B} {D : W} {i : Nat} {l l' : List B} (h : Has r D i (l ++ l')) : Has r D i l ∧ Has r D (i + l.length) l' := by
  refine ⟨fun j hj => ?_, fun j hj => ?_⟩
  · rw [h j (by simp; omega)]
    simp [List.getD, List.getElem?_append, hj]
  · rw [Nat.add_assoc, h (l.length + j) (by simp; omega)]
    simp [List.getD, List.getElem?_append]

theorem antic_lines {r : W → B} {D : W} {md : B} {e : W} {ls : List (Nat × W)} (hD : D.toNat < 0x4000) (h2 : 2 ≤ md.toNat) (h16 : md.toNat < 16) (n : Nat) {i : Nat} {c : W}
    (hh : Has r D i (List.replicate n md)) (hn : D.toNat % 1024 + i + n < 1024) (hc : c.toNat % 4096 + n * dlBytes md.toNat ≤ 4096)
    (ht : ∀ c, Antic r (D + BitVec.ofNat 16 (i + n)) c ls e) :
    Antic r (D + BitVec.ofNat 16 i) c (linesAt md.toNat c (dlBytes md.toNat) n ++ ls) e := by
  induction n generalizing i c with
  | zero => simpa [linesAt] using ht c
  | succ n ih =>
    have h0 : r (D + BitVec.ofNat 16 i) = md := by simpa using hh 0 (by simp)
    have ht' : Has r D (i + 1) (List.replicate n md) := by
      intro j hj
      simp at hj
      have := hh (j + 1) (by simp; omega)
      rw [show i + 1 + j = i + (j + 1) by omega, this]
      simp [List.getD, hj]
    have hl : linesAt md.toNat c (dlBytes md.toNat) (n + 1) = (md.toNat, c) :: linesAt md.toNat (c + BitVec.ofNat 16 (dlBytes md.toNat)) (dlBytes md.toNat) n := by
      rw [Nat.add_comm n 1, linesAt_add]
      simp [linesAt]
    rw [hl, List.cons_append]
    have goal : Antic r (inc10 (D + BitVec.ofNat 16 i)) (adv12 c (dlBytes md.toNat)) (linesAt md.toNat (c + BitVec.ofNat 16 (dlBytes md.toNat)) (dlBytes md.toNat) n ++ ls) e := by
      rw [inc10_ok hD (by omega)]
      cases n with
      | zero => simpa [linesAt] using ht _
      | succ n =>
        have hb : 0 < dlBytes md.toNat := by unfold dlBytes; split <;> omega
        have hm : (n + 1 + 1) * dlBytes md.toNat = (n + 1) * dlBytes md.toNat + dlBytes md.toNat := Nat.succ_mul _ _
        have hm2 : (n + 1) * dlBytes md.toNat = n * dlBytes md.toNat + dlBytes md.toNat := Nat.succ_mul _ _
        rw [adv12_ok (by omega)]
        refine ih ht' (by omega) ?_ (fun c => ?_)
        · rw [BitVec.toNat_add, BitVec.toNat_ofNat]; omega
        · rw [show i + 1 + (n + 1) = i + (n + 1 + 1) by omega]; exact ht c
    have := Antic.line (r := r) (p := D + BitVec.ofNat 16 i) (c := c) (by rw [h0]; exact h2) (by rw [h0]; exact h16) (by rw [h0]; exact goal)
    rw [h0] at this
    exact this

/-- A line that loads the address, and more lines. -/
theorem antic_block {r : W → B} {D : W} {md lo hi : B} {e : W} {ls : List (Nat × W)} (hD : D.toNat < 0x4000) (h2 : 2 ≤ md.toNat) (h16 : md.toNat < 16) (n : Nat) {i : Nat}
    (hh : Has r D i ([md ||| 0x40#8, lo, hi] ++ List.replicate n md)) (hn : D.toNat % 1024 + i + 3 + n < 1024) (hc : (word lo hi).toNat % 4096 + (n + 1) * dlBytes md.toNat ≤ 4096)
    (ht : ∀ c, Antic r (D + BitVec.ofNat 16 (i + 3 + n)) c ls e) (c : W) :
    Antic r (D + BitVec.ofNat 16 i) c (linesAt md.toNat (word lo hi) (dlBytes md.toNat) (n + 1) ++ ls) e := by
  obtain ⟨ha, hb⟩ := hh.split
  have a0 : r (D + BitVec.ofNat 16 i) = md ||| 0x40#8 := by simpa using ha 0 (by simp)
  have a1 : r (D + BitVec.ofNat 16 (i + 1)) = lo := by simpa using ha 1 (by simp)
  have a2 : r (D + BitVec.ofNat 16 (i + 2)) = hi := by simpa using ha 2 (by simp)
  have i1 := inc10_ok (i := i) hD (by omega)
  have i2 := inc10_ok (i := i + 1) hD (by omega)
  have i3 := inc10_ok (i := i + 2) hD (by omega)
  have hmd : (md ||| 0x40#8).toNat = md.toNat + 64 := by
    have : ∀ b : B, b.toNat < 16 → (b ||| 0x40#8).toNat = b.toNat + 64 := by decide +kernel
    exact this md h16
  have e1 : (md.toNat + 64) % 16 = md.toNat := by omega
  have hl : linesAt md.toNat (word lo hi) (dlBytes md.toNat) (n + 1) = (md.toNat, word lo hi) :: linesAt md.toNat (word lo hi + BitVec.ofNat 16 (dlBytes md.toNat)) (dlBytes md.toNat) n := by
    rw [Nat.add_comm n 1, linesAt_add]
    simp [linesAt]
  rw [hl, List.cons_append]
  have goal : Antic r (D + BitVec.ofNat 16 (i + 3)) (adv12 (word lo hi) (dlBytes md.toNat)) (linesAt md.toNat (word lo hi + BitVec.ofNat 16 (dlBytes md.toNat)) (dlBytes md.toNat) n ++ ls) e := by
    cases n with
    | zero => simpa [linesAt] using ht _
    | succ n =>
      have hb' : 0 < dlBytes md.toNat := by unfold dlBytes; split <;> omega
      have hm : (n + 1 + 1) * dlBytes md.toNat = (n + 1) * dlBytes md.toNat + dlBytes md.toNat := Nat.succ_mul _ _
      have hm2 : (n + 1) * dlBytes md.toNat = n * dlBytes md.toNat + dlBytes md.toNat := Nat.succ_mul _ _
      rw [adv12_ok (by omega)]
      refine antic_lines hD h2 h16 (n + 1) hb (by omega) ?_ ht
      rw [BitVec.toNat_add, BitVec.toNat_ofNat]; omega
  have := Antic.load (r := r) (p := D + BitVec.ofNat 16 i) (c := c) (ls := linesAt md.toNat (word lo hi + BitVec.ofNat 16 (dlBytes md.toNat)) (dlBytes md.toNat) n ++ ls) (e := e)
    (by rw [a0, hmd]; omega) (by rw [a0, hmd]; omega) (by rw [a0, hmd, e1, i1, i2, i3, a1, a2]; exact goal)
  rw [a0, hmd, e1, i1, i2, a1, a2] at this
  exact this

theorem antic_blank {r : W → B} {D : W} {e : W} {ls : List (Nat × W)} (hD : D.toNat < 0x4000) (hh : Has r D 0 [112#8, 112#8, 112#8]) (hn : D.toNat % 1024 + 4 < 1024)
    (ht : ∀ c, Antic r (D + BitVec.ofNat 16 3) c ls e) (c : W) : Antic r D c ls e := by
  have a0 : r (D + BitVec.ofNat 16 0) = 112#8 := by simpa using hh 0 (by simp)
  have a1 : r (D + BitVec.ofNat 16 1) = 112#8 := by simpa using hh 1 (by simp)
  have a2 : r (D + BitVec.ofNat 16 2) = 112#8 := by simpa using hh 2 (by simp)
  have e0 : D = D + BitVec.ofNat 16 0 := by simp
  rw [e0]
  refine .blank (by rw [a0]; decide) (by rw [a0]; decide) ?_
  rw [inc10_ok hD (by omega)]
  refine .blank (by rw [a1]; decide) (by rw [a1]; decide) ?_
  rw [inc10_ok hD (by omega)]
  refine .blank (by rw [a2]; decide) (by rw [a2]; decide) ?_
  rw [inc10_ok hD (by omega)]
  exact ht c

theorem antic_jump {r : W → B} {D : W} {lo hi : B} (hD : D.toNat < 0x4000) {i : Nat} (hh : Has r D i [65#8, lo, hi]) (hn : D.toNat % 1024 + i + 2 < 1024) (c : W) :
    Antic r (D + BitVec.ofNat 16 i) c [] (word lo hi) := by
  have a0 : r (D + BitVec.ofNat 16 i) = 65#8 := by simpa using hh 0 (by simp)
  have a1 : r (D + BitVec.ofNat 16 (i + 1)) = lo := by simpa using hh 1 (by simp)
  have a2 : r (D + BitVec.ofNat 16 (i + 2)) = hi := by simpa using hh 2 (by simp)
  have := Antic.jump (r := r) (p := D + BitVec.ofNat 16 i) (c := c) (by rw [a0]; rfl)
  rw [inc10_ok hD (by omega), inc10_ok hD (by omega), a1, a2] at this
  exact this

/-! ## The routine -/

/-- A list with no line that begins 4K. -/
theorem gm_list1 (m : M) {D : W} {md : B} {st : List Slot} {R : Nat} (hD : word (m.ram SDLSTL) (m.ram SDLSTH) = D) (h0 : 0x1000 ≤ D.toNat) (h1 : D.toNat < 0x4000)
    (hs : m.stk = .byte md :: st) (hr : m.ram ROWCRS = BitVec.ofNat 8 (R + 1)) (hR : R < 200) (hmd : md.toNat < 14) :
    ∃ m', Reach gmCode gmCode.gm_3 m gmCode.gm_pal m' ∧ Wr D ([112#8, 112#8, 112#8] ++ (([md ||| 0x40#8, m.ram SAVMSC, m.ram SAVMSC1] ++ List.replicate R md) ++
      [65#8, m.ram SDLSTL, m.ram SDLSTH])) m.ram m'.ram ∧ m'.stk = st ∧ m'.gmv = m.gmv := by
  obtain ⟨m1, r1, w1, c1, y1, s1, v1⟩ := gm_blank m hD h0 h1
  obtain ⟨m2, r2, w2, c2, y2, a2, s2, v2⟩ := gm_first m1 hD w1 (by decide) y1 (s1.trans hs)
  obtain ⟨m3, r3, w3, c3, y3, a3, s3, v3⟩ := gm_lines R hD m2 w2 (by simp; omega) y2 (k := 1) (by omega) (by omega) (by rw [c2, c1, hr]) (Or.inr (by rw [a2]; exact hmd))
  obtain ⟨m4, r4, w4, s4, v4⟩ := gm_jump m3 hD w3 (by simp; omega) (by rw [y3]; congr 1; simp; omega) c3 (Or.inr (by rw [a3, a2]; exact hmd))
  refine ⟨m4, r1.trans (r2.trans (r3.trans r4)), ?_, by rw [s4, s3, s2], by rw [v4, v3, v2, v1]⟩
  rw [a2] at w4
  simpa using w4

/-- A list of 192 lines, with one that begins 4K. -/
theorem gm_list2 (m : M) {D : W} {md : B} {st : List Slot} (hD : word (m.ram SDLSTL) (m.ram SDLSTH) = D) (h0 : 0x1000 ≤ D.toNat) (h1 : D.toNat < 0x4000)
    (hs : m.stk = .byte md :: st) (hr : m.ram ROWCRS = 192#8) (hmd : 14 ≤ md.toNat) :
    ∃ m', Reach gmCode gmCode.gm_3 m gmCode.gm_pal m' ∧ Wr D ([112#8, 112#8, 112#8] ++ (([md ||| 0x40#8, m.ram SAVMSC, m.ram SAVMSC1] ++ List.replicate 89 md) ++
      (([md ||| 0x40#8, 0#8, 0x30#8] ++ List.replicate 101 md) ++ [65#8, m.ram SDLSTL, m.ram SDLSTH]))) m.ram m'.ram ∧ m'.stk = st ∧ m'.gmv = m.gmv := by
  obtain ⟨m1, r1, w1, c1, y1, s1, v1⟩ := gm_blank m hD h0 h1
  obtain ⟨m2, r2, w2, c2, y2, a2, s2, v2⟩ := gm_first m1 hD w1 (by decide) y1 (s1.trans hs)
  obtain ⟨m3, r3, w3, c3, y3, a3, s3, v3⟩ := gm_lines 89 hD m2 w2 (by simp) y2 (k := 103) (by omega) (by omega) (by rw [c2, c1, hr]) (by left; right; simp)
  rw [a2] at w3 a3
  obtain ⟨m4, r4, w4, c4, y4, a4, s4, v4⟩ := gm_dopatch m3 hD w3 (by simp) (by rw [y3]; rfl) (by rw [a3]; exact hmd)
  obtain ⟨m5, r5, w5, c5, y5, a5, s5, v5⟩ := gm_line m4 hD w4 (by simp) (by rw [y4]; simp) (k := 101) (by omega) (by rw [c4, c3]; rfl)
  rw [if_neg (by decide)] at r5
  obtain ⟨m6, r6, w6, c6, y6, a6, s6, v6⟩ := gm_lines 100 hD m5 w5 (by simp only [List.length_append, List.length_replicate, List.length_cons, List.length_nil]; try omega) (by rw [y5, y4]; simp only [List.length_append, List.length_replicate, List.length_cons, List.length_nil]; rfl) (k := 1) (by omega) (by omega) (by rw [c5]) (by left; left; simp only [List.length_append, List.length_replicate, List.length_cons, List.length_nil]; omega)
  obtain ⟨m7, r7, w7, s7, v7⟩ := gm_jump m6 hD w6 (by simp only [List.length_append, List.length_replicate, List.length_cons, List.length_nil]; try omega) (by rw [y6]; congr 1) c6 (by left; simp only [List.length_append, List.length_replicate, List.length_cons, List.length_nil]; try omega)
  refine ⟨m7, r1.trans (r2.trans (r3.trans (r4.trans (r5.trans (r6.trans r7))))), ?_, by rw [s7, s6, s5, s4, s3, s2], by rw [v7, v6, v5, v4, v3, v2, v1]⟩
  rw [a5, a4, a3] at w7
  rw [show List.replicate 101 md = [md] ++ List.replicate 100 md from rfl]
  simpa only [List.append_assoc, List.cons_append, List.nil_append] using w7

/-- What ANTIC shows with a list that was written. -/
theorem antic_list1 {r' : W → B} {D : W} {md lo hi dlo dhi : B} {R : Nat}
    (hD : D.toNat < 0x4000) (hh : Has r' D 0 ([112#8, 112#8, 112#8] ++ (([md ||| 0x40#8, lo, hi] ++ List.replicate R md) ++ [65#8, dlo, dhi]))) (h2 : 2 ≤ md.toNat) (h16 : md.toNat < 16)
    (hd : D.toNat % 1024 + R + 9 ≤ 1024) (hc : (word lo hi).toNat % 4096 + (R + 1) * dlBytes md.toNat ≤ 4096) (c : W) :
    Antic r' D c (linesAt md.toNat (word lo hi) (dlBytes md.toNat) (R + 1)) (word dlo dhi) := by
  obtain ⟨a1, a2⟩ := hh.split
  have a2 : Has r' D 3 _ := a2
  obtain ⟨a2, a3⟩ := a2.split
  refine antic_blank hD a1 (by omega) (fun c => ?_) c
  rw [← List.append_nil (linesAt _ _ _ _)]
  refine antic_block hD h2 h16 R a2 (by omega) hc (fun c => ?_) c
  refine antic_jump hD ?_ (by omega) c
  convert a3 using 1
  simp; omega

theorem antic_list2 {r' : W → B} {D : W} {md lo hi dlo dhi : B}
    (hD : D.toNat < 0x4000) (hh : Has r' D 0 ([112#8, 112#8, 112#8] ++ (([md ||| 0x40#8, lo, hi] ++ List.replicate 89 md) ++ (([md ||| 0x40#8, 0#8, 0x30#8] ++ List.replicate 101 md) ++ [65#8, dlo, dhi]))))
    (h2 : 14 ≤ md.toNat) (h16 : md.toNat < 16) (hd : D.toNat % 1024 + 202 ≤ 1024) (hc : word lo hi = 0x21F0#16) (c : W) :
    Antic r' D c (linesAt md.toNat (word lo hi) (dlBytes md.toNat) 192) (word dlo dhi) := by
  have hb : dlBytes md.toNat = 40 := by
    have : md.toNat = 14 ∨ md.toNat = 15 := by omega
    rcases this with h | h <;> rw [h] <;> rfl
  obtain ⟨a1, a2⟩ := hh.split
  have a2 : Has r' D 3 _ := a2
  obtain ⟨a2, a3⟩ := a2.split
  obtain ⟨a3, a4⟩ := a3.split
  refine antic_blank hD a1 (by omega) (fun c => ?_) c
  have e : linesAt md.toNat (word lo hi) (dlBytes md.toNat) 192 = linesAt md.toNat (word lo hi) (dlBytes md.toNat) (89 + 1) ++ linesAt md.toNat (word 0#8 0x30#8) (dlBytes md.toNat) (101 + 1) := by
    rw [show 192 = (89 + 1) + (101 + 1) from rfl, linesAt_add, hc, hb]
    rfl
  rw [e]
  refine antic_block hD (by omega) h16 89 a2 (by omega) (by rw [hc, hb]; decide) (fun c => ?_) c
  rw [← List.append_nil (linesAt _ (word 0#8 0x30#8) _ _)]
  have h3 : Has r' D (3 + 3 + 89) ([md ||| 0x40#8, 0#8, 0x30#8] ++ List.replicate 101 md) := by simpa using a3
  refine antic_block hD (by omega) h16 101 h3 (by omega) (by rw [hb]; decide) (fun c => ?_) c
  refine antic_jump hD ?_ (by omega) c
  simpa using a4

/-- The tables and the modes. -/
theorem gm_tables : ∀ i, i < 16 →
    let t : B := [0x86, 0xC4, 0xC5, 0x86, 0x86, 0x86, 0x86, 0x00, 0x01, 0x02, 0x02, 0x02, 0x86, 0x87, 0x86, 0x03].getD i 0
    let md : B := [0x02, 0x06, 0x07, 0x02, 0x02, 0x02, 0x02, 0x0D, 0x0F, 0x4F, 0x8F, 0xCF, 0x04, 0x05, 0x02, 0x0E].getD i 0
    let x := (t &&& 7#8).toNat
    let ml : B := [0x00, 0xF0, 0xF0, 0xF0, 0x20, 0x10, 0x40, 0x20].getD x 0
    let mh : B := [0x31, 0x21, 0x21, 0x21, 0x3E, 0x3F, 0x3C, 0x3E].getD x 0
    let dl : B := [0x98, 0x26, 0x26, 0x26, 0x00, 0xF0, 0x20, 0x00].getD x 0
    let dh : B := [0x30, 0x21, 0x21, 0x21, 0x3E, 0x3E, 0x3C, 0x3E].getD x 0
    let rows : B := [96, 192, 192, 192, 24, 12, 24, 12].getD x 0
    t = (screenOf i).kind ∧ (md &&& 15#8).toNat = (screenOf i).antic ∧ md &&& 0xC0#8 = (screenOf i).gtia ∧ word ml mh = (screenOf i).scr ∧ word dl dh = (screenOf i).dl ∧
      rows = BitVec.ofNat 8 (screenOf i).rows := by decide

/-- The screens fit. -/
theorem screen_fits : ∀ i, i < 16 → 2 ≤ (screenOf i).antic ∧ (screenOf i).antic < 16 ∧ 0x1000 ≤ (screenOf i).dl.toNat ∧ (screenOf i).dl.toNat + (screenOf i).rows + 8 ≤ (screenOf i).scr.toNat ∧
    (screenOf i).scr.toNat + (screenOf i).rows * dlBytes (screenOf i).antic ≤ 0x4000 ∧ 1 ≤ (screenOf i).rows ∧
    (((screenOf i).antic < 14 ∧ (screenOf i).rows < 200 ∧ (screenOf i).dl.toNat % 1024 + (screenOf i).rows + 8 ≤ 1024 ∧
      (screenOf i).scr.toNat % 4096 + (screenOf i).rows * dlBytes (screenOf i).antic ≤ 4096) ∨
     (14 ≤ (screenOf i).antic ∧ (screenOf i).rows = 192 ∧ (screenOf i).dl = 0x2126#16 ∧ (screenOf i).scr = 0x21F0#16)) := by decide

theorem fill_out {d : W} {n : Nat} {v : B} {r : W → B} {a : W} (h : d.toNat + n ≤ 65536) (ha : a.toNat < d.toNat ∨ d.toNat + n ≤ a.toNat) : fill d n v r a = r a := by
  have := a.isLt
  simp only [fill]
  rw [if_neg]
  rw [BitVec.toNat_sub]; omega

/-- From the start to the display list. -/
theorem gm_before (m : M) (hrom : GmRom m.ram) {i : Nat} (hi : (m.a &&& 15#8).toNat = i) : ∃ (m' : M) (md : B), Reach gmCode gmCode.set_grmode m gmCode.gm_3 m' ∧ m'.stk = .byte md :: m.stk ∧
    md.toNat = (screenOf i).antic ∧ word (m'.ram SDLSTL) (m'.ram SDLSTH) = (screenOf i).dl ∧ word (m'.ram memtop) (m'.ram memtop1) = (screenOf i).dl ∧
    word (m'.ram SAVMSC) (m'.ram SAVMSC1) = (screenOf i).scr ∧ m'.ram DINDEX = (screenOf i).kind ∧ m'.ram GPRIOR = (m.ram GPRIOR &&& 0x3F#8) ||| (screenOf i).gtia ∧
    m'.ram ROWCRS = BitVec.ofNat 8 (screenOf i).rows ∧ (∀ a : W, (screenOf i).scr.toNat ≤ a.toNat → a.toNat < 0x4000 → m'.ram a = 0) ∧
    (∀ a : W, a ∉ grCells → a.toNat < (screenOf i).scr.toNat ∨ 0x4000 ≤ a.toNat → m'.ram a = m.ram a) ∧ m'.gmv = m.gmv := by
  have hi16 : i < 16 := by
    rw [← hi, BitVec.toNat_and]
    exact Nat.lt_of_le_of_lt Nat.and_le_right (by decide)
  obtain ⟨t1, t2, t3, t4, t5, t6⟩ := gm_tables i hi16
  obtain ⟨f1, f2, f3, f4, f5, f6, -⟩ := screen_fits i hi16
  obtain ⟨m1, r1, x1, s1, d1, g1, k1, v1⟩ := gm_start m
  have q1 := hrom.typ (m.a &&& 15#8) (by rw [hi]; exact hi16)
  have q2 := hrom.mode (m.a &&& 15#8) (by rw [hi]; exact hi16)
  rw [hi] at q1 q2
  rw [q1] at x1 d1
  rw [q2] at s1 g1
  have hx : m1.x.toNat < 8 := by
    rw [x1, BitVec.toNat_and]
    exact Nat.lt_of_le_of_lt Nat.and_le_right (by decide)
  have rk : ∀ w : W, 0xB000 ≤ w.toNat → w.toNat < 0xC000 → m1.ram w = m.ram w := fun w h1 h2 => k1 w (by
    simp only [List.mem_cons, List.not_mem_nil, or_false, not_or]
    refine ⟨?_, ?_, ?_, ?_⟩ <;> (intro e; rw [e] at h1 h2; simp at h1 h2))
  obtain ⟨m2, r2, s2, z2, b1, b2, b3, b4, b5, b6, b7, k2, v2⟩ := gm_setup m1
  have p1 := (hrom.memL.keep (by decide) (by decide) rk) m1.x hx
  have p2 := (hrom.memH.keep (by decide) (by decide) rk) m1.x hx
  have p3 := (hrom.dlL.keep (by decide) (by decide) rk) m1.x hx
  have p4 := (hrom.dlH.keep (by decide) (by decide) rk) m1.x hx
  have p5 := (hrom.rows.keep (by decide) (by decide) rk) m1.x hx
  rw [p1] at b1
  rw [p2] at b2
  rw [p3] at b3 b5
  rw [p4] at b4 b6
  rw [p5] at b7
  rw [p1, p2] at z2
  rw [x1] at b1 b2 b3 b4 b5 b6 b7 z2
  have hm : word m2.zp.mdst m2.zp.mdsth = (screenOf i).scr := by rw [z2]; exact t4
  obtain ⟨m3, r3, s3, u3, v3⟩ := gm_clear m2 (by rw [hm]; omega)
  rw [hm] at u3
  have out : ∀ a : W, a.toNat < (screenOf i).scr.toNat ∨ 0x4000 ≤ a.toNat → m3.ram a = m2.ram a := fun a ha => by
    rw [u3, fill_out (by omega) (by omega)]
  have lo : ∀ a : W, a.toNat < 0x1000 → m3.ram a = m2.ram a := fun a ha => out a (Or.inl (by omega))
  refine ⟨m3, _, r1.trans (r2.trans r3), by rw [s3, s2, s1], t2, ?_, ?_, ?_, ?_, ?_, ?_, ?_, ?_, by rw [v3, v2, v1]⟩
  · rw [lo SDLSTL (by decide), lo SDLSTH (by decide), b3, b4]; exact t5
  · rw [lo memtop (by decide), lo memtop1 (by decide), b5, b6]; exact t5
  · rw [lo SAVMSC (by decide), lo SAVMSC1 (by decide), b1, b2]; exact t4
  · rw [lo DINDEX (by decide), k2 DINDEX (by decide), d1]; exact t1
  · rw [lo GPRIOR (by decide), k2 GPRIOR (by decide), g1]
    have key : ∀ g d : B, ((g ^^^ d) &&& 0xC0#8) ^^^ g = (g &&& 0x3F#8) ||| (d &&& 0xC0#8) := by
      intro g d
      apply BitVec.eq_of_getLsbD_eq
      intro j hj
      have : j = 0 ∨ j = 1 ∨ j = 2 ∨ j = 3 ∨ j = 4 ∨ j = 5 ∨ j = 6 ∨ j = 7 := by omega
      rcases this with h | h | h | h | h | h | h | h <;> subst h <;> simp
      · generalize g[6] = x; generalize d[6] = y; revert x y; decide
      · generalize g[7] = x; generalize d[7] = y; revert x y; decide
    rw [key]
    exact congrArg _ t3
  · rw [lo ROWCRS (by decide), b7]; exact t6
  · intro a ha hb
    rw [u3, fill, if_pos]
    rw [BitVec.toNat_sub]; omega
  · intro a ha hb
    rw [out a hb, k2 a (fun h => ha ?_), k1 a (fun h => ha ?_)]
    · revert h; simp only [grCells, List.mem_cons, List.not_mem_nil, or_false]; grind
    · revert h; simp only [grCells, List.mem_cons, List.not_mem_nil, or_false]; grind

/-- Specification: the screen of a mode is ready: ANTIC shows the rows of the screen, one after the other, in every frame, and the screen is empty; the other routines know where the screen is, and the
memory for the program ends below it; the cursor is at the start and the colors are the standard ones. -/
structure ScreenReady (s : Screen) (g : B) (r : W → B) : Prop where
  dl : word (r SDLSTL) (r SDLSTH) = s.dl
  dma : r SDMCTL = 0x22
  shown : ∀ c, Antic r s.dl c (linesAt s.antic s.scr (dlBytes s.antic) s.rows) s.dl
  empty : ∀ j, j < s.rows * dlBytes s.antic → r (s.scr + BitVec.ofNat 16 j) = 0
  top : word (r memtop) (r memtop1) = s.dl
  scr : word (r SAVMSC) (r SAVMSC1) = s.scr
  kind : r DINDEX = s.kind
  gtia : r GPRIOR = (g &&& 0x3F) ||| s.gtia
  row : r ROWCRS = 0
  col : r COLCRS = 0 ∧ r COLCRS1 = 0
  color : r gColor = 0
  colors : (r COLOR0, r (COLOR0 + 1), r (COLOR0 + 2), r (COLOR0 + 3), r (COLOR0 + 4)) = (0x28, 0xCA, 0x94, 0x46, 0)

/-- `GRAPHICS`, with any number for the mode: it ends with the screen of the mode ready, and keeps memory below the display list and above `$4000` but for its own cells. -/
theorem C59_graphics (m : M) (k : Code) (st : List Slot) (hk : m.stk = .ret k :: st) (hrom : GmRom m.ram) :
    ∃ m', Reach gmCode gmCode.set_grmode m k m' ∧ ScreenReady (screenOf (m.a.toNat % 16)) (m.ram GPRIOR) m'.ram ∧
      (∀ a : W, a ∉ grCells → a.toNat < (screenOf (m.a.toNat % 16)).dl.toNat ∨ 0x4000 ≤ a.toNat → m'.ram a = m.ram a) ∧ m'.stk = st ∧ m'.gmv = m.gmv := by
  have hi : (m.a &&& 15#8).toNat = m.a.toNat % 16 := by
    rw [BitVec.toNat_and]; exact Nat.and_two_pow_sub_one_eq_mod _ 4
  generalize hii : m.a.toNat % 16 = i at hi
  have hi16 : i < 16 := by omega
  obtain ⟨f1, f2, f3, f4, f5, f6, f7⟩ := screen_fits i hi16
  obtain ⟨m1, md, r1, s1, a1, d1, t1, c1, k1, g1, w1, e1, o1, v1⟩ := gm_before m hrom hi
  have hD1 : (screenOf i).dl.toNat < 0x4000 := by omega
  have hr1 : 1 ≤ dlBytes (screenOf i).antic := by unfold dlBytes; split <;> omega
  obtain ⟨m2, L, r2, w2, hL, s2, v2, sh⟩ : ∃ (m2 : M) (L : List B), Reach gmCode gmCode.gm_3 m1 gmCode.gm_pal m2 ∧ Wr (screenOf i).dl L m1.ram m2.ram ∧
      L.length ≤ (screenOf i).scr.toNat - (screenOf i).dl.toNat ∧ m2.stk = m.stk ∧ m2.gmv = m1.gmv ∧
      ∀ r', Has r' (screenOf i).dl 0 L → ∀ c, Antic r' (screenOf i).dl c (linesAt (screenOf i).antic (screenOf i).scr (dlBytes (screenOf i).antic) (screenOf i).rows) (screenOf i).dl := by
    rcases f7 with ⟨g1, g2, g3, g4⟩ | ⟨g1, g2, g3, g4⟩
    · obtain ⟨R, hR⟩ : ∃ R, (screenOf i).rows = R + 1 := ⟨(screenOf i).rows - 1, by omega⟩
      rw [hR] at w1
      obtain ⟨m2, r2, w2, s2, v2⟩ := gm_list1 m1 d1 f3 hD1 s1 w1 (by omega) (by omega)
      refine ⟨m2, _, r2, w2, ?_, s2, v2, fun r' w' c => ?_⟩
      · simp only [List.length_append, List.length_replicate, List.length_cons, List.length_nil]; omega
      · have := antic_list1 hD1 w' (by omega) (by omega) (by omega) (by rw [c1, a1, ← hR]; exact g4) c
        rw [c1, a1, d1, ← hR] at this
        exact this
    · rw [g2] at w1
      obtain ⟨m2, r2, w2, s2, v2⟩ := gm_list2 m1 d1 f3 hD1 s1 w1 (by omega)
      refine ⟨m2, _, r2, w2, ?_, s2, v2, fun r' w' c => ?_⟩
      · simp only [List.length_append, List.length_replicate, List.length_cons, List.length_nil]; rw [g3, g4]; decide
      · have := antic_list2 hD1 w' (by omega) (by omega) (by rw [g3]; decide) (by rw [c1, g4]) c
        rw [c1, a1, d1] at this
        rw [g2]
        exact this
  have hpal : RomTab m2.ram gmPal [0x28, 0xCA, 0x94, 0x46, 0x00] := by
    refine hrom.pal.keep (by decide) (by decide) fun w h1 h2 => ?_
    rw [w2.out w (by intro e; rw [e] at h1; simp at h1) (Or.inr (by omega)), o1 w _ (Or.inr (by omega))]
    simp only [grCells, List.mem_cons, List.not_mem_nil, or_false, not_or]
    refine ⟨?_, ?_, ?_, ?_, ?_, ?_, ?_, ?_, ?_, ?_, ?_, ?_, ?_, ?_, ?_, ?_, ?_, ?_, ?_⟩ <;> (intro e; rw [e] at h1 h2; simp at h1 h2)
  obtain ⟨m3, r3, s3, v3, b1, b2, b3, b4, b5, b6, b7, b8, b9, b10, o3⟩ := gm_finish m2 k st (s2.trans hk) hpal
  have hi3 : ∀ a : W, 0x1000 ≤ a.toNat → m3.ram a = m2.ram a := fun a ha => o3 a (by
    simp only [List.mem_cons, List.not_mem_nil, or_false, not_or]
    refine ⟨?_, ?_, ?_, ?_, ?_, ?_, ?_, ?_, ?_, ?_⟩ <;> (intro e; rw [e] at ha; simp at ha))
  have g3 : ∀ a : W, a.toNat < 0x1000 → a ≠ ROWCRS → a ∉ [SDMCTL, COLOR0, COLOR0 + 1, COLOR0 + 2, COLOR0 + 3, COLOR0 + 4, ROWCRS, COLCRS, COLCRS1, gColor] → m3.ram a = m1.ram a :=
    fun a h1 h2 h3 => by rw [o3 a h3, w2.get h1 h2]
  refine ⟨m3, r1.trans (r2.trans r3), ?_, ?_, s3, by rw [v3, v2, v1]⟩
  · constructor
    · rw [g3 SDLSTL (by decide) (by decide) (by decide), g3 SDLSTH (by decide) (by decide) (by decide), d1]
    · exact b5
    · refine sh m3.ram fun j hj => ?_
      have := w2.len
      rw [Nat.zero_add, hi3, w2.at' j hj]
      rw [dl_toNat hD1 (by omega)]; omega
    · intro j hj
      have e : ((screenOf i).scr + BitVec.ofNat 16 j).toNat = (screenOf i).scr.toNat + j := by
        rw [BitVec.toNat_add, BitVec.toNat_ofNat]; omega
      rw [hi3 _ (by omega), w2.out _ (by intro h; rw [h] at e; simp at e; omega) (Or.inr (by omega)), e1 _ (by omega) (by omega)]
    · rw [g3 memtop (by decide) (by decide) (by decide), g3 memtop1 (by decide) (by decide) (by decide), t1]
    · rw [g3 SAVMSC (by decide) (by decide) (by decide), g3 SAVMSC1 (by decide) (by decide) (by decide), c1]
    · rw [g3 DINDEX (by decide) (by decide) (by decide), k1]
    · rw [g3 GPRIOR (by decide) (by decide) (by decide), g1]; rfl
    · exact b1
    · exact ⟨b2, b3⟩
    · exact b4
    · rw [b6, b7, b8, b9, b10]
  · intro a ha hb
    rw [o3 a (fun h => ha ?_), w2.out a (fun h => ha (by rw [h]; decide)) (by omega), o1 a ha (by omega)]
    revert h; simp only [grCells, List.mem_cons, List.not_mem_nil, or_false]; grind

/-- ANTIC shows only one thing. -/
theorem C59_shown_unique {r : W → B} {p c : W} {ls ls' : List (Nat × W)} {e e' : W} (h : Antic r p c ls e) (h' : Antic r p c ls' e') : ls = ls' ∧ e = e' := by
  induction h generalizing ls' e' with
  | blank h1 h2 _ ih =>
    cases h' with
    | blank _ _ h' => exact ih h'
    | line => omega
    | load => omega
    | jump h => rw [h] at h2; simp at h2
  | line h1 h2 _ ih =>
    cases h' with
    | blank => omega
    | line _ _ h' => obtain ⟨rfl, rfl⟩ := ih h'; exact ⟨rfl, rfl⟩
    | load => omega
    | jump h => rw [h] at h2; simp at h2
  | load h1 h2 _ ih =>
    cases h' with
    | blank => omega
    | line => omega
    | load _ _ h' => obtain ⟨rfl, rfl⟩ := ih h'; exact ⟨rfl, rfl⟩
    | jump h => rw [h] at h1; simp at h1
  | jump h =>
    cases h' with
    | blank _ h2 => rw [h] at h2; simp at h2
    | line _ h2 => rw [h] at h2; simp at h2
    | load h1 _ => rw [h] at h1; simp at h1
    | jump => exact ⟨rfl, rfl⟩

/-- No line of the screen crosses 4K, where ANTIC can not go on; the screen is above its display list, and ends at `$4000` or before. -/
theorem C59_lines_whole (i j : Nat) (hi : i < 16) (hj : j < (screenOf i).rows) :
    let s := screenOf i
    (s.scr + BitVec.ofNat 16 (j * dlBytes s.antic)).toNat % 4096 + dlBytes s.antic ≤ 4096 ∧ s.dl.toNat < s.scr.toNat ∧ s.scr.toNat + s.rows * dlBytes s.antic ≤ 0x4000 := by
  obtain ⟨f1, f2, f3, f4, f5, f6, f7⟩ := screen_fits i hi
  refine ⟨?_, by omega, f5⟩
  have hle : (j + 1) * dlBytes (screenOf i).antic ≤ (screenOf i).rows * dlBytes (screenOf i).antic := Nat.mul_le_mul_right _ hj
  have hm : (j + 1) * dlBytes (screenOf i).antic = j * dlBytes (screenOf i).antic + dlBytes (screenOf i).antic := Nat.succ_mul _ _
  have hb : 0 < dlBytes (screenOf i).antic := by unfold dlBytes; split <;> omega
  rw [BitVec.toNat_add, BitVec.toNat_ofNat]
  rcases f7 with ⟨g1, g2, g3, g4⟩ | ⟨g1, g2, g3, g4⟩
  · omega
  · have hb : dlBytes (screenOf i).antic = 40 := by
      have : (screenOf i).antic = 14 ∨ (screenOf i).antic = 15 := by omega
      rcases this with h | h <;> rw [h] <;> rfl
    have h0 : (screenOf i).scr.toNat = 0x21F0 := by rw [g4]; rfl
    rw [hb, h0]
    rw [g2] at hj
    have : ∀ j, j < 192 → (0x21F0 + j * 40 % 2 ^ 16) % 2 ^ 16 % 4096 + 40 ≤ 4096 := by decide +kernel
    exact this j hj

/-! ## A concrete case -/

/-- The tables in memory. -/
def gmExRom (w : W) : B :=
  [0x86, 0xC4, 0xC5, 0x86, 0x86, 0x86, 0x86, 0x00, 0x01, 0x02, 0x02, 0x02, 0x86, 0x87, 0x86, 0x03,
   0x02, 0x06, 0x07, 0x02, 0x02, 0x02, 0x02, 0x0D, 0x0F, 0x4F, 0x8F, 0xCF, 0x04, 0x05, 0x02, 0x0E,
   0x00, 0xF0, 0xF0, 0xF0, 0x20, 0x10, 0x40, 0x20, 0x31, 0x21, 0x21, 0x21, 0x3E, 0x3F, 0x3C, 0x3E,
   0x98, 0x26, 0x26, 0x26, 0x00, 0xF0, 0x20, 0x00, 0x30, 0x21, 0x21, 0x21, 0x3E, 0x3E, 0x3C, 0x3E,
   96, 192, 192, 192, 24, 12, 24, 12, 0x28, 0xCA, 0x94, 0x46, 0x00].getD (w.toNat - 0xB020) 0x55

theorem gmExRom_ok : GmRom gmExRom := by
  constructor <;> (unfold RomTab; decide +kernel)

/-- `GRAPHICS 8`, with memory that is not clear: there are 192 lines of mode 15; the line 90 is at `$3000`, and the byte of the corner of the screen, that was not zero, is zero. -/
example (m : M) (k : Code) (ha : m.a = 8) (hk : m.stk = [.ret k]) (hr : m.ram = gmExRom) : ∃ m', Reach gmCode gmCode.set_grmode m k m' ∧
    (∀ c, ∃ ls, Antic m'.ram 0x2126 c ls 0x2126 ∧ ls.length = 192 ∧ ls[90]? = some (15, 0x3000)) ∧ m.ram 0x21F0 = 0x86 ∧ m'.ram 0x21F0 = 0 ∧ m'.ram 0x2000 = m.ram 0x2000 := by
  obtain ⟨m', r, h, o, -, -⟩ := C59_graphics m k [] hk (hr ▸ gmExRom_ok)
  rw [ha] at h o
  have h : ScreenReady (screenOf 8) _ m'.ram := h
  have hs : ∀ c, Antic m'.ram 0x2126 c (linesAt 15 0x21F0 40 192) 0x2126 := h.shown
  refine ⟨m', r, fun c => ⟨_, hs c, ?_, ?_⟩, by rw [hr]; decide, h.empty 0 (by decide), o 0x2000 (by decide) (Or.inl (by decide))⟩
  · rw [linesAt, List.length_map, List.length_range]
  · rw [linesAt, List.getElem?_map, List.getElem?_range (by decide)]; rfl

end FB.Rt
