import Verif.Rt.Graph
/-!
# `GRAPHICS` of the Atari 5200

Transcription of `set_grmode` of `/repo/src/interp/a5200/graphics.asm`, with `mem_set_0` of `/repo/src/interp/clearmem.asm`.
-/
namespace FB.Rt
open Ins Opd

/-! Cells of the OS and of the runtime, and a register of ANTIC (`a5200/graphics.asm:33-36`). The shadow of the address of the display list, `SDLSTL`, and the ones of `DMACTL` and of the colors are those of
`atari5200.inc`; the others are arbitrary, chosen by the linker. A store to the register `DMACTL` is a store to memory. -/
scoped notation "SDLSTL" => (0x05#16 : W)
scoped notation "SDLSTH" => (0x06#16 : W)
scoped notation "SDMCTL" => (0x07#16 : W)
scoped notation "COLOR0" => (0x0C#16 : W)
scoped notation "memtop" => (0x6A#16 : W)
scoped notation "memtop1" => (0x6B#16 : W)
scoped notation "GPRIOR" => (0x6C#16 : W)
scoped notation "DMACTL" => (0xD400#16 : W)
/-! The tables of `a5200/graphics.asm:200-211`, in ROM. -/
scoped notation "gmType" => (0xB020#16 : W)
scoped notation "gmMode" => (0xB030#16 : W)
scoped notation "gmMemL" => (0xB040#16 : W)
scoped notation "gmMemH" => (0xB048#16 : W)
scoped notation "gmDlL" => (0xB050#16 : W)
scoped notation "gmDlH" => (0xB058#16 : W)
scoped notation "gmRows" => (0xB060#16 : W)
scoped notation "gmPal" => (0xB068#16 : W)

/-- The bytes of a table are in memory. -/
def RomTab (r : W → B) (a : W) (l : List B) : Prop := ∀ i : B, i.toNat < l.length → r (idx a i) = l.getD i.toNat 0

/-- The tables, `a5200/graphics.asm:200-211`. -/
structure GmRom (r : W → B) : Prop where
  typ : RomTab r gmType [0x86, 0xC4, 0xC5, 0x86, 0x86, 0x86, 0x86, 0x00, 0x01, 0x02, 0x02, 0x02, 0x86, 0x87, 0x86, 0x03]
  mode : RomTab r gmMode [0x02, 0x06, 0x07, 0x02, 0x02, 0x02, 0x02, 0x0D, 0x0F, 0x4F, 0x8F, 0xCF, 0x04, 0x05, 0x02, 0x0E]
  memL : RomTab r gmMemL [0x00, 0xF0, 0xF0, 0xF0, 0x20, 0x10, 0x40, 0x20]
  memH : RomTab r gmMemH [0x31, 0x21, 0x21, 0x21, 0x3E, 0x3F, 0x3C, 0x3E]
  dlL : RomTab r gmDlL [0x98, 0x26, 0x26, 0x26, 0x00, 0xF0, 0x20, 0x00]
  dlH : RomTab r gmDlH [0x30, 0x21, 0x21, 0x21, 0x3E, 0x3E, 0x3C, 0x3E]
  rows : RomTab r gmRows [96, 192, 192, 192, 24, 12, 24, 12]
  pal : RomTab r gmPal [0x28, 0xCA, 0x94, 0x46, 0x00]

/-- `set_grmode`, `a5200/graphics.asm:74-198`, and `mem_set_0`, `clearmem.asm:113-136`; `move_dest` is `mdst`. -/
def gmCode : Code :=
  asm!["set_grmode", Ins.and (imm 15), ldy (imm 0), sty (abs SDMCTL), sty (abs DMACTL), tay,
   lda (absY gmType), sta (abs DINDEX), Ins.and (imm 7), tax,
   lda (abs GPRIOR), eor (absY gmMode), Ins.and (imm 0xC0), eor (abs GPRIOR), sta (abs GPRIOR),
   lda (absY gmMode), Ins.and (imm 15), pha,
   "gm_1", lda (absX gmMemL), sta (abs SAVMSC), sta (zp .mdst), lda (absX gmMemH), sta (abs SAVMSC1), sta (zp .mdsth),
   lda (absX gmDlL), sta (abs SDLSTL), sta (abs memtop), lda (absX gmDlH), sta (abs SDLSTH), sta (abs memtop1),
   lda (absX gmRows), sta (abs ROWCRS),
   "gm_2", lda (imm 0), sec, sbc (zp .mdst), sta (zp .tmp1), lda (imm 0x40), sbc (zp .mdsth), tax, jsr "mem_set_0",
   "gm_3", lda (imm 112), ldy (imm 0),
   "gm_lp1", sta (indRY SDLSTL), iny, cpy (imm 3), Ins.bne "gm_lp1",
   "gm_4", pla, pha, ora (imm 0x40), sta (indRY SDLSTL), iny, lda (abs SAVMSC), sta (indRY SDLSTL), iny,
   lda (abs SAVMSC1), sta (indRY SDLSTL), pla,
   "gm_setr", iny, cpy (imm 95), Ins.bne "gm_no4k", cmp (imm 0x0E), bcc "gm_no4k",
   "gm_patch", pha, ora (imm 0x40), sta (indRY SDLSTL), iny, lda (imm 0), sta (indRY SDLSTL), iny, lda (imm 0x30), sta (indRY SDLSTL), iny, dec (abs ROWCRS), pla,
   "gm_no4k", sta (indRY SDLSTL), dec (abs ROWCRS), Ins.bne "gm_setr",
   "gm_ok", lda (imm 65), sta (indRY SDLSTL), iny, lda (abs SDLSTL), sta (indRY SDLSTL), iny, lda (abs SDLSTH), sta (indRY SDLSTL),
   "gm_pal", ldy (imm 4),
   "gm_setp", lda (absY gmPal), sta (absY COLOR0), dey, bpl "gm_setp",
   "gm_end", lda (imm 0), sta (abs ROWCRS), sta (abs COLCRS), sta (abs COLCRS1), sta (abs gColor), ldy (imm 0x22), sty (abs SDMCTL), rts,
   "mem_set_0", ldy (imm 0),
   "mem_set", txa, clc, adc (zp .mdsth), sta (zp .mdsth), tya, inx, ldy (zp .tmp1), beq "ms_nxt", Ins.bne "ms_loop",
   "ms_pgloop", dec (zp .mdsth),
   "ms_loop", dey, sta (indY .mdst .mdsth), Ins.bne "ms_loop",
   "ms_nxt", dex, Ins.bne "ms_pgloop", rts]

set_option maxRecDepth 20000 in
code_labels gmCode

/-! ## Clearing the screen -/

/-- The inner loop: bytes `n-1` down to 0 of the page. -/
theorem gm_set_loop (n : Nat) (m : M) (hn : m.y = BitVec.ofNat 8 (n + 1)) (hn' : n < 256) :
    ∃ b, Reach gmCode gmCode.ms_loop m gmCode.ms_nxt
      { m with y := 0, z := true, n := b, ram := fill (word m.zp.mdst m.zp.mdsth) (n + 1) m.a m.ram } := by
  induction n generalizing m with
  | zero =>
    refine ⟨false, 4, ?_⟩
    rt_exec [gmCode.ms_loop.eq, hn, idx0]
    funext a
    simp only [fill, upd]
    by_cases h : a = word m.zp.mdst m.zp.mdsth
    · subst h; simp
    · rw [if_neg h, if_neg]
      intro e
      apply h
      have : a - word m.zp.mdst m.zp.mdsth = 0 := BitVec.eq_of_toNat_eq (by simpa using e)
      rw [← BitVec.sub_add_cancel a (word m.zp.mdst m.zp.mdsth), this]; simp
  | succ n ih =>
    have hy : m.y - 1#8 = BitVec.ofNat 8 (n + 1) := by rw [hn]; bv_omega
    have hyn : (BitVec.ofNat 8 (n + 1)).toNat = n + 1 := by simp; omega
    have hy' : ¬ (BitVec.ofNat 8 (n + 1) = 0#8) := fun e => by rw [e] at hyn; simp at hyn
    obtain ⟨m1, r1, e1⟩ : ∃ m1, Reach gmCode gmCode.ms_loop m gmCode.ms_loop m1 ∧ m1 = { m with
        y := BitVec.ofNat 8 (n + 1), z := false, n := topBit (BitVec.ofNat 8 (n + 1)),
        ram := upd m.ram (idx (word m.zp.mdst m.zp.mdsth) (BitVec.ofNat 8 (n + 1))) m.a } := by
      refine ⟨_, ⟨3, ?_⟩, rfl⟩
      rt_exec [gmCode.ms_loop.eq, hy, hy']
    obtain ⟨b, r⟩ := ih m1 (by rw [e1]) (by omega)
    subst e1
    refine ⟨b, ?_⟩
    have e : fill (word m.zp.mdst m.zp.mdsth) (n + 1) m.a (upd m.ram (idx (word m.zp.mdst m.zp.mdsth) (BitVec.ofNat 8 (n + 1))) m.a) =
        fill (word m.zp.mdst m.zp.mdsth) (n + 1 + 1) m.a m.ram := by
      funext a
      simp only [fill, upd, idx, hyn]
      by_cases h1 : (a - word m.zp.mdst m.zp.mdsth).toNat < n + 1
      · rw [if_pos h1, if_pos (by omega)]
      · rw [if_neg h1]
        by_cases h2 : a = word m.zp.mdst m.zp.mdsth + BitVec.ofNat 16 (n + 1)
        · rw [if_pos h2, if_pos]
          rw [h2, BitVec.add_comm, BitVec.add_sub_cancel]; simp; omega
        · rw [if_neg h2, if_neg]
          intro h3
          apply h2
          have : a - word m.zp.mdst m.zp.mdsth = BitVec.ofNat 16 (n + 1) := BitVec.eq_of_toNat_eq (by rw [BitVec.toNat_ofNat]; omega)
          rw [← this, BitVec.add_comm, BitVec.sub_add_cancel]
    rw [← e]
    exact r1.trans r

/-- Pages that are left. -/
theorem gm_set_pages (n : Nat) (m : M) (k : Code) (st : List Slot) (d : W) (hx : (m.x - 1).toNat = n) (hy : m.y = 0)
    (hk : m.stk = .ret k :: st) (hd : word m.zp.mdst m.zp.mdsth = d + BitVec.ofNat 16 (256 * n)) :
    ∃ b h, Reach gmCode gmCode.ms_nxt m k { m with x := 0, y := 0, z := true, n := b, stk := st, zp := { m.zp with mdsth := h }, ram := fill d (256 * n) m.a m.ram } ∧ word m.zp.mdst h = d := by
  induction n generalizing m with
  | zero =>
    have hx1 : m.x - 1#8 = 0#8 := BitVec.eq_of_toNat_eq hx
    refine ⟨false, m.zp.mdsth, ⟨3, ?_⟩, ?_⟩
    · rt_exec [gmCode.ms_nxt.eq, hx1, hk, fill_zero, hy]
    · rw [hd]; simp
  | succ n ih =>
    have hx2 : ¬ (m.x - 1#8 = 0#8) := fun e => by
      have : (m.x - 1#8).toNat = n + 1 := hx
      rw [e] at this; simp at this
    obtain ⟨m1, r1, e1⟩ : ∃ m1, Reach gmCode gmCode.ms_nxt m gmCode.ms_loop m1 ∧ m1 =
        { m with x := m.x - 1, z := decide (m.zp.mdsth - 1#8 = 0#8), n := topBit (m.zp.mdsth - 1#8), zp := { m.zp with mdsth := m.zp.mdsth - 1 } } := by
      refine ⟨_, ⟨4, ?_⟩, rfl⟩
      rt_exec [gmCode.ms_nxt.eq, gmCode.ms_pgloop.eq, hx2]
      rfl
    obtain ⟨b, r2⟩ := gm_set_loop 255 m1 (by rw [e1]; exact hy) (by decide)
    have r2 := r1.trans r2
    subst e1
    generalize hm2 : M.mk _ _ _ _ _ _ _ _ _ _ _ _ _ _ = m2 at r2
    have hd' : word m.zp.mdst (m.zp.mdsth - 1) = d + BitVec.ofNat 16 (256 * n) := by
      have h := page_back m.zp.mdst m.zp.mdsth
      rw [hd, Nat.mul_add, BitVec.ofNat_add, ← BitVec.add_assoc] at h
      have h := congrArg (· - 256#16) h
      simpa [BitVec.add_sub_cancel] using h
    obtain ⟨b', h', r3, w⟩ := ih m2 (by rw [← hm2]; show (m.x - 1 - 1).toNat = n; bv_omega) (by rw [← hm2]) (by rw [← hm2]; exact hk)
      (by rw [← hm2]; exact hd')
    refine ⟨b', h', ?_, by rw [← hm2] at w; exact w⟩
    have r4 := r2.trans r3
    subst hm2
    have e : fill d (256 * n) m.a (fill (word m.zp.mdst (m.zp.mdsth - 1)) (255 + 1) m.a m.ram) = fill d (256 * (n + 1)) m.a m.ram := by
      rw [hd', fill_add]
      · rfl
      · have := (m.x - 1).isLt; omega
    rw [← e]
    exact r4

/-- `mem_set`: `Y` is the value, `X` and `tmp1` the length. -/
theorem gm_mem_set_correct (m : M) (k : Code) (st : List Slot) (hk : m.stk = .ret k :: st) :
    ∃ b c v h, Reach gmCode gmCode.mem_set m k { m with a := m.y, x := 0, y := 0, z := true, n := b, c := c, v := v, stk := st, zp := { m.zp with mdsth := h }, ram := fill (word m.zp.mdst m.zp.mdsth) (word m.zp.tmp1 m.x).toNat m.y m.ram } ∧
      word m.zp.mdst h = word m.zp.mdst m.zp.mdsth := by
  have ht := m.zp.tmp1.isLt; have hxl := m.x.isLt
  have hp : word m.zp.mdst (add8 m.x m.zp.mdsth false) = word m.zp.mdst m.zp.mdsth + BitVec.ofNat 16 (256 * m.x.toNat) := by
    have := m.zp.mdst.isLt; have := m.zp.mdsth.isLt
    apply BitVec.eq_of_toNat_eq
    simp; omega
  by_cases h : m.zp.tmp1 = 0#8
  · obtain ⟨m1, r1, e1⟩ : ∃ m1, Reach gmCode gmCode.mem_set m gmCode.ms_nxt m1 ∧ m1 =
        { m with a := m.y, x := m.x + 1, y := 0, z := true, n := false, c := addC m.x m.zp.mdsth false, v := addV m.x m.zp.mdsth false
                 zp := { m.zp with mdsth := add8 m.x m.zp.mdsth false } } := by
      refine ⟨_, ⟨8, ?_⟩, rfl⟩
      rt_exec [gmCode.mem_set.eq, h]
    obtain ⟨b, h', r2, w⟩ := gm_set_pages m.x.toNat m1 k st (word m.zp.mdst m.zp.mdsth) (by rw [e1]; show (m.x + 1 - 1).toNat = _; rw [BitVec.add_sub_cancel])
      (by rw [e1]) (by rw [e1]; exact hk) (by rw [e1]; exact hp)
    have r3 := r1.trans r2
    subst e1
    refine ⟨b, addC m.x m.zp.mdsth false, addV m.x m.zp.mdsth false, h', ?_, w⟩
    have e : (word m.zp.tmp1 m.x).toNat = 256 * m.x.toNat := by simp [h]
    rw [e]
    exact r3
  · have hn : m.zp.tmp1.toNat ≠ 0 := fun e => h (BitVec.eq_of_toNat_eq e)
    obtain ⟨m1, r1, e1⟩ : ∃ m1, Reach gmCode gmCode.mem_set m gmCode.ms_loop m1 ∧ m1 =
        { m with a := m.y, x := m.x + 1, y := m.zp.tmp1, z := false, n := topBit m.zp.tmp1, c := addC m.x m.zp.mdsth false, v := addV m.x m.zp.mdsth false
                 zp := { m.zp with mdsth := add8 m.x m.zp.mdsth false } } := by
      refine ⟨_, ⟨9, ?_⟩, rfl⟩
      rt_exec [gmCode.mem_set.eq, h]
    obtain ⟨b, r2⟩ := gm_set_loop (m.zp.tmp1.toNat - 1) m1 (by rw [e1]; show m.zp.tmp1 = _; apply BitVec.eq_of_toNat_eq; simp; omega) (by omega)
    have r2 := r1.trans r2
    subst e1
    generalize hm2 : M.mk _ _ _ _ _ _ _ _ _ _ _ _ _ _ = m2 at r2
    obtain ⟨b', h', r3, w⟩ := gm_set_pages m.x.toNat m2 k st (word m.zp.mdst m.zp.mdsth) (by rw [← hm2]; show (m.x + 1 - 1).toNat = _; rw [BitVec.add_sub_cancel])
      (by rw [← hm2]) (by rw [← hm2]; exact hk) (by rw [← hm2]; exact hp)
    have r4 := r2.trans r3
    subst hm2
    refine ⟨b', addC m.x m.zp.mdsth false, addV m.x m.zp.mdsth false, h', ?_, w⟩
    have e : fill (word m.zp.mdst m.zp.mdsth) (256 * m.x.toNat) m.y
        (fill (word m.zp.mdst (add8 m.x m.zp.mdsth false)) (m.zp.tmp1.toNat - 1 + 1) m.y m.ram) =
        fill (word m.zp.mdst m.zp.mdsth) (word m.zp.tmp1 m.x).toNat m.y m.ram := by
      rw [hp, fill_add _ _ _ _ _ (by omega)]
      congr 1
      simp; omega
    rw [← e]
    exact r4

theorem gm_mem_set_0 (m : M) (k : Code) (st : List Slot) (hk : m.stk = .ret k :: st) :
    ∃ m', Reach gmCode gmCode.mem_set_0 m k m' ∧ m'.stk = st ∧ m'.ram = fill (word m.zp.mdst m.zp.mdsth) (word m.zp.tmp1 m.x).toNat 0 m.ram ∧
      m'.sl = m.sl ∧ m'.sh = m.sh ∧ m'.out = m.out ∧ m'.dev = m.dev ∧ ∃ h, m'.zp = { m.zp with mdsth := h } := by
  obtain ⟨b, c, v, h, r, _⟩ := gm_mem_set_correct { m with y := 0, z := true, n := false } k st hk
  refine ⟨_, Reach.trans ⟨2, ?_⟩ r, rfl, rfl, rfl, rfl, rfl, rfl, h, rfl⟩
  rt_exec [gmCode.mem_set_0.eq]

/-! ## Writing the display list -/

/-- What `GRAPHICS` does not touch: the integer stack, the cells other than the temporary ones, output. -/
def M.gmv (m : M) : (B → B) × (B → B) × Zp × List (B × B) × (List (B × B) → Regs) :=
  (m.sl, m.sh, { m.zp with tmp1 := 0, mdst := 0, mdsth := 0 }, m.out, m.dev)

/-- The bytes `l` were written from `D` on; nothing else changed but for the counter of rows. -/
structure Wr (D : W) (l : List B) (r r' : W → B) : Prop where
  lo : 0x1000 ≤ D.toNat
  hi : D.toNat < 0x4000
  len : l.length ≤ 256
  at' : ∀ i, i < l.length → r' (D + BitVec.ofNat 16 i) = l.getD i 0
  out : ∀ a : W, a ≠ ROWCRS → (a.toNat < D.toNat ∨ D.toNat + l.length ≤ a.toNat) → r' a = r a

theorem dl_toNat {D : W} (h : D.toNat < 0x4000) {i : Nat} (hi : i ≤ 256) : (D + BitVec.ofNat 16 i).toNat = D.toNat + i := by
  rw [BitVec.toNat_add, BitVec.toNat_ofNat]; omega

theorem dl_ne {D : W} (h0 : 0x1000 ≤ D.toNat) (h : D.toNat < 0x4000) {i : Nat} (hi : i ≤ 256) {a : W} (ha : a.toNat < 0x1000) : a ≠ D + BitVec.ofNat 16 i := by
  intro e
  have := dl_toNat h hi
  rw [← e] at this; omega

theorem Wr.cell {D : W} {l : List B} {r r' : W → B} (h : Wr D l r r') (v : B) : Wr D l r (upd r' ROWCRS v) := by
  refine ⟨h.lo, h.hi, h.len, fun i hi => ?_, fun a ha hb => ?_⟩
  · have := h.len
    rw [upd_ne (dl_ne h.lo h.hi (by omega) (by decide)).symm, h.at' i hi]
  · rw [upd_ne ha, h.out a ha hb]

/-- One more byte, that may replace the last one. -/
theorem Wr.app {D : W} {l : List B} {r r' : W → B} (h : Wr D l r r') {y : B} (hl : l.length < 256) (hy : y = BitVec.ofNat 8 l.length) (b : B) :
    Wr D (l ++ [b]) r (upd r' (idx D y) b) := by
  have e : idx D y = D + BitVec.ofNat 16 l.length := by rw [idx, hy, BitVec.toNat_ofNat, Nat.mod_eq_of_lt (by omega)]
  rw [e]
  refine ⟨h.lo, h.hi, by simp; omega, fun i hi => ?_, fun a ha hb => ?_⟩
  · simp at hi
    by_cases hi2 : i = l.length
    · subst hi2
      simp [upd]
    · rw [upd_ne, h.at' i (by omega)]
      · simp [List.getD, List.getElem?_append, show i < l.length by omega]
      · intro e
        have h1 := dl_toNat h.hi (i := i) (by omega)
        have h2 := dl_toNat h.hi (i := l.length) (by omega)
        rw [e] at h1; omega
  · simp at hb
    rw [upd_ne, h.out a ha (by omega)]
    intro e
    have h2 := dl_toNat h.hi (i := l.length) (by omega)
    rw [← e] at h2; omega

theorem Wr.over {D : W} {l : List B} {c : B} {r r' : W → B} (h : Wr D (l ++ [c]) r r') {y : B} (hl : l.length < 256) (hy : y = BitVec.ofNat 8 l.length) (b : B) :
    Wr D (l ++ [b]) r (upd r' (idx D y) b) := by
  have e : idx D y = D + BitVec.ofNat 16 l.length := by rw [idx, hy, BitVec.toNat_ofNat, Nat.mod_eq_of_lt (by omega)]
  rw [e]
  refine ⟨h.lo, h.hi, by simp; omega, fun i hi => ?_, fun a ha hb => ?_⟩
  · simp at hi
    by_cases hi2 : i = l.length
    · subst hi2
      simp [upd]
    · rw [upd_ne, h.at' i (by simp; omega)]
      · simp [List.getD, List.getElem?_append, show i < l.length by omega]
      · intro e
        have h1 := dl_toNat h.hi (i := i) (by omega)
        have h2 := dl_toNat h.hi (i := l.length) (by omega)
        rw [e] at h1; omega
  · simp at hb
    rw [upd_ne, h.out a ha (by simp; omega)]
    intro e
    have h2 := dl_toNat h.hi (i := l.length) (by omega)
    rw [← e] at h2; omega

theorem Wr.get {D : W} {l : List B} {r r' : W → B} (h : Wr D l r r') {a : W} (ha : a.toNat < 0x1000) (hr : a ≠ ROWCRS) : r' a = r a :=
  h.out a hr (Or.inl (by have := h.lo; omega))

theorem Wr.base {D : W} {l : List B} {r r' : W → B} (h : Wr D l r r') (hD : word (r SDLSTL) (r SDLSTH) = D) : word (r' SDLSTL) (r' SDLSTH) = D := by
  rw [h.get (by decide) (by decide), h.get (by decide) (by decide), hD]

theorem Wr.rowNe {D : W} {l : List B} {r r' : W → B} (h : Wr D l r r') (y : B) : ROWCRS ≠ idx D y := by
  have := y.isLt
  exact dl_ne h.lo h.hi (by omega) (by decide)

/-- The first three bytes: blank lines. -/
theorem gm_blank (m : M) {D : W} (hD : word (m.ram SDLSTL) (m.ram SDLSTH) = D) (h0 : 0x1000 ≤ D.toNat) (h1 : D.toNat < 0x4000) :
    ∃ m', Reach gmCode gmCode.gm_3 m gmCode.gm_4 m' ∧ Wr D [112#8, 112#8, 112#8] m.ram m'.ram ∧ m'.ram ROWCRS = m.ram ROWCRS ∧ m'.y = 3 ∧ m'.stk = m.stk ∧ m'.gmv = m.gmv := by
  have w0 : Wr D [] m.ram m.ram := ⟨h0, h1, by simp, fun i hi => by simp at hi, fun a _ _ => rfl⟩
  have w1 := w0.app (y := 0#8) (by simp) rfl 112#8
  have w2 := w1.app (y := 1#8) (by simp) rfl 112#8
  have w3 := w2.app (y := 2#8) (by simp) rfl 112#8
  have b1 := w1.base hD
  have b2 := w2.base hD
  refine ⟨?_, ⟨16, ?_⟩, ?_⟩
  rotate_left
  · rt_exec [gmCode.gm_3.eq, gmCode.gm_lp1.eq, hD, b1, b2]
    rfl
  · refine ⟨w3, ?_, rfl, rfl, rfl⟩
    show upd (upd (upd m.ram _ _) _ _) _ _ ROWCRS = _
    rw [upd_ne (w0.rowNe _), upd_ne (w0.rowNe _), upd_ne (w0.rowNe _)]

/-- The first line: mode and address. -/
theorem gm_first (m : M) {D : W} {r : W → B} {l : List B} {md : B} {st : List Slot} (hD : word (r SDLSTL) (r SDLSTH) = D) (hw : Wr D l r m.ram) (hl : l.length < 250)
    (hy : m.y = BitVec.ofNat 8 l.length) (hs : m.stk = .byte md :: st) :
    ∃ m', Reach gmCode gmCode.gm_4 m gmCode.gm_setr m' ∧ Wr D (l ++ [md ||| 0x40#8] ++ [r SAVMSC] ++ [r SAVMSC1]) r m'.ram ∧ m'.ram ROWCRS = m.ram ROWCRS ∧
      m'.y + 1 = BitVec.ofNat 8 (l.length + 3) ∧ m'.a = md ∧ m'.stk = st ∧ m'.gmv = m.gmv := by
  have w1 := hw.app (by omega) hy (md ||| 0x40#8)
  have w2 := w1.app (y := m.y + 1#8) (by simp; omega) (by rw [hy]; apply BitVec.eq_of_toNat_eq; simp) (r SAVMSC)
  have w3 := w2.app (y := m.y + 1#8 + 1#8) (by simp; omega) (by rw [hy]; apply BitVec.eq_of_toNat_eq; simp) (r SAVMSC1)
  have b0 := hw.base hD
  have b1 := w1.base hD
  have b2 := w2.base hD
  have g1 := w1.get (a := SAVMSC) (by decide) (by decide)
  have g2 := w2.get (a := SAVMSC1) (by decide) (by decide)
  refine ⟨?_, ⟨12, ?_⟩, ?_⟩
  rotate_left
  · rt_exec [gmCode.gm_4.eq, hs, b0, b1, b2, g1, g2]
    rfl
  · refine ⟨w3, ?_, ?_, rfl, rfl, rfl⟩
    · show upd (upd (upd m.ram _ _) _ _) _ _ ROWCRS = _
      rw [upd_ne (hw.rowNe _), upd_ne (hw.rowNe _), upd_ne (hw.rowNe _)]
    · show m.y + 1 + 1 + 1 = _
      rw [hy]; apply BitVec.eq_of_toNat_eq; simp

/-- The test of the line of 4K. -/
theorem gm_nopatch (m : M) {n : Nat} (hn : n < 250) (hy : m.y + 1 = BitVec.ofNat 8 n) (h : n ≠ 95 ∨ m.a.toNat < 14) :
    ∃ m', Reach gmCode gmCode.gm_setr m gmCode.gm_no4k m' ∧ m'.ram = m.ram ∧ m'.y = BitVec.ofNat 8 n ∧ m'.a = m.a ∧ m'.stk = m.stk ∧ m'.gmv = m.gmv := by
  by_cases h95 : n = 95
  · subst h95
    have ha : addC m.a 241#8 true = false := by
      simp only [addC]; simp; omega
    have hy' : m.y + 1#8 = 95#8 := hy
    refine ⟨?_, ⟨5, ?_⟩, ?_⟩
    rotate_left
    · rt_exec [gmCode.gm_setr.eq, hy', ha]
      rfl
    · exact ⟨rfl, rfl, rfl, rfl, rfl⟩
  · have hne : ¬ (BitVec.ofNat 8 n - 95#8 = 0#8) := fun e => by
      have := congrArg BitVec.toNat e
      simp [BitVec.toNat_sub] at this; omega
    have hy' : m.y + 1#8 = BitVec.ofNat 8 n := hy
    refine ⟨?_, ⟨3, ?_⟩, ?_⟩
    rotate_left
    · rt_exec [gmCode.gm_setr.eq, hy', hne]
      rfl
    · exact ⟨rfl, rfl, rfl, rfl, rfl⟩

/-- The line that begins 4K of memory. -/
theorem gm_dopatch (m : M) {D : W} {r : W → B} {l : List B} (hD : word (r SDLSTL) (r SDLSTH) = D) (hw : Wr D l r m.ram) (hl : l.length = 95)
    (hy : m.y + 1 = 95) (h : 14 ≤ m.a.toNat) :
    ∃ m', Reach gmCode gmCode.gm_setr m gmCode.gm_no4k m' ∧ Wr D (l ++ [m.a ||| 0x40#8] ++ [0#8] ++ [0x30#8]) r m'.ram ∧ m'.ram ROWCRS = m.ram ROWCRS - 1 ∧ m'.y = 98 ∧
      m'.a = m.a ∧ m'.stk = m.stk ∧ m'.gmv = m.gmv := by
  have w1 := hw.app (y := 95#8) (by omega) (by rw [hl]) (m.a ||| 0x40#8)
  have w2 := w1.app (y := 96#8) (by simp; omega) (by simp [hl]) 0#8
  have w3 := w2.app (y := 97#8) (by simp; omega) (by simp [hl]) 0x30#8
  have b0 := hw.base hD
  have b1 := w1.base hD
  have b2 := w2.base hD
  have hy' : m.y + 1#8 = 95#8 := hy
  have n0 := hw.rowNe
  have h : addC m.a 241#8 true = true := by
    simp only [addC]; simp; omega
  refine ⟨?_, ⟨19, ?_⟩, ?_⟩
  rotate_left
  · rt_exec [gmCode.gm_setr.eq, gmCode.gm_patch.eq, hy', h, b0, b1, b2]
    rfl
  · refine ⟨w3.cell _, ?_, rfl, rfl, rfl, rfl⟩
    dsimp only
    rw [upd_at, upd_ne (n0 _), upd_ne (n0 _), upd_ne (n0 _)]
    rfl

/-- One line. -/
theorem gm_line (m : M) {D : W} {r : W → B} {l : List B} (hD : word (r SDLSTL) (r SDLSTH) = D) (hw : Wr D l r m.ram) (hl : l.length < 250)
    (hy : m.y = BitVec.ofNat 8 l.length) {k : Nat} (hk : k < 250) (hr : m.ram ROWCRS = BitVec.ofNat 8 (k + 1)) :
    ∃ m', Reach gmCode gmCode.gm_no4k m (if k = 0 then gmCode.gm_ok else gmCode.gm_setr) m' ∧ Wr D (l ++ [m.a]) r m'.ram ∧ m'.ram ROWCRS = BitVec.ofNat 8 k ∧
      m'.y = m.y ∧ m'.a = m.a ∧ m'.stk = m.stk ∧ m'.gmv = m.gmv := by
  have w1 := hw.app (by omega) hy m.a
  have b0 := hw.base hD
  have n0 := hw.rowNe
  have e : upd m.ram (idx D m.y) m.a ROWCRS - 1#8 = BitVec.ofNat 8 k := by
    rw [upd_ne (n0 _), hr]; apply BitVec.eq_of_toNat_eq; simp [BitVec.toNat_sub]; omega
  by_cases hk0 : k = 0
  · subst hk0
    have e' : upd m.ram (idx D m.y) m.a ROWCRS - 1#8 = 0#8 := e
    rw [if_pos rfl]
    refine ⟨?_, ⟨4, ?_⟩, ?_⟩
    rotate_left
    · rt_exec [gmCode.gm_no4k.eq, b0, e']
      rfl
    · exact ⟨w1.cell _, by dsimp only; exact upd_at _ _ _, rfl, rfl, rfl, rfl⟩
  · have hne : ¬ (BitVec.ofNat 8 k = 0#8) := fun e => by
      have := congrArg BitVec.toNat e
      simp at this; omega
    rw [if_neg hk0]
    refine ⟨?_, ⟨3, ?_⟩, ?_⟩
    rotate_left
    · rt_exec [gmCode.gm_no4k.eq, b0, e, hne]
      rfl
    · exact ⟨w1.cell _, by dsimp only; exact upd_at _ _ _, rfl, rfl, rfl, rfl⟩

/-- Many lines. -/
theorem gm_lines (n : Nat) {D : W} {r : W → B} (hD : word (r SDLSTL) (r SDLSTH) = D) (m : M) {l : List B} (hw : Wr D l r m.ram) (hl : l.length + n < 250)
    (hy : m.y + 1 = BitVec.ofNat 8 l.length) {k : Nat} (hk : 0 < k) (hk2 : n + k < 250) (hr : m.ram ROWCRS = BitVec.ofNat 8 (n + k)) (h : (95 < l.length ∨ l.length + n ≤ 95) ∨ m.a.toNat < 14) :
    ∃ m', Reach gmCode gmCode.gm_setr m gmCode.gm_setr m' ∧ Wr D (l ++ List.replicate n m.a) r m'.ram ∧ m'.ram ROWCRS = BitVec.ofNat 8 k ∧
      m'.y + 1 = BitVec.ofNat 8 (l.length + n) ∧ m'.a = m.a ∧ m'.stk = m.stk ∧ m'.gmv = m.gmv := by
  induction n generalizing m l with
  | zero => exact ⟨m, ⟨0, rfl⟩, by simpa using hw, by simpa using hr, by simpa using hy, rfl, rfl, rfl⟩
  | succ n ih =>
    obtain ⟨m1, r1, u1, y1, a1, s1, v1⟩ := gm_nopatch m (n := l.length) (by omega) hy (by omega)
    obtain ⟨m2, r2, w2, c2, y2, a2, s2, v2⟩ := gm_line m1 hD (u1 ▸ hw) (by omega) y1 (k := n + k) (by omega) (by rw [u1, hr]; congr 1; omega)
    rw [if_neg (by omega)] at r2
    obtain ⟨m3, r3, w3, c3, y3, a3, s3, v3⟩ := ih m2 w2 (by simp; omega) (by rw [y2, y1]; apply BitVec.eq_of_toNat_eq; simp) (by omega) c2 (by rw [a2, a1]; simp; omega)
    refine ⟨m3, r1.trans (r2.trans r3), ?_, c3, ?_, by rw [a3, a2, a1], by rw [s3, s2, s1], by rw [v3, v2, v1]⟩
    · rw [a2, a1] at w3
      rw [List.replicate_succ]
      simpa using w3
    · rw [y3]; congr 1; simp; omega

/-- The last line, that the jump replaces, and the jump. -/
theorem gm_jump (m : M) {D : W} {r : W → B} {l : List B} (hD : word (r SDLSTL) (r SDLSTH) = D) (hw : Wr D l r m.ram) (hl : l.length < 240)
    (hy : m.y + 1 = BitVec.ofNat 8 l.length) (hr : m.ram ROWCRS = 1) (h : l.length ≠ 95 ∨ m.a.toNat < 14) :
    ∃ m', Reach gmCode gmCode.gm_setr m gmCode.gm_pal m' ∧ Wr D (l ++ [65#8] ++ [r SDLSTL] ++ [r SDLSTH]) r m'.ram ∧ m'.stk = m.stk ∧ m'.gmv = m.gmv := by
  obtain ⟨m1, r1, u1, y1, a1, s1, v1⟩ := gm_nopatch m (n := l.length) (by omega) hy h
  obtain ⟨m2, r2, w2, c2, y2, a2, s2, v2⟩ := gm_line m1 hD (u1 ▸ hw) (by omega) y1 (k := 0) (by omega) (by rw [u1, hr]; rfl)
  rw [if_pos rfl] at r2
  rw [← s1, ← s2, ← v1, ← v2]
  have y2 := y2.trans y1
  have x1 := w2.over (by omega) y2 65#8
  have x2 := x1.app (y := m2.y + 1#8) (by simp; omega) (by rw [y2]; apply BitVec.eq_of_toNat_eq; simp) (r SDLSTL)
  have x3 := x2.app (y := m2.y + 1#8 + 1#8) (by simp; omega) (by rw [y2]; apply BitVec.eq_of_toNat_eq; simp) (r SDLSTH)
  have b0 := w2.base hD
  have b1 := x1.base hD
  have b2 := x2.base hD
  have g1 := x1.get (a := SDLSTL) (by decide) (by decide)
  have g2 := x2.get (a := SDLSTH) (by decide) (by decide)
  have h1 := x1.get (a := SDLSTH) (by decide) (by decide)
  have h2 := x2.get (a := SDLSTL) (by decide) (by decide)
  have h3 := hD
  refine ⟨?_, r1.trans (r2.trans ⟨9, ?_⟩), ?_⟩
  rotate_left
  · rt_exec [gmCode.gm_ok.eq, b0, g1, g2, h1, h2, hD]
    rfl
  · exact ⟨x3, rfl, rfl⟩

/-! ## Before and after -/

theorem rom_ne {a w : W} {i : B} (h : 0xB000 ≤ a.toNat) (h2 : a.toNat < 0xB100) (hw : w.toNat < 0x1000 ∨ 0xC000 ≤ w.toNat) : idx a i ≠ w := by
  intro e
  have := congrArg BitVec.toNat e
  have := i.isLt
  rw [idx, BitVec.toNat_add, BitVec.toNat_ofNat] at *
  omega

/-- The tables are not in the memory that changes. -/
theorem RomTab.keep {r r' : W → B} {a : W} {l : List B} (h : RomTab r a l) (h0 : 0xB000 ≤ a.toNat) (h2 : a.toNat < 0xB100) (hr : ∀ w : W, 0xB000 ≤ w.toNat → w.toNat < 0xC000 → r' w = r w) :
    RomTab r' a l := by
  intro i hi
  rw [hr, h i hi] <;>
  · have := i.isLt
    rw [idx, BitVec.toNat_add, BitVec.toNat_ofNat]
    omega

/-- From the start to the mode of ANTIC in the stack. -/
theorem gm_start (m : M) : ∃ m', Reach gmCode gmCode.set_grmode m gmCode.gm_1 m' ∧ m'.x = m.ram (idx gmType (m.a &&& 15#8)) &&& 7#8 ∧
    m'.stk = .byte (m.ram (idx gmMode (m.a &&& 15#8)) &&& 15#8) :: m.stk ∧ m'.ram DINDEX = m.ram (idx gmType (m.a &&& 15#8)) ∧
    m'.ram GPRIOR = (((m.ram GPRIOR ^^^ m.ram (idx gmMode (m.a &&& 15#8))) &&& 0xC0#8) ^^^ m.ram GPRIOR) ∧
    GSame [SDMCTL, DMACTL, DINDEX, GPRIOR] m m' ∧ m'.gmv = m.gmv := by
  generalize hi : m.a &&& 15#8 = i
  have n1 : ∀ w : W, w.toNat < 0x1000 ∨ 0xC000 ≤ w.toNat → idx gmType i ≠ w := fun w hw => rom_ne (by decide) (by decide) hw
  have n2 : ∀ w : W, w.toNat < 0x1000 ∨ 0xC000 ≤ w.toNat → idx gmMode i ≠ w := fun w hw => rom_ne (by decide) (by decide) hw
  refine ⟨?_, ⟨18, ?_⟩, ?_⟩
  rotate_left
  · rt_exec [gmCode.set_grmode.eq, hi, upd_app, n1, n2]
    rfl
  · refine ⟨rfl, rfl, rfl, rfl, ?_, rfl⟩
    intro a ha
    simp at ha
    simp [upd_app, ha]

/-- The addresses and the number of rows. -/
theorem gm_setup (m : M) : ∃ m', Reach gmCode gmCode.gm_1 m gmCode.gm_2 m' ∧ m'.stk = m.stk ∧ m'.zp = { m.zp with mdst := m.ram (idx gmMemL m.x), mdsth := m.ram (idx gmMemH m.x) } ∧
    m'.ram SAVMSC = m.ram (idx gmMemL m.x) ∧ m'.ram SAVMSC1 = m.ram (idx gmMemH m.x) ∧ m'.ram SDLSTL = m.ram (idx gmDlL m.x) ∧ m'.ram SDLSTH = m.ram (idx gmDlH m.x) ∧
    m'.ram memtop = m.ram (idx gmDlL m.x) ∧ m'.ram memtop1 = m.ram (idx gmDlH m.x) ∧ m'.ram ROWCRS = m.ram (idx gmRows m.x) ∧
    GSame [SAVMSC, SAVMSC1, SDLSTL, SDLSTH, memtop, memtop1, ROWCRS] m m' ∧ m'.gmv = m.gmv := by
  have n1 : ∀ w : W, w.toNat < 0x1000 ∨ 0xC000 ≤ w.toNat → idx gmMemL m.x ≠ w := fun w hw => rom_ne (by decide) (by decide) hw
  have n2 : ∀ w : W, w.toNat < 0x1000 ∨ 0xC000 ≤ w.toNat → idx gmMemH m.x ≠ w := fun w hw => rom_ne (by decide) (by decide) hw
  have n3 : ∀ w : W, w.toNat < 0x1000 ∨ 0xC000 ≤ w.toNat → idx gmDlL m.x ≠ w := fun w hw => rom_ne (by decide) (by decide) hw
  have n4 : ∀ w : W, w.toNat < 0x1000 ∨ 0xC000 ≤ w.toNat → idx gmDlH m.x ≠ w := fun w hw => rom_ne (by decide) (by decide) hw
  have n5 : ∀ w : W, w.toNat < 0x1000 ∨ 0xC000 ≤ w.toNat → idx gmRows m.x ≠ w := fun w hw => rom_ne (by decide) (by decide) hw
  refine ⟨?_, ⟨15, ?_⟩, ?_⟩
  rotate_left
  · rt_exec [gmCode.gm_1.eq, upd_app, n1, n2, n3, n4, n5]
    rfl
  · refine ⟨rfl, rfl, rfl, rfl, rfl, rfl, rfl, rfl, rfl, ?_, rfl⟩
    intro a ha
    simp at ha
    simp [upd_app, ha]

/-- Memory up to `$4000` is cleared. -/
theorem gm_clear (m : M) (h : (word m.zp.mdst m.zp.mdsth).toNat ≤ 0x4000) : ∃ m', Reach gmCode gmCode.gm_2 m gmCode.gm_3 m' ∧ m'.stk = m.stk ∧
    m'.ram = fill (word m.zp.mdst m.zp.mdsth) (0x4000 - (word m.zp.mdst m.zp.mdsth).toNat) 0 m.ram ∧ m'.gmv = m.gmv := by
  obtain ⟨m1, r1, s1, u1, e1, z1, z2, v1⟩ : ∃ m1, Reach gmCode gmCode.gm_2 m gmCode.mem_set_0 m1 ∧ m1.stk = .ret (.lb "gm_3" :: gmCode.gm_3) :: m.stk ∧ m1.ram = m.ram ∧
      (word m1.zp.tmp1 m1.x).toNat = 0x4000 - (word m.zp.mdst m.zp.mdsth).toNat ∧ m1.zp.mdst = m.zp.mdst ∧ m1.zp.mdsth = m.zp.mdsth ∧ m1.gmv = m.gmv := by
    refine ⟨?_, ⟨8, ?_⟩, ?_⟩
    rotate_left
    · rt_exec [gmCode.gm_2.eq]
      rfl
    · refine ⟨rfl, rfl, ?_, rfl, rfl, rfl⟩
      have := m.zp.mdst.isLt; have := m.zp.mdsth.isLt
      simp at h ⊢
      omega
  obtain ⟨m2, r2, s2, u2, a1, a2, a3, a4, h', z3⟩ := gm_mem_set_0 m1 _ _ s1
  refine ⟨m2, r1.trans (r2.trans ⟨1, ?_⟩), s2, ?_, ?_⟩
  · rt_exec
  · rw [u2, e1, z1, z2, u1]
  · rw [← v1]
    simp only [M.gmv, a1, a2, a3, a4, z3]

/-- One color. -/
theorem gm_color (m : M) (hp : RomTab m.ram gmPal [0x28, 0xCA, 0x94, 0x46, 0x00]) (hy : m.y.toNat < 5) :
    ∃ m', Reach gmCode gmCode.gm_setp m (if m.y = 0 then gmCode.gm_end else gmCode.gm_setp) m' ∧
      m'.ram = upd m.ram (idx COLOR0 m.y) ([0x28#8, 0xCA#8, 0x94#8, 0x46#8, 0x00#8].getD m.y.toNat 0) ∧ m'.y = m.y - 1 ∧ m'.stk = m.stk ∧ m'.gmv = m.gmv ∧
      RomTab m'.ram gmPal [0x28, 0xCA, 0x94, 0x46, 0x00] := by
  have hv : m.ram (idx gmPal m.y) = [0x28#8, 0xCA#8, 0x94#8, 0x46#8, 0x00#8].getD m.y.toNat 0 := hp m.y hy
  have key : ∀ m' : M, m'.ram = upd m.ram (idx COLOR0 m.y) (m.ram (idx gmPal m.y)) → RomTab m'.ram gmPal [0x28, 0xCA, 0x94, 0x46, 0x00] := by
    intro m' e
    refine hp.keep (by decide) (by decide) fun w hw _ => ?_
    rw [e, upd_ne]
    intro e
    rw [e, idx, BitVec.toNat_add, BitVec.toNat_ofNat] at hw
    simp at hw; omega
  by_cases h : m.y = 0
  · rw [if_pos h]
    refine ⟨?_, ⟨5, ?_⟩, ?_⟩
    rotate_left
    · have h : m.y = 0#8 := h
      rt_exec [gmCode.gm_setp.eq, h]
      rfl
    · refine ⟨?_, by rw [h]; rfl, rfl, rfl, ?_⟩
      · rw [← hv, h]; rfl
      · apply key; rw [h]; rfl
  · have ht : topBit (m.y - 1#8) = false := by
      have : m.y.toNat ≠ 0 := fun e => h (BitVec.eq_of_toNat_eq e)
      simp [topBit, BitVec.toNat_sub]; omega
    rw [if_neg h]
    refine ⟨?_, ⟨4, ?_⟩, ?_⟩
    rotate_left
    · rt_exec [gmCode.gm_setp.eq, ht]
      rfl
    · refine ⟨?_, rfl, rfl, rfl, key _ rfl⟩
      rw [← hv]

/-- The colors. -/
theorem gm_colors (m : M) (hp : RomTab m.ram gmPal [0x28, 0xCA, 0x94, 0x46, 0x00]) : ∃ m', Reach gmCode gmCode.gm_pal m gmCode.gm_end m' ∧
    m'.ram = upd (upd (upd (upd (upd m.ram 0x10#16 0#8) 0x0F#16 0x46#8) 0x0E#16 0x94#8) 0x0D#16 0xCA#8) 0x0C#16 0x28#8 ∧ m'.stk = m.stk ∧ m'.gmv = m.gmv := by
  obtain ⟨m0, r0, u0, y0, s0, v0⟩ : ∃ m0, Reach gmCode gmCode.gm_pal m gmCode.gm_setp m0 ∧ m0.ram = m.ram ∧ m0.y = 4#8 ∧ m0.stk = m.stk ∧ m0.gmv = m.gmv := by
    refine ⟨?_, ⟨2, ?_⟩, ?_⟩
    rotate_left
    · rt_exec [gmCode.gm_pal.eq]
      rfl
    · exact ⟨rfl, rfl, rfl, rfl⟩
  obtain ⟨m1, r1, u1, y1, s1, v1, p1⟩ := gm_color m0 (u0 ▸ hp) (by rw [y0]; decide)
  rw [y0] at r1 u1 y1
  obtain ⟨m2, r2, u2, y2, s2, v2, p2⟩ := gm_color m1 p1 (by rw [y1]; decide)
  rw [y1] at r2 u2 y2
  obtain ⟨m3, r3, u3, y3, s3, v3, p3⟩ := gm_color m2 p2 (by rw [y2]; decide)
  rw [y2] at r3 u3 y3
  obtain ⟨m4, r4, u4, y4, s4, v4, p4⟩ := gm_color m3 p3 (by rw [y3]; decide)
  rw [y3] at r4 u4 y4
  obtain ⟨m5, r5, u5, y5, s5, v5, p5⟩ := gm_color m4 p4 (by rw [y4]; decide)
  rw [y4] at r5 u5 y5
  refine ⟨m5, r0.trans (r1.trans (r2.trans (r3.trans (r4.trans r5)))), ?_, by rw [s5, s4, s3, s2, s1, s0], by rw [v5, v4, v3, v2, v1, v0]⟩
  rw [u5, u4, u3, u2, u1, u0]
  rfl

/-- The colors and the cursor. -/
theorem gm_finish (m : M) (k : Code) (st : List Slot) (hk : m.stk = .ret k :: st) (hp : RomTab m.ram gmPal [0x28, 0xCA, 0x94, 0x46, 0x00]) :
    ∃ m', Reach gmCode gmCode.gm_pal m k m' ∧ m'.stk = st ∧ m'.gmv = m.gmv ∧ m'.ram ROWCRS = 0 ∧ m'.ram COLCRS = 0 ∧ m'.ram COLCRS1 = 0 ∧ m'.ram gColor = 0 ∧ m'.ram SDMCTL = 0x22 ∧
      m'.ram COLOR0 = 0x28 ∧ m'.ram (COLOR0 + 1) = 0xCA ∧ m'.ram (COLOR0 + 2) = 0x94 ∧ m'.ram (COLOR0 + 3) = 0x46 ∧ m'.ram (COLOR0 + 4) = 0 ∧
      GSame [SDMCTL, COLOR0, COLOR0 + 1, COLOR0 + 2, COLOR0 + 3, COLOR0 + 4, ROWCRS, COLCRS, COLCRS1, gColor] m m' := by
  obtain ⟨m1, r1, u1, s1, v1⟩ := gm_colors m hp
  have hk1 := s1.trans hk
  refine ⟨?_, r1.trans ⟨8, ?_⟩, ?_⟩
  rotate_left
  · rt_exec [gmCode.gm_end.eq, hk1]
    rfl
  · refine ⟨rfl, v1, rfl, rfl, rfl, rfl, rfl, ?_, ?_, ?_, ?_, ?_, ?_⟩
    · simp [u1, upd_app]
    · simp [u1, upd_app]
    · simp [u1, upd_app]
    · simp [u1, upd_app]
    · simp [u1, upd_app]
    · intro a ha
      simp at ha
      simp [upd_app, ha, u1]

end FB.Rt
