import Verif.Rt.Alloc
import Verif.Rt.Rand
import Verif.Rt.Ucase
/-!
# Graphics of the Atari 5200: code, and the address of a pixel

Transcription of `/repo/src/interp/a5200/drawto.asm` and of `EXE_LOCATE` of `/repo/src/interp/a5200/locate.asm`.
-/
namespace FB.Rt
open Ins Opd

/-! Cells of page zero of the graphics (`drawto.asm:30-53`, `a5200` runtime). The addresses are chosen by the linker; these are arbitrary, but for the order of the two groups of three that
`get_pixel_addr` copies. -/
scoped notation "ROWCRS" => (0x54#16 : W)
scoped notation "COLCRS" => (0x55#16 : W)
scoped notation "COLCRS1" => (0x56#16 : W)
scoped notation "DINDEX" => (0x57#16 : W)
scoped notation "SAVMSC" => (0x58#16 : W)
scoped notation "SAVMSC1" => (0x59#16 : W)
scoped notation "OLDROW" => (0x5A#16 : W)
scoped notation "OLDCOL" => (0x5B#16 : W)
scoped notation "OLDCOL1" => (0x5C#16 : W)
scoped notation "gColor" => (0x5D#16 : W)
scoped notation "plotMask" => (0x5E#16 : W)
scoped notation "colorS" => (0x5F#16 : W)
scoped notation "gComp" => (0x60#16 : W)
scoped notation "gComp1" => (0x61#16 : W)
scoped notation "gErr" => (0x62#16 : W)
scoped notation "gErr1" => (0x63#16 : W)
scoped notation "rowAdd" => (0x64#16 : W)
scoped notation "colAdd" => (0x65#16 : W)
scoped notation "colAdd1" => (0x66#16 : W)
scoped notation "gTmp4" => (0x67#16 : W)
scoped notation "gTmp41" => (0x68#16 : W)
scoped notation "plotRc" => (0x69#16 : W)
/-! The tables `gr_mask_p` and `gr_shift_x` (`a5200/graphics.asm:213-215`), in ROM. -/
scoped notation "grMask" => (0xB000#16 : W)
scoped notation "grShift" => (0xB010#16 : W)

/-- `drawto.asm:63-349` (`EXE_PLOT`, `EXE_DRAWTO`, `get_pixel_addr`, `get_addr`, `ret_error`) and `locate.asm:37-53` (`EXE_LOCATE`). `colpos` and `old_err` are `tmp1`, `delta_x` is `tmp2` and
`delta_y` is `tmp3`. The jump to `EXE_PUT` and `locate_text`, for text modes, are `ext`. `pla; pla` over a return address is `dropRet`. -/
def grCode : Code :=
  asm!["EXE_PLOT", Ins.bit (abs DINDEX), bpl "do_plot", lda (abs gColor), ext,
   "do_plot", jsr "get_pixel_addr",
   "pl_1", lda (abs plotMask), eor (imm 255), Ins.and (indRY gTmp4), ora (abs colorS), sta (indRY gTmp4),
   "pl_end", next,
   "EXE_DRAWTO", ldy (imm 1), lda (abs ROWCRS), sec, sbc (abs OLDROW), bcs "dr_ypos", eor (imm 255), adc (imm 1), ldy (imm 255),
   "dr_ypos", sta (zp .tmp3), sty (abs rowAdd),
   lda (imm 0), sta (abs colAdd1), ldx (imm 1), lda (abs COLCRS), sec, sbc (abs OLDCOL), tay, lda (abs COLCRS1), sbc (abs OLDCOL1), bcs "dr_xpos",
   eor (imm 255), pha, tya, eor (imm 255), adc (imm 1), tay, pla, adc (imm 0), dec (abs colAdd1), ldx (imm 255),
   "dr_xpos", sta (zp .tmp2h), sty (zp .tmp2), stx (abs colAdd),
   lda (zp .tmp2), adc (zp .tmp3), sta (abs gComp), lda (zp .tmp2h), adc (imm 0), lsr acc, sta (abs gComp1), ror (abs gComp),
   lda (zp .tmp3), lsr acc, eor (imm 255), sec, adc (zp .tmp2), sta (abs gErr), lda (zp .tmp2h), adc (imm 255), sta (abs gErr1),
   "dr_go", jmp "line_start",
   "no_inc_x", jsr "get_addr",
   "dr_1", lda (abs plotMask), eor (imm 255), Ins.and (indRY gTmp4), ora (abs colorS), sta (indRY gTmp4),
   "line_start", lda (abs gErr), cmp (abs gComp), lda (abs gErr1), sta (zp .tmp1h), sbc (abs gComp1), bpl "no_inc_y",
   clc, lda (abs gErr), adc (zp .tmp2), sta (abs gErr), lda (abs gErr1), adc (zp .tmp2h), sta (abs gErr1),
   lda (abs OLDROW), cmp (abs ROWCRS), beq "end_line", clc, adc (abs rowAdd), sta (abs OLDROW),
   "no_inc_y", Ins.bit (zp .tmp1h), bmi "no_inc_x",
   sec, lda (abs gErr), sbc (zp .tmp3), sta (abs gErr), lda (abs gErr1), adc (imm 255), sta (abs gErr1),
   "nx_1", lda (abs OLDCOL), ldx (abs OLDCOL1), cmp (abs COLCRS), Ins.bne "no_eol", cpx (abs COLCRS1), beq "end_line",
   "no_eol", clc, adc (abs colAdd), sta (abs OLDCOL), txa, adc (abs colAdd1), sta (abs OLDCOL1), jmp "no_inc_x",
   "end_line", next,
   "get_pixel_addr", ldx (imm 2),
   "cp_pos", lda (absX ROWCRS), sta (absX OLDROW), dex, bpl "cp_pos",
   "get_addr", lda (abs OLDROW), ldx (imm 0), asl acc, bcc "ga_1", ldx (imm 2),
   "ga_1", asl acc, bcc "ga_2", inx, clc,
   "ga_2", adc (abs OLDROW), bcc "ga_3", inx,
   "ga_3", stx (abs gTmp41), asl acc, rol (abs gTmp41), asl acc, rol (abs gTmp41), asl acc, rol (abs gTmp41),
   "ga_3b", adc (abs SAVMSC), sta (abs gTmp4), lda (abs gTmp41), adc (abs SAVMSC1), sta (abs gTmp41),
   "ga_3c", cmp (imm 0x40), bcs "ret_error",
   "ga_4", ldx (abs DINDEX), lda (absX grMask), sta (abs plotMask), ldy (absX grShift),
   lda (abs OLDCOL1), lsr acc, lda (abs OLDCOL), sta (zp .tmp1), lda (imm 192),
   "ga_shift", ror (zp .tmp1), ror acc, dey, Ins.bne "ga_shift",
   rol acc, rol acc, rol acc, rol acc, Ins.and (imm 7), eor (imm 7), tax,
   "ga_5", lda (abs gColor), Ins.and (abs plotMask), stx (abs plotRc), dex, bmi "ok_mask",
   "rol_mask", asl acc, asl (abs plotMask), dex, bpl "rol_mask",
   "ok_mask", sta (abs colorS), ldy (zp .tmp1), rts,
   "ret_error", dropRet, lda (imm 18), sta (zp .ioerr), next,
   "EXE_LOCATE", Ins.bit (abs DINDEX), bmi "locate_text", jsr "get_pixel_addr",
   "lo_1", lda (indRY gTmp4), Ins.and (abs plotMask), ldx (abs plotRc), beq "ok_ret",
   "rol_pix", lsr acc, dex, Ins.bne "rol_pix",
   "ok_ret", next,
   "locate_text", ext]

set_option maxRecDepth 20000 in
code_labels grCode

/-- What graphics does not touch: the integer stack, the cells other than the temporary ones, output. -/
def M.gv (m : M) : (B → B) × (B → B) × Zp × List (B × B) × (List (B × B) → Regs) :=
  (m.sl, m.sh, { m.zp with tmp1 := 0, tmp1h := 0, tmp2 := 0, tmp2h := 0, tmp3 := 0 }, m.out, m.dev)

/-- The memory is the same but for some cells. -/
def GSame (cs : List W) (m m' : M) : Prop := ∀ a, a ∉ cs → m'.ram a = m.ram a

theorem GSame.trans {cs : List W} {m m1 m2 : M} (h : GSame cs m m1) (h' : GSame cs m1 m2) : GSame cs m m2 := fun a ha => (h' a ha).trans (h a ha)
theorem GSame.mono {cs ds : List W} {m m1 : M} (h : GSame cs m m1) (hs : ∀ a ∈ cs, a ∈ ds) : GSame ds m m1 := fun a ha => h a fun h' => ha (hs a h')

theorem upd_app (r : W → B) (a : W) (v : B) (b : W) : upd r a v b = if b = a then v else r b := rfl

/-- The address of a row: the block of code that multiplies by 5. -/
theorem ga_row (m : M) : ∃ m', Reach grCode grCode.get_addr m grCode.ga_3 m' ∧ m'.a.toNat + 256 * m'.x.toNat = 5 * (m.ram OLDROW).toNat ∧ m'.gv = m.gv ∧ m'.ram = m.ram ∧
    m'.stk = m.stk ∧ m'.zp = m.zp := by
  have hr := (m.ram OLDROW).isLt
  generalize hR : m.ram OLDROW = r at hr
  obtain ⟨m1, r1, a1, x1, v1, w1, s1, z1⟩ : ∃ m1, Reach grCode grCode.get_addr m grCode.ga_1 m1 ∧ m1.a = rol8 r false ∧ m1.x.toNat = 2 * (topBit r).toNat ∧ m1.gv = m.gv ∧
      m1.ram = m.ram ∧ m1.stk = m.stk ∧ m1.zp = m.zp := by
    cases ht : topBit r with
    | false =>
      refine ⟨?_, ⟨4, ?_⟩, ?_⟩
      rotate_left
      · rt_exec [grCode.get_addr.eq, hR, ht]
        rfl
      · exact ⟨rfl, rfl, rfl, rfl, rfl, rfl⟩
    | true =>
      refine ⟨?_, ⟨6, ?_⟩, ?_⟩
      rotate_left
      · rt_exec [grCode.get_addr.eq, hR, ht]
        rfl
      · exact ⟨rfl, rfl, rfl, rfl, rfl, rfl⟩
  obtain ⟨m2, r2, a2, x2, c2, v2, w2, s2, z2⟩ : ∃ m2, Reach grCode grCode.ga_1 m1 grCode.ga_2 m2 ∧ m2.a.toNat + 256 * m2.x.toNat = 4 * r.toNat ∧ m2.x.toNat < 4 ∧
      m2.c = false ∧ m2.gv = m.gv ∧ m2.ram = m.ram ∧ m2.stk = m.stk ∧ m2.zp = m.zp := by
    have h1 : m1.a.toNat = 2 * r.toNat % 256 := by rw [a1]; simp
    have h2 : m1.x.toNat = 2 * (r.toNat / 128) := by rw [x1]; simp
    cases ht : topBit m1.a with
    | false =>
      have h3 : m1.a.toNat < 128 := by simpa [topBit] using ht
      refine ⟨?_, ⟨2, ?_⟩, ?_⟩
      rotate_left
      · rt_exec [grCode.ga_1.eq, ht]
        rfl
      · refine ⟨?_, ?_, rfl, v1, w1, s1, z1⟩ <;> simp <;> omega
    | true =>
      have h3 : 128 ≤ m1.a.toNat := by simpa [topBit] using ht
      refine ⟨?_, ⟨5, ?_⟩, ?_⟩
      rotate_left
      · rt_exec [grCode.ga_1.eq, ht]
        rfl
      · refine ⟨?_, ?_, rfl, v1, w1, s1, z1⟩ <;> simp <;> omega
  have hR2 : m2.ram OLDROW = r := by rw [w2, hR]
  have l2 := m2.a.isLt
  cases ht : addC m2.a r false with
  | false =>
    have h3 : m2.a.toNat + r.toNat < 256 := by simpa [addC] using ht
    refine ⟨?_, r1.trans (r2.trans ⟨2, ?_⟩), ?_⟩
    rotate_left
    · rt_exec [grCode.ga_2.eq, hR2, c2, ht]
      rfl
    · refine ⟨?_, v2, w2, s2, z2⟩
      simp; omega
  | true =>
    have h3 : 256 ≤ m2.a.toNat + r.toNat := by simpa [addC] using ht
    refine ⟨?_, r1.trans (r2.trans ⟨4, ?_⟩), ?_⟩
    rotate_left
    · rt_exec [grCode.ga_2.eq, hR2, c2, ht]
      rfl
    · refine ⟨?_, v2, w2, s2, z2⟩
      have e1 : (m2.x.toNat + 1) % 256 = m2.x.toNat + 1 := by omega
      have e2 : (m2.a.toNat + r.toNat) % 256 = m2.a.toNat + r.toNat - 256 := by omega
      simp [e1, e2]; omega

/-- The address of the row of the pixel. -/
def rowAddr (m : M) : Nat := (m.ram SAVMSC).toNat + 256 * (m.ram SAVMSC1).toNat + 40 * (m.ram OLDROW).toNat

theorem dbl {a x : B} (h : a.toNat + 256 * x.toNat < 32768) : (rol8 a false).toNat + 256 * (rol8 x (topBit a)).toNat = 2 * (a.toNat + 256 * x.toNat) := by
  have := a.isLt
  simp; omega

/-- The address of a row: all the multiplication, and the comparison with the top of the memory. -/
theorem ga_addr (m : M) (hm : rowAddr m < 65536) : ∃ m', m'.gv = m.gv ∧ m'.zp = m.zp ∧ m'.stk = m.stk ∧ (m'.ram gTmp4).toNat + 256 * (m'.ram gTmp41).toNat = rowAddr m ∧
    GSame [gTmp4, gTmp41] m m' ∧
    Reach grCode grCode.get_addr m (if rowAddr m < 16384 then grCode.ga_4 else grCode.ret_error) m' := by
  obtain ⟨m1, r1, a1, v1, w1, s1, z1⟩ := ga_row m
  have hr := (m.ram OLDROW).isLt
  have ha := m1.a.isLt
  have hs := (m.ram SAVMSC).isLt
  have hs' := (m.ram SAVMSC1).isLt
  unfold rowAddr at hm ⊢
  generalize hR : (m.ram OLDROW).toNat = r at *
  have hS : m1.ram SAVMSC = m.ram SAVMSC := by rw [w1]
  have hS' : m1.ram SAVMSC1 = m.ram SAVMSC1 := by rw [w1]
  generalize hS2 : m.ram SAVMSC = s0 at *
  generalize hS3 : m.ram SAVMSC1 = s1' at *
  obtain ⟨m2, r2, a2, c2, v2, w2, s2, z2⟩ : ∃ m2, Reach grCode grCode.ga_3 m1 grCode.ga_3b m2 ∧ m2.a.toNat + 256 * (m2.ram gTmp41).toNat = 40 * r ∧ m2.c = false ∧ m2.gv = m1.gv ∧
      m2.ram = upd m1.ram gTmp41 (m2.ram gTmp41) ∧ m2.stk = m1.stk ∧ m2.zp = m1.zp := by
    refine ⟨?_, ⟨8, ?_⟩, ?_⟩
    rotate_left
    · rt_exec [grCode.ga_3.eq, upd_app, upd_upd]
      rfl
    · have hx : m1.x.toNat < 5 := by omega
      refine ⟨?_, ?_, rfl, ?_, rfl, rfl⟩
      · have e1 := dbl (a := m1.a) (x := m1.x) (by omega)
        have e2 := dbl (a := rol8 m1.a false) (x := rol8 m1.x (topBit m1.a)) (by omega)
        have e3 := dbl (a := rol8 (rol8 m1.a false) false) (x := rol8 (rol8 m1.x (topBit m1.a)) (topBit (rol8 m1.a false))) (by omega)
        simp only [upd_app, if_true]; omega
      · have e1 := dbl (a := m1.a) (x := m1.x) (by omega)
        have e2 := dbl (a := rol8 m1.a false) (x := rol8 m1.x (topBit m1.a)) (by omega)
        apply bool0; rw [topBit_toNat]; omega
      · simp [upd_app]
  obtain ⟨m3, r3, a3, v3, w3, s3, z3, y3⟩ : ∃ m3, Reach grCode grCode.ga_3b m2 grCode.ga_3c m3 ∧ m3.a = m3.ram gTmp41 ∧ m3.gv = m2.gv ∧
      m3.ram = upd (upd m2.ram gTmp4 (m3.ram gTmp4)) gTmp41 (m3.ram gTmp41) ∧ m3.stk = m2.stk ∧ m3.zp = m2.zp ∧
      (m3.ram gTmp4).toNat + 256 * (m3.ram gTmp41).toNat = s0.toNat + 256 * s1'.toNat + 40 * r := by
    have e0 : m2.ram SAVMSC = s0 := by rw [w2, upd_ne (by decide), hS]
    have e1 : m2.ram SAVMSC1 = s1' := by rw [w2, upd_ne (by decide), hS']
    refine ⟨?_, ⟨6, ?_⟩, ?_⟩
    rotate_left
    · rt_exec [grCode.ga_3b.eq, upd_app, e0, e1, c2]
      rfl
    · refine ⟨?_, rfl, ?_, rfl, rfl, ?_⟩
      · simp [upd_app]
      · simp [upd_app]
      · have := m2.a.isLt
        have := (m2.ram gTmp41).isLt
        simp [upd_app]; omega
  have hG : GSame [gTmp4, gTmp41] m m3 := by
    intro a ha
    simp only [List.mem_cons, List.not_mem_nil, or_false, not_or] at ha
    rw [w3, upd_ne ha.2, upd_ne ha.1, w2, upd_ne ha.2, w1]
  have hz := z3.trans (z2.trans z1)
  have hv := v3.trans (v2.trans v1)
  have hk := s3.trans (s2.trans s1)
  have := (m3.ram gTmp4).isLt
  by_cases hb : s0.toNat + 256 * s1'.toNat + 40 * r < 16384
  · have hc : addC (m3.ram gTmp41) 191#8 true = false := by apply bool0; simp; omega
    rw [if_pos hb]
    refine ⟨?_, ?_, ?_, ?_, ?_, ?_, r1.trans (r2.trans (r3.trans ⟨3, ?_⟩))⟩
    rotate_right
    · rt_exec [grCode.ga_3c.eq, a3, hc]
      rfl
    · exact hv
    · exact hz
    · exact hk
    · exact y3
    · exact hG
  · have hc : addC (m3.ram gTmp41) 191#8 true = true := by apply bool1; simp; omega
    rw [if_neg hb]
    refine ⟨?_, ?_, ?_, ?_, ?_, ?_, r1.trans (r2.trans (r3.trans ⟨2, ?_⟩))⟩
    rotate_right
    · rt_exec [grCode.ga_3c.eq, a3, hc]
      rfl
    · exact hv
    · exact hz
    · exact hk
    · exact y3
    · exact hG

/-- The mode of graphics has `b` bits for each pixel, and the tables of ROM are in place (`a5200/graphics.asm:213-215`). -/
def GMode (b : Nat) (m : M) : Prop :=
  ∃ i : B, m.ram DINDEX = i ∧ (i, b) ∈ [(0#8, 2), (1#8, 1), (2#8, 4), (3#8, 2)] ∧ m.ram (idx grMask i) = BitVec.ofNat 8 (2 ^ b - 1) ∧
    m.ram (idx grShift i) = if b = 4 then 1 else if b = 2 then 2 else 3

/-- The column of the pixel. -/
def colOf (m : M) : Nat := (m.ram OLDCOL).toNat + 256 * (m.ram OLDCOL1).toNat

theorem ga_shift (b : Nat) (m : M) (hm : GMode b m) : ∃ m', Reach grCode grCode.ga_4 m grCode.ga_5 m' ∧ m'.gv = m.gv ∧ m'.stk = m.stk ∧ m'.ram = upd m.ram plotMask (BitVec.ofNat 8 (2 ^ b - 1)) ∧
    m'.x.toNat = b * (8 / b - 1 - colOf m % (8 / b)) ∧ m'.zp.tmp1.toNat = colOf m % 512 / (8 / b) ∧ m'.zp = { m.zp with tmp1 := m'.zp.tmp1 } := by
  obtain ⟨i, hi, hb, hM, hS⟩ := hm
  unfold colOf
  have l0 := (m.ram OLDCOL).isLt
  generalize hC : m.ram OLDCOL = c0 at *
  generalize hC' : m.ram OLDCOL1 = c1 at *
  simp only [List.mem_cons, Prod.mk.injEq, List.not_mem_nil, or_false] at hb
  obtain ⟨rfl, rfl⟩ | ⟨rfl, rfl⟩ | ⟨rfl, rfl⟩ | ⟨rfl, rfl⟩ := hb
  · simp [idx] at hM hS
    refine ⟨?_, ⟨26, ?_⟩, ?_⟩
    rotate_left
    · rt_exec [grCode.ga_4.eq, grCode.ga_shift.eq, upd_app, idx, hi, hM, hS, hC, hC']
      rfl
    · refine ⟨rfl, rfl, rfl, ?_, ?_, rfl⟩
      · dsimp only
        have e : (c0.toNat + 256 * c1.toNat) % (8 / 2) = (lowBit c0).toNat + 2 * (lowBit (ror8 c0 (lowBit c1))).toNat := by simp; omega
        rw [e]
        generalize lowBit (ror8 c0 (lowBit c1)) = q
        generalize lowBit c0 = p
        cases p <;> cases q <;> rfl
      · simp; omega
  · simp [idx] at hM hS
    refine ⟨?_, ⟨30, ?_⟩, ?_⟩
    rotate_left
    · rt_exec [grCode.ga_4.eq, grCode.ga_shift.eq, upd_app, idx, hi, hM, hS, hC, hC']
      rfl
    · refine ⟨rfl, rfl, rfl, ?_, ?_, rfl⟩
      · dsimp only
        have e : (c0.toNat + 256 * c1.toNat) % (8 / 1) = (lowBit c0).toNat + 2 * (lowBit (ror8 c0 (lowBit c1))).toNat + 4 * (lowBit (ror8 (ror8 c0 (lowBit c1)) (lowBit 192#8))).toNat := by
          simp; omega
        rw [e]
        generalize lowBit (ror8 (ror8 c0 (lowBit c1)) (lowBit 192#8)) = r
        generalize lowBit (ror8 c0 (lowBit c1)) = q
        generalize lowBit c0 = p
        cases p <;> cases q <;> cases r <;> rfl
      · simp; omega
  · simp [idx] at hM hS
    refine ⟨?_, ⟨22, ?_⟩, ?_⟩
    rotate_left
    · rt_exec [grCode.ga_4.eq, grCode.ga_shift.eq, upd_app, idx, hi, hM, hS, hC, hC']
      rfl
    · refine ⟨rfl, rfl, rfl, ?_, ?_, rfl⟩
      · dsimp only
        have e : (c0.toNat + 256 * c1.toNat) % (8 / 4) = (lowBit c0).toNat := by simp; omega
        rw [e]
        generalize lowBit c0 = p
        cases p <;> rfl
      · simp; omega
  · simp [idx] at hM hS
    refine ⟨?_, ⟨26, ?_⟩, ?_⟩
    rotate_left
    · rt_exec [grCode.ga_4.eq, grCode.ga_shift.eq, upd_app, idx, hi, hM, hS, hC, hC']
      rfl
    · refine ⟨rfl, rfl, rfl, ?_, ?_, rfl⟩
      · dsimp only
        have e : (c0.toNat + 256 * c1.toNat) % (8 / 2) = (lowBit c0).toNat + 2 * (lowBit (ror8 c0 (lowBit c1))).toNat := by simp; omega
        rw [e]
        generalize lowBit (ror8 c0 (lowBit c1)) = q
        generalize lowBit c0 = p
        cases p <;> cases q <;> rfl
      · simp; omega

theorem rol8_two (a : B) : rol8 a false = BitVec.ofNat 8 (a.toNat * 2 ^ (0 + 1)) := by
  apply BitVec.eq_of_toNat_eq
  simp; omega

theorem rol8_pow (a : B) (d : Nat) : BitVec.ofNat 8 ((rol8 a false).toNat * 2 ^ (d + 1)) = BitVec.ofNat 8 (a.toNat * 2 ^ (d + 1 + 1)) := by
  apply BitVec.eq_of_toNat_eq
  have e : (rol8 a false).toNat = 2 * a.toNat % 256 := by simp
  rw [e, BitVec.toNat_ofNat, BitVec.toNat_ofNat, Nat.pow_succ 2 (d + 1), ← Nat.mul_assoc, Nat.mul_right_comm a.toNat, Nat.mul_comm a.toNat 2]
  exact Nat.mod_mul_mod _ _ _

theorem dec_sub {x : B} (h : x ≠ 0#8) : (x - 1#8).toNat = x.toNat - 1 := by
  have : x.toNat ≠ 0 := fun h' => h (BitVec.eq_of_toNat_eq h')
  have := x.isLt
  simp; omega

theorem ga_rol (d : Nat) : ∀ m : M, m.x.toNat = d → d < 128 → ∃ m', Reach grCode grCode.rol_mask m grCode.ok_mask m' ∧ m'.gv = m.gv ∧ m'.zp = m.zp ∧ m'.stk = m.stk ∧
    m'.ram = upd m.ram plotMask (BitVec.ofNat 8 ((m.ram plotMask).toNat * 2 ^ (d + 1))) ∧ m'.a = BitVec.ofNat 8 (m.a.toNat * 2 ^ (d + 1)) := by
  induction d with
  | zero =>
    intro m hx _
    have hx' : m.x = 0#8 := BitVec.eq_of_toNat_eq hx
    refine ⟨?_, ⟨5, ?_⟩, ?_⟩
    rotate_left
    · rt_exec [grCode.rol_mask.eq, hx', upd_app]
      rfl
    · refine ⟨rfl, rfl, rfl, ?_, ?_⟩
      · rw [← rol8_two]
      · rw [← rol8_two]
  | succ d ih =>
    intro m hx hd
    have hne : m.x ≠ 0#8 := by intro h; rw [h] at hx; simp at hx
    have hx1 : (m.x - 1#8).toNat = d := by rw [dec_sub hne]; omega
    have ht : topBit (m.x - 1#8) = false := by apply bool0; rw [topBit_toNat]; omega
    obtain ⟨m', r, v, z, t, w, a⟩ := ih { m with a := rol8 m.a false, x := m.x - 1#8, c := topBit (m.ram plotMask), z := decide (m.x - 1#8 = 0#8), n := false, ram := upd m.ram plotMask (rol8 (m.ram plotMask) false) } hx1 (by omega)
    refine ⟨m', Reach.trans ⟨4, ?_⟩ r, v, z, t, ?_, ?_⟩
    · rt_exec [grCode.rol_mask.eq, ht, upd_app]
    · rw [w]
      dsimp only
      rw [upd_upd, upd_at, rol8_pow]
    · rw [a]
      exact rol8_pow _ _

/-- The last part of `get_addr`: mask, color and number of shifts. -/
theorem ga_pix {m : M} {k : Code} {st : List Slot} (hs : m.stk = .ret k :: st) (hx : m.x.toNat < 8) : ∃ m', Reach grCode grCode.ga_5 m k m' ∧ m'.gv = m.gv ∧ m'.zp = m.zp ∧ m'.stk = st ∧
    GSame [plotMask, plotRc, colorS] m m' ∧ m'.y = m.zp.tmp1 ∧ m'.ram plotRc = m.x ∧ m'.ram plotMask = BitVec.ofNat 8 ((m.ram plotMask).toNat * 2 ^ m.x.toNat) ∧
    m'.ram colorS = BitVec.ofNat 8 ((m.ram gColor &&& m.ram plotMask).toNat * 2 ^ m.x.toNat) := by
  have hG : ∀ (m1 : M) (a b c : B), m1.ram = upd (upd (upd m.ram plotRc a) plotMask b) colorS c → GSame [plotMask, plotRc, colorS] m m1 := by
    intro m1 a b c h x hx
    simp only [List.mem_cons, List.not_mem_nil, or_false, not_or] at hx
    rw [h, upd_ne hx.2.2, upd_ne hx.1, upd_ne hx.2.1]
  by_cases h0 : m.x = 0#8
  · refine ⟨?_, ⟨8, ?_⟩, ?_⟩
    rotate_left
    · rt_exec [grCode.ga_5.eq, grCode.ok_mask.eq, h0, hs, upd_app]
      rfl
    · refine ⟨rfl, rfl, rfl, ?_, rfl, ?_, ?_, ?_⟩
      · intro x hx
        simp only [List.mem_cons, List.not_mem_nil, or_false, not_or] at hx
        simp [upd_app, hx]
      · simp [upd_app, h0]
      · simp [upd_app, h0]
      · simp [upd_app, h0]
  · have hd := dec_sub h0
    have hn : m.x.toNat ≠ 0 := fun h' => h0 (BitVec.eq_of_toNat_eq h')
    have ht : topBit (m.x - 1#8) = false := by apply bool0; rw [topBit_toNat]; omega
    obtain ⟨m1, r, v, z, t, w, a⟩ := ga_rol (m.x.toNat - 1) { m with a := m.ram gColor &&& m.ram plotMask, x := m.x - 1#8, z := decide (m.x - 1#8 = 0#8), n := false, ram := upd m.ram plotRc m.x } hd (by omega)
    have e : m.x.toNat - 1 + 1 = m.x.toNat := by omega
    rw [e] at w a
    have s1 : m1.stk = .ret k :: st := t.trans hs
    refine ⟨?_, Reach.trans ⟨6, ?_⟩ (r.trans ⟨3, ?_⟩), ?_⟩
    rotate_left
    · rt_exec [grCode.ga_5.eq, ht, upd_app]
    · rt_exec [grCode.ok_mask.eq, s1]
      rfl
    · refine ⟨v, z, rfl, ?_, ?_, ?_, ?_, ?_⟩
      · exact hG _ _ _ _ (congrArg (upd · colorS m1.a) w)
      · simp [z]
      · simp [w, upd_app]
      · simp [w, upd_app]
      · simp [a, upd_app]

end FB.Rt
