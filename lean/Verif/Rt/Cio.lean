import Verif.Rt.NumVal8
import Verif.Rt.Graph
/-!
# Requests to the I/O system of the Atari 8-bit computers

Transcription of `/repo/src/interp/a800/xio.asm`, `bgetput.asm`, `iochn.asm`, `graphics.asm`, `input.asm` and `streol.asm`.  `CIOV`, the entry of the I/O system in the ROM, is the label at which the
routines stop.
-/
namespace FB.Rt
open Ins Opd

/-! The control block of a channel (`atari.inc` of cc65), the color of the program (`COLOR`, in page zero where the linker wants) and that of the screen handler, and the text
`device_s` (`a800/graphics.asm:73`, where the linker wants). -/
scoped notation "ICCOM" => (0x342#16 : W)
scoped notation "ICBAL" => (0x344#16 : W)
scoped notation "ICBAH" => (0x345#16 : W)
scoped notation "ICBLL" => (0x348#16 : W)
scoped notation "ICBLH" => (0x349#16 : W)
scoped notation "ICAX1" => (0x34A#16 : W)
scoped notation "ICAX2" => (0x34B#16 : W)
scoped notation "ioColor" => (0xB9#16 : W)
scoped notation "ATACHR" => (0x2FB#16 : W)
scoped notation "devS" => (0x2F40#16 : W)

/-- `EXE_XIO`, `a800/xio.asm:38-67`; `EXE_BPUT` and `EXE_BGET`, `a800/bgetput.asm:36-64` (where the byte `$B0` and the `sec` after it are a branch that is not taken: here a branch over the `sec`);
`EXE_IOCHN` and `IOCHN_16`, `a800/iochn.asm:35-48`; `EXE_GRAPHICS`, the calls of `CIOV`, `EXE_CLOSE`, `EXE_DRAWTO` and `EXE_GET`, `a800/graphics.asm:39-93`; `EXE_INPUT_STR`, `a800/input.asm:39-74`;
`get_str_eol`, `a800/streol.asm:38-58`, with `INTLBUF` of the ROM.  `CIOV` is not code: it is the place where the ROM starts. -/
def cioCode : Code :=
  asm!["EXE_XIO", jsr "get_str_eol",
   "xio_1", ldy (zp .sptr), lda (stkL 2), jsr "IOCHN_16",
   "xio_2", lda (stkL 0), sta (absX ICAX1), lda (stkH 0), sta (absX ICAX2), lda (stkL 1), tay, lda (imm 0xFF), pha, lda (imm 0), pha, lda (zp .inbh), pha, lda (zp .inb), inc (zp .sptr),
   "CIOV_CMD_POP2", inc (zp .sptr), inc (zp .sptr), jmp "CIOV_CMD_A",
   "EXE_BPUT", clc, bcc "bg_0",
   "EXE_BGET", sec,
   "bg_0", pha, txa, pha, lda (stkH 0), pha, lda (stkL 0), pha, lda (stkL 1), ldy (imm 7), bcs "bget", ldy (imm 11),
   "bget", jsr "IOCHN_16",
   "bg_1", pla, jmp "CIOV_CMD_POP2",
   "EXE_IOCHN", jsr "IOCHN_16",
   "io_1", stx (zp .chn), next,
   "IOCHN_16", asl acc, asl acc, asl acc, asl acc, tax, rts,
   "EXE_GRAPHICS", ldx (imm 0x60), sta (absX ICAX2), Ins.and (imm 0xF0), eor (imm 0x1C), sta (absX ICAX1), pha, pha, lda (imm 0x2F), pha, lda (imm 0x40), ldy (imm 3),
   "CIOV_CMD_A", sta (absX ICBAL), pla, sta (absX ICBAH), pla,
   "CIOV_CMD_L", sta (absX ICBLH), pla, sta (absX ICBLL), tya,
   "CIOV_CMD", sta (absX ICCOM), jsr "CIOV",
   "cio_ret", ldx (imm 0),
   "CIOV_IOERR", sty (zp .ioerr), next,
   "EXE_CLOSE", jsr "IOCHN_16",
   "cl_1", lda (imm 12), Ins.bne "CIOV_CMD",
   "EXE_DRAWTO", ldy (abs ioColor), sty (abs ATACHR), ldx (imm 0x60), Ins.bne "CIOV_CMD",
   "EXE_GET", ldx (zp .chn), lda (imm 0), pha, ldy (imm 7), Ins.bne "CIOV_CMD_L",
   "EXE_INPUT_STR", ldx (zp .chn), lda (imm 5), sta (absX ICBAH), sta (absX ICCOM), lda (imm 0x80), sta (absX ICBAL), asl acc, sta (absX ICBLH), lda (imm 0xFF), sta (absX ICBLL), jsr "CIOV",
   "in8_1", lda (absX ICBLL), sty (zp .ioerr), tax, beq "no_eol", tya, bmi "no_eol", dex,
   "no_eol", stx (abs 0x57F), lda (imm 0x7F), ldx (imm 5), next,
   "get_str_eol", sta (zp .inb), stx (zp .inbh), ldy (imm 0), sty (zp .cix), lda (indY .inb .inbh), tay, bpl "ok_len", ldy (imm 0x7F),
   "ok_len", lda (imm 0x9B),
   "copy", sta (absY LB8), lda (indY .inb .inbh), dey, bpl "copy",
   jmp "INTLBUF",
   "INTLBUF", lda (imm (hi LB8)), sta (zp .inbh), lda (imm (lo LB8)), sta (zp .inb), rts,
   "CIOV", next]

set_option maxRecDepth 20000 in
code_labels cioCode

/-- As `val8_copy`, in the code of this module. -/
theorem cio_copy (r0 : W → B) (p : W) (L : Nat) (hL : L ≤ 127) (hp : 128 ≤ (p - LB8).toNat) (kc : Code) (st : List Slot) (k : Nat) :
    ∀ m : M, k ≤ L → m.y.toNat = k → m.bp = p → m.a = want r0 p L k → Copied r0 p L (k + 1) m.ram → m.stk = .ret kc :: st →
    ∃ m', Reach cioCode cioCode.copy m kc m' ∧ m'.bp = LB8 ∧ m'.stk = st ∧ Copied r0 p L 0 m'.ram ∧ EolKept m m' := by
  induction k with
  | zero =>
    intro m hk hy hb ha hc hs
    have hy0 : m.y = 0#8 := BitVec.eq_of_toNat_eq hy
    refine ⟨?_, ⟨10, ?_⟩, ?_⟩
    rotate_left
    · rt_exec [cioCode.copy.eq, cioCode.INTLBUF.eq, hy0, hs, lo_LB8, hi_LB8]
      rfl
    · refine ⟨rfl, rfl, ?_, ⟨rfl, rfl, rfl, rfl, rfl, rfl, rfl, rfl, rfl, rfl⟩⟩
      have := hc.step hL hk
      rw [← ha] at this
      exact this
  | succ k ih =>
    intro m hk hy hb ha hc hs
    have hyl := m.y.isLt
    have y1 : (m.y - 1#8).toNat = k := by bv_omega
    have ht : topBit (m.y - 1#8) = false := by unfold topBit; rw [y1]; simp; omega
    have hst := hc.step hL hk
    rw [← ha] at hst
    have hsrc := hst.src hL hk hp
    have e1 : idx LB8 m.y = LB8 + BitVec.ofNat 16 (k + 1) := by rw [idx, hy]
    have e2 : idx (word m.zp.inb m.zp.inbh) m.y = p + BitVec.ofNat 16 (k + 1) := by rw [idx, hy, ← hb]; rfl
    obtain ⟨m1, r1, a1, y1', ram1, b1, s1, k1⟩ : ∃ m1, Reach cioCode cioCode.copy m cioCode.copy m1 ∧ m1.a = want r0 p L k ∧ m1.y = m.y - 1#8 ∧
        m1.ram = upd m.ram (LB8 + BitVec.ofNat 16 (k + 1)) m.a ∧ m1.bp = p ∧ m1.stk = m.stk ∧ EolKept m m1 := by
      refine ⟨?_, ⟨4, ?_⟩, ?_⟩
      rotate_left
      · rt_exec [cioCode.copy.eq, e1, e2, ht, hsrc]
        rfl
      · exact ⟨rfl, rfl, rfl, hb, rfl, ⟨rfl, rfl, rfl, rfl, rfl, rfl, rfl, rfl, rfl, rfl⟩⟩
    obtain ⟨m2, r2, h2, h3, h4, k2⟩ := ih m1 (by omega) (by rw [y1', y1]) b1 a1 (by rw [ram1]; exact hst) (by rw [s1]; exact hs)
    exact ⟨m2, r1.trans r2, h2, h3, h4, k1.trans k2⟩

/-- `get_str_eol`: the first 127 characters and an end of line. -/
theorem cio_eol (m : M) (kc : Code) (st : List Slot) (hs : m.stk = .ret kc :: st) (hp : 128 ≤ (m.ax - LB8).toNat) :
    ∃ m', Reach cioCode cioCode.get_str_eol m kc m' ∧ m'.bp = LB8 ∧ m'.stk = st ∧ m'.zp.cix = 0 ∧
      TextAt m'.ram LB8 ((strAt m.ram m.ax).take 127 ++ [0x9B#8]) ∧ (∀ a : W, 128 ≤ (a - LB8).toNat → m'.ram a = m.ram a) ∧
      m'.sl = m.sl ∧ m'.sh = m.sh ∧ m'.zp.sptr = m.zp.sptr ∧ m'.zp.saddr = m.zp.saddr ∧ m'.zp.saddrh = m.zp.saddrh ∧
      m'.zp.arr = m.zp.arr ∧ m'.zp.arrh = m.zp.arrh ∧ m'.zp.mins = m.zp.mins ∧ m'.zp.ioerr = m.zp.ioerr := by
  have hl := (m.ram m.ax).isLt
  obtain ⟨m1, r1, y1, a1, b1, s1, c1, ram1, k1⟩ : ∃ m1, Reach cioCode cioCode.get_str_eol m cioCode.copy m1 ∧
      m1.y.toNat = min (m.ram m.ax).toNat 127 ∧ m1.a = 0x9B#8 ∧ m1.bp = m.ax ∧ m1.stk = m.stk ∧ m1.zp.cix = 0 ∧ m1.ram = m.ram ∧
      (m1.sl = m.sl ∧ m1.sh = m.sh ∧ m1.zp.sptr = m.zp.sptr ∧ m1.zp.saddr = m.zp.saddr ∧ m1.zp.saddrh = m.zp.saddrh ∧
      m1.zp.arr = m.zp.arr ∧ m1.zp.arrh = m.zp.arrh ∧ m1.zp.mins = m.zp.mins ∧ m1.zp.ioerr = m.zp.ioerr) := by
    have e : m.ram (idx (word m.a m.x) 0#8) = m.ram m.ax := by rw [idx0]; rfl
    by_cases h : 128 ≤ (m.ram m.ax).toNat
    · have ht : topBit (m.ram m.ax) = true := by unfold topBit; simpa using h
      refine ⟨?_, ⟨11, ?_⟩, ?_⟩
      rotate_left
      · rt_exec [cioCode.get_str_eol.eq, cioCode.ok_len.eq, e, ht]
        rfl
      · refine ⟨?_, rfl, rfl, rfl, rfl, rfl, rfl, rfl, rfl, rfl, rfl, rfl, rfl, rfl, rfl⟩
        show (127#8).toNat = _
        rw [Nat.min_eq_right (by omega)]; rfl
    · have ht : topBit (m.ram m.ax) = false := by unfold topBit; simpa using h
      refine ⟨?_, ⟨9, ?_⟩, ?_⟩
      rotate_left
      · rt_exec [cioCode.get_str_eol.eq, cioCode.ok_len.eq, e, ht]
        rfl
      · exact ⟨by simp only; omega, rfl, rfl, rfl, rfl, rfl, rfl, rfl, rfl, rfl, rfl, rfl, rfl, rfl, rfl⟩
  obtain ⟨m2, r2, b2, s2, h2, k2⟩ := cio_copy m.ram m.ax (min (m.ram m.ax).toNat 127) (by omega) hp kc st _ m1 (Nat.le_refl _) y1 b1
    (by rw [a1, want, if_pos rfl]; rfl) ⟨fun j h1 h2 => by omega, fun a _ => by rw [ram1]⟩ (by rw [s1, hs])
  refine ⟨m2, r1.trans r2, b2, s2, by rw [k2.cix, c1], ?_, ?_, k2.sl.trans k1.1, k2.sh.trans k1.2.1, k2.sptr.trans k1.2.2.1,
    k2.saddr.trans k1.2.2.2.1, k2.saddrh.trans k1.2.2.2.2.1, k2.arr.trans k1.2.2.2.2.2.1, k2.arrh.trans k1.2.2.2.2.2.2.1,
    k2.mins.trans k1.2.2.2.2.2.2.2.1, k2.ioerr.trans k1.2.2.2.2.2.2.2.2⟩
  · intro i hi
    have len : ((strAt m.ram m.ax).take 127).length = min (m.ram m.ax).toNat 127 := by rw [List.length_take, strAt_length, Nat.min_comm]
    rw [List.length_append, len] at hi
    simp at hi
    rw [h2.done i (by omega) (by omega), want]
    split
    · next e =>
      rw [List.getElem_append_right (by omega)]; simp
    · next e =>
      rw [List.getElem_append_left (by omega), List.getElem_take, strAt_get]
  · intro a ha
    exact h2.rest a (by omega)

/-- The channel by 16. -/
theorem ch16 (b : B) : rol8 (rol8 (rol8 (rol8 b false) false) false) false = b * 16#8 := by
  revert b; decide +kernel

theorem idx_inj_eq (a b : W) (x : B) : (idx a x = idx b x) = (a = b) := by
  simp only [idx, BitVec.add_left_inj]

/-- The end of all the requests with an address. -/
theorem cio_cmd_a (m : M) (h lh ll : B) (st : List Slot) (hs : m.stk = .byte h :: .byte lh :: .byte ll :: st) :
    ∃ m', Reach cioCode cioCode.CIOV_CMD_A m cioCode.CIOV m' ∧ m'.stk = .ret (.lb "cio_ret" :: cioCode.cio_ret) :: st ∧ m'.a = m.y ∧ m'.x = m.x ∧ m'.zp = m.zp ∧ m'.sl = m.sl ∧ m'.sh = m.sh ∧
      m'.ram = upd (upd (upd (upd (upd m.ram (idx ICBAL m.x) m.a) (idx ICBAH m.x) h) (idx ICBLH m.x) lh) (idx ICBLL m.x) ll) (idx ICCOM m.x) m.y := by
  refine ⟨?_, ⟨12, ?_⟩, ?_⟩
  rotate_left
  · rt_exec [cioCode.CIOV_CMD_A.eq, cioCode.CIOV_CMD_L.eq, cioCode.CIOV_CMD.eq, hs]
    rfl
  · exact ⟨rfl, rfl, rfl, rfl, rfl, rfl, rfl⟩

end FB.Rt
