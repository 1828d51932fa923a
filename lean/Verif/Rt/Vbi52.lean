import Verif.Rt.Graph
/-!
# Controllers and keypads of the Atari 5200

Transcription of the interruption of the vertical blank of `/repo/src/a5200cart.asm`.
-/
namespace FB.Rt
open Ins Opd

/-! Places: the copies of the positions of the controllers (`atari5200.inc:50`), the cells that the programs read (`a5200cart.asm:61-74`), the variables (`a5200cart.asm:84-94`, that the linker places: here at `$1000`) and the registers of the hardware.
The register `SKSTAT` that is read and `SKCTL` that is written have the same address in the hardware but are not the same: here `SKCTL` has another place. `COLRSH` (page 0) and `PRIOR` are only written. -/
scoped notation "vbPaddl" => (0x11#16 : W)
scoped notation "vbStick" => (0x21C#16 : W)
scoped notation "vbStrig" => (0x220#16 : W)
scoped notation "vbStrigB" => (0x224#16 : W)
scoped notation "vbCurr" => (0x1000#16 : W)
scoped notation "vbOld" => (0x1001#16 : W)
scoped notation "vbNew" => (0x1005#16 : W)
scoped notation "vbCH0" => (0x1009#16 : W)
scoped notation "vbCH" => (0x100D#16 : W)
scoped notation "vbGprior" => (0x100E#16 : W)
scoped notation "vbColrsh" => (0x1F#16 : W)
scoped notation "vbTrig" => (0xC010#16 : W)
scoped notation "vbPrior" => (0xC01B#16 : W)
scoped notation "vbConsol" => (0xC01F#16 : W)
scoped notation "vbIrqen" => (0xE80E#16 : W)
scoped notation "vbSkstat" => (0xE80F#16 : W)
scoped notation "vbSkctl" => (0xE90F#16 : W)

/-- `vbi_deferred`, `a5200cart.asm:190-289`: `center + range` is 154 and `center - range` is 74. The return (`pla` of the three registers saved by the ROM and `rti`) is `next`. `kb_continue` (`a5200cart.asm:293-303`), with the same return, is the interruption of the keypad, with the key in `A`. -/
def vbCode : Code :=
  asm!["vbi", ldy (imm 0), sty (abs vbColrsh), iny, sty (abs vbSkctl), ldy (imm 6),
   "vb_stick", lda (imm 0), ldx (absY vbPaddl), cpx (imm 154), rol acc, cpx (imm 74), rol acc, ldx (absY 0x12), cpx (imm 154), rol acc, cpx (imm 74), rol acc, eor (imm 0x0A), pha, tya, lsr acc, tax, pla,
   sta (absX vbStick), lda (absX vbTrig), sta (absX vbStrig), dey, dey, bpl "vb_stick",
   "vb_key", lda (abs vbGprior), sta (abs vbPrior), ldx (abs vbCurr), lda (absX vbNew), cmp (absX vbOld), sta (absX vbOld), beq "vb_same", cmp (imm 0xFF), beq "vb_same", sta (absX vbCH0),
   txa, asl acc, asl acc, asl acc, asl acc, ora (absX vbCH0), sta (abs vbCH),
   "vb_same", lda (abs vbSkstat), lsr acc, lsr acc, lsr acc, Ins.and (imm 1), sta (absX vbStrigB), inx, txa, Ins.and (imm 3), sta (abs vbCurr), tax, ora (imm 4), sta (abs vbConsol), lda (imm 0xFF), sta (absX vbNew),
   lda (imm 0x40), sta (abs vbIrqen), lda (imm 2), sta (abs vbSkctl), next,
   "kb_continue", ldx (abs vbCurr), sta (absX vbNew), next]

set_option maxRecDepth 20000 in
code_labels vbCode

end FB.Rt
