import Verif.Rt.Graph
/-!
# Characters, keys and sounds on the Atari 8-bit computers

Transcription of `/repo/src/interp/a800/putchar.asm`, `a800/getkey.asm`, `atari/position.asm` and `atari/soundoff.asm`.
-/
namespace FB.Rt
open Ins Opd

/-- `putc` and `putc_direct` (`a800/putchar.asm:37-56`), `EXE_GETKEY` and `getkey` (`a800/getkey.asm:36-51`), `EXE_POSITION` (`atari/position.asm:37-47`, with `next_ins_incsp` as the increment of `sptr`) and `SOUND_OFF` (`atari/soundoff.asm:37-44`).
The two `rts` that enter a handler of the OS with its address (minus 1) in the stack of the processor are `next`: the end of the model. The addresses of the OS are `ICAX1Z` `$2A`, `ICPTL` `$346`, `ICPTH` `$347`, `ICAX1` `$34A`, `KEYBDV+4` `$E424` and `AUDF1` `$D200`. -/
def chCode : Code :=
  asm!["ch_putc", sty (zp .tmp3h), jsr "ch_direct",
   "ch_back", sty (zp .ioerr), ldy (zp .tmp3h), rts,
   "ch_direct", tay, ldx (zp .chn), lda (absX 0x34A), sta (abs 0x2A), lda (absX 0x347), pha, lda (absX 0x346), pha, tya, next,
   "ch_GETKEY", jsr "ch_getkey",
   "ch_kback", sty (zp .ioerr), ldx (imm 0), next,
   "ch_getkey", lda (abs 0xE425), pha, lda (abs 0xE424), pha, lda (imm 12), sta (abs 0x2A), next,
   "ch_POSITION", sta (abs ROWCRS), ldx (stkL 0), stx (abs COLCRS), ldx (stkH 0), stx (abs COLCRS1), inc (zp .sptr), next,
   "ch_SOUND_OFF", ldy (imm 7), lda (imm 0),
   "ch_snd", sta (absY 0xD200), dey, bpl "ch_snd",
   "ch_sx", rts]

set_option maxRecDepth 20000 in
code_labels chCode

end FB.Rt
