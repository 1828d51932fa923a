import Verif.Rt.Graph
/-!
# Start of the cartridges

Transcription of `/repo/src/cartridge.asm`; `/repo/src/a5200cart.asm:143-165` is the same code.
-/
namespace FB.Rt
open Ins Opd

/-- `cartridge_start`, `cartridge.asm:49-76` (`a5200cart.asm:143-165`). The symbols of the linker are arbitrary: `__INTERP_LOAD__` is `$BE00`, `__INTERP_RUN__` is `$A0`, `__INTERP_SIZE__` is `$4B`, `__DATA_LOAD__` is `$BD12`, `__DATA_RUN__` is `$0734` and `__DATA_SIZE__` is `$0156`;
the theorem of the loop is for all sizes. The store indexed by `X` wraps in page 0 in the processor, and not here: the interpreter ends before `$FF`. The calls of `move_dwn` and `start` are `next`. -/
def ctCode : Code :=
  asm!["cartridge_start", ldx (imm 0x4B),
   "ct_copy", lda (absX 0xBE00), sta (absX 0xA0), dex, bpl "ct_copy",
   "ct_data", lda (imm 0x12), ldx (imm 0xBD), sta (zp .msrc), stx (zp .msrch),
   lda (imm 0x34), ldx (imm 0x07), sta (zp .mdst), stx (zp .mdsth),
   lda (imm 0x56), ldx (imm 0x01), jsr "ct_move",
   "ct_ret", jmp "ct_start",
   "ct_move", next,
   "ct_start", next]

code_labels ctCode

end FB.Rt
