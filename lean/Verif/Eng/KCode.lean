import Verif.Eng.JLift
import Verif.Rt.NumVal8
/-!
# The constants in the native compiler: code

Transcription of the routines of `/repo/src/actions.asm` that read numbers and strings of the program.
-/
namespace FB.Rt
open Ins Opd

/-- `actions.asm:164-300`, `emit_AX` (`actions.asm:607-612`) and, from `parse.asm:161-173`, `parser_emit_byte` and `parser_inc_opos`; then `read_word` and the ROM routine `SKBLANK`, in
`val8Code`. `E_NUMBER_WORD` and `E_NUMBER_BYTE` are those of the compiler with floating point; those of the compiler without it are `EI_NUMBER_WORD` and `EI_NUMBER_BYTE`, the same
without `actions.asm:177-184`. Parameter: the offset of the message `ERR_TOO_LONG`. Local labels have other names, and `E_EOL::xit` and `E_EOL::ret` are written after the first use. -/
def kCode (err : B) : Code :=
  asm!["rts1", rts,
   "parser_emit_byte", ldy (zp .opos), sta (indY .prgp .prgph),
   "parser_inc_opos", inc (zp .opos), Ins.bne "rts1",
   "too_long", ldy (imm err),
   "parser_error", ext,
   "E_NUMBER_WORD", jsr "SKBLANK",
   "nw_1", lda (indY .inb .inbh), eor (imm 0x24), beq "read_hex", jsr "read_word",
   "nw_2", bcs "k_ret", sta (zp .tmp1), lda (indY .inb .inbh), cmp (imm 0x2E), beq "k_xit", lda (zp .tmp1),
   "xit_emit", sty (zp .cix), jmp "emit_AX",
   "EI_NUMBER_WORD", jsr "SKBLANK",
   "ni_1", lda (indY .inb .inbh), eor (imm 0x24), beq "read_hex", jsr "read_word",
   "ni_2", bcs "k_ret", jmp "xit_emit",
   "k_xit", sec,
   "k_ret", rts,
   "read_hex", sta (zp .tmp1), sta (zp .tmp1h), tax,
   "rh_nloop", iny, lda (indY .inb .inbh), eor (imm 0x30), cmp (imm 10), bcc "rh_digit", sbc (imm 0x77), cmp (imm 0xFA), bcc "rh_xit",
   "rh_digit", asl acc, asl acc, asl acc, asl acc, ldx (imm 3),
   "rh_mul", asl acc, rol (zp .tmp1), rol (zp .tmp1h), bcs "k_xit", dex, bpl "rh_mul", bmi "rh_nloop",
   "rh_xit", inx, Ins.bne "k_xit", lda (zp .tmp1), ldx (zp .tmp1h), bcc "xit_emit",
   "emit_AX", clc, jsr "parser_emit_byte",
   "ea_1", txa, jmp "parser_emit_byte",
   "E_NUMBER_BYTE", jsr "E_NUMBER_WORD",
   "nb_1", bcs "nb_xit", dec (zp .opos), cpx (imm 1),
   "nb_xit", rts,
   "EI_NUMBER_BYTE", jsr "EI_NUMBER_WORD",
   "nb_2", jmp "nb_1",
   "E_CONST_STRING", ldx (imm 0), jsr "parser_emit_byte",
   "cs_1", sty (zp .tmp2),
   "cs_nloop", ldy (zp .cix), lda (indY .inb .inbh), cmp (imm 0x22), beq "cs_eos", cmp (imm 0x9B), beq "cs_xrts",
   "cs_store", jsr "parser_emit_byte",
   "cs_incb", inc (zp .cix), inx, Ins.bne "cs_nloop",
   "cs_eos", iny, lda (indY .inb .inbh), inc (zp .cix), cmp (imm 0x22), beq "cs_store",
   "cs_chk", eor (imm 0x24), beq "cs_cbyte", ldy (zp .tmp2), txa, sta (indY .prgp .prgph), clc,
   "cs_xrts", rts,
   "cs_cbyte", stx (zp .tmp2h), jsr "read_hex",
   "cs_2", bcs "cs_xrts", dec (zp .opos), ldx (zp .tmp2h), ldy (zp .cix), lda (indY .inb .inbh), cmp (imm 0x22), beq "cs_incb", inx, Ins.bne "cs_chk"] ++ val8Code

set_option maxRecDepth 20000 in
code_labels_p kCode (err : B)

end FB.Rt
