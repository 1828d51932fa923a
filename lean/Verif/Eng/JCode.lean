import Verif.Rt.LabelsP
import Verif.Rt.Mem
/-!
# The jumps in the native compiler: code

Transcription of the routines of `/repo/src/actions.asm` that write, patch and resolve the addresses of jumps.
-/
namespace FB.Rt
open Ins Opd

/-- Cells of page zero: `reloc_addr`, `laddr_search_num` (also `loop_exit_comp`) of `actions.asm:113-118`, `loop_sp` and `var_sp` of `parse.asm:59-60`. The addresses are chosen
by the linker; these are arbitrary. -/
abbrev relocA : W := 0xB1
abbrev relocA1 : W := 0xB2
abbrev loopSp : W := 0xB3
abbrev srchNum : W := 0xB4
abbrev varSp : W := 0xB5

/-- `laddr_buf` and `laddr_ptr` (`memptr.asm:38-48`; the last is also `mem_end`). -/
abbrev laBuf : W := 0xA8
abbrev laBuf1 : W := 0xA9
abbrev laPtr : W := 0xAA
abbrev laPtr1 : W := 0xAB

/-- `actions.asm:121-139,439-575,596-861` and, from `parse.asm:161-173`, `parser_emit_byte` and `parser_inc_opos`. Parameters: the offsets of the messages `ERR_TOO_LONG` and `ERR_LOOP`, and
the code that follows (for `alloc_laddr` and `label_search`). The stacks are at `$400` and `$480` (`actions.asm:105-109`). The bytes `$2C` are written as jumps. Local labels have other names.
`E_LABEL_CREATE` is `label_create` of `Mem.lean`. The code after `parser_error` (`parse.asm:175-189`) is not here: `ext` stands for it. -/
def jmpCode (err lerr : B) (rest : Code) : Code :=
  asm!["rts1", rts,
   "parser_emit_byte", ldy (zp .opos), sta (indY .prgp .prgph),
   "parser_inc_opos", inc (zp .opos), Ins.bne "rts1",
   "too_long", ldy (imm err),
   "parser_error", ext,
   "get_last_tok", dec (zp .opos), ldy (zp .opos), lda (indY .prgp .prgph), rts,
   "get_codep", lda (zp .prgp), ldx (zp .prgph), clc, adc (zp .opos), bcc "gc_ok", inx, clc,
   "gc_ok", rts,
   "next_laddr", lda (zp .tmp1), adc (imm 4), bcc "nl_comp", inc (zp .tmp1h),
   "nl_comp", sta (zp .tmp1), cmp (abs laPtr), lda (zp .tmp1h), sbc (abs laPtr1), bcs "nl_xit",
   ldy (imm 0), lda (indY .tmp1 .tmp1h), eor (abs srchNum), Ins.bne "next_laddr",
   iny, lda (indY .tmp1 .tmp1h), php, iny, lda (indY .tmp1 .tmp1h), tax, iny, lda (indY .tmp1 .tmp1h), plp,
   "nl_xit", rts,
   "laddr_search_start", lda (abs laBuf), ldy (abs laBuf1), sty (zp .tmp1h), stx (abs srchNum), Ins.bne "nl_comp",
   "add_laddr_list", pha, lda (abs laPtr), sta (zp .tmp2), lda (abs laPtr1), sta (zp .tmp2h), lda (imm 4), jsr "alloc_laddr",
   "al_1", ldy (imm 0), lda (abs srchNum), sta (indY .tmp2 .tmp2h), pla, iny, sta (indY .tmp2 .tmp2h), jsr "get_codep",
   "al_2", ldy (imm 3), sta (indY .tmp2 .tmp2h), dey, txa, sta (indY .tmp2 .tmp2h), rts,
   "E_LABEL_DEF", lda (imm 1), jsr "push_codep",
   "ld_1", ldx (abs lastLabel), jsr "laddr_search_start",
   "ld_2", bcs "ld_nfound",
   "ld_cloop", bmi "xit_label_err", jsr "patch_codep",
   "ld_3", tya, sta (indY .tmp1 .tmp1h), jsr "next_laddr",
   "ld_4", bcc "ld_cloop",
   "ld_nfound", lda (imm 128), bmi "add_laddr_list",
   "E_LABEL", jsr "get_last_tok",
   "lb_1", sta (zp .tmp3), jsr "label_search",
   "lb_2", bcs "lb_xit", cmp (zp .tmp3), beq "start_searching",
   "xit_label_err", sec,
   "lb_xit", rts,
   "E_DO_EXEC", ldx (abs lastLabel),
   "start_searching", jsr "laddr_search_start",
   "lb_3", bcs "lb_nfound",
   "lb_cloop", bmi "emit_addr", jsr "next_laddr",
   "lb_4", bcc "lb_cloop",
   "lb_nfound", lda (imm 0), jsr "add_laddr_list",
   "lb_5", bcc "emit_addr", rts,
   "pop_emit_addr", jsr "pop_codep",
   "emit_addr", adc (abs relocA), pha, txa, adc (abs relocA1), tax, pla,
   "emit_AX", clc, jsr "parser_emit_byte",
   "ea_1", txa, jmp "parser_emit_byte",
   "E_PUSH_VAR", jsr "get_last_tok",
   "pv_1", ldx (abs varSp), sta (absX 0x480), inc (abs varSp), rts,
   "E_POP_VAR", dec (abs varSp), ldx (abs varSp), lda (absX 0x480), jmp "parser_emit_byte",
   "E_PUSH_LT", jsr "get_last_tok",
   "push_codep", ldy (abs loopSp),
   "push_codep_y", iny, iny, iny, bmi "loop_error", sty (abs loopSp), sta (absY 0x3fd), pha, jsr "get_codep",
   "pc_1", sta (absY 0x3fe), txa, sta (absY 0x3ff), pla, asl acc, bmi "pc_xit",
   "inc_opos_2", jsr "parser_inc_opos",
   "pc_2", jsr "parser_inc_opos",
   "pc_xit", clc, rts,
   "loop_error", ldy (imm lerr), jmp "parser_error",
   "pop_codep", ldy (abs loopSp), beq "loop_error",
   "pp_retry", cmp (absY 0x3fd), beq "pp_get", cmp (imm 130), Ins.bne "loop_error", lda (imm 129), Ins.bne "pp_retry",
   "pp_get", dey, dey, dey, sty (abs loopSp), ldx (absY 0x402), lda (absY 0x401),
   "pp_rtsclc", clc, rts,
   "E_POP_PROC_2", lda (imm 64), jsr "pop_codep",
   "check_loop_exit", ldy (abs loopSp), beq "pp_rtsclc", lda (absY 0x3fd), Ins.bne "pp_rtsclc", jsr "pp_get",
   "ce_1", jsr "patch_codep",
   "ce_2", jmp "check_loop_exit",
   "E_EXIT_LOOP", ldy (abs loopSp), tya,
   "el_retry", dey, dey, dey, bmi "loop_error", ldx (absY 0x400), bmi "el_retry", cpx (imm 2), bcc "loop_error",
   sty (abs srchNum), adc (imm 2), bmi "loop_error", pha, tay,
   "el_move", dey, lda (absY 0x3fd), sta (absY 0x400), cpy (abs srchNum), Ins.bne "el_move",
   lda (imm 0), jsr "push_codep_y",
   "el_1", pla, sta (abs loopSp), rts,
   "E_POP_WHILE", lda (imm 128), jsr "inc_opos_2",
   "pw_1", jsr "pop_patch_codep",
   "pw_2", lda (imm 67), dec (zp .opos), dec (zp .opos), jsr "pop_emit_addr",
   "pw_3", jmp "check_loop_exit",
   "E_POP_LOOP", lda (imm 65), jmp "pl_1",
   "E_POP_REPEAT", lda (imm 66),
   "pl_1", jsr "pop_emit_addr",
   "pl_2", jmp "check_loop_exit",
   "E_POP_FOR", dec (zp .opos), lda (imm 192), jsr "pop_emit_addr",
   "pf_1", lda (imm 2), jsr "pop_patch_codep",
   "pf_2", jmp "check_loop_exit",
   "E_POP_IF", lda (imm 130),
   "pi_check", jsr "pop_patch_codep",
   "pi_1", ldy (abs loopSp), beq "pi_no", lda (imm 131), cmp (absY 0x3fd), beq "pi_check",
   "pi_no", clc, rts,
   "E_POP_PROC_DATA", lda (imm 1),
   "pop_patch_codep", jsr "pop_codep",
   "patch_codep", sta (zp .tmp2), stx (zp .tmp2h), jsr "get_codep",
   "pt_1", ldy (imm 0), adc (abs relocA), sta (indY .tmp2 .tmp2h), iny, txa, adc (abs relocA1), sta (indY .tmp2 .tmp2h), clc, rts,
   "E_ELSEIF", lda (imm 129), jsr "pop_codep",
   "ei_1", pha, stx (zp .tmp1h), jsr "E_PUSH_LT",
   "ei_2", pla, ldx (zp .tmp1h), Ins.bne "patch_codep"] ++ rest

set_option maxRecDepth 20000 in
code_labels_p jmpCode (err : B) (lerr : B) (rest : Code)

end FB.Rt
