import Verif.Rt.LabelsP
/-!
# The parser of the native compiler: code

Transcription of the interpreter of the parsing tables, `/repo/src/parse.asm:153-455`.
-/
namespace FB.Rt
open Ins Opd

/-- `parse.asm:153-173` and `261-455`: the interpreter of the parsing tables, and the ROM routine `SKBLANK` that it calls (as in
`NumVal8.lean`).  Parameters: the addresses `SM_TABLE_ADDR` and `PARSE_START`, the constant `2*(SMB_STATE_START-128)`, and the offset of the message
`ERR_TOO_LONG`.  `jsr call_ax1` is `ext`.  The code after `pdone` (the program is made bigger and the next statement is read, `parse.asm:352-368`), after
`parser_error` (the message is written and the compiler ends, `parse.asm:175-189`) and after `set_parse_error` (`parse.asm:451-453`) is not here: `ext` stands for it. -/
def engCode (tab start : W) (nx err : B) : Code :=
  asm!["parser_fetch", inc (zp .pptr), Ins.bne "pf_1", inc (zp .pptrh), "pf_1", ldy (imm 0), lda (indY .pptr .pptrh), "rts1", rts,
   "emit_sub", jsr "parser_fetch",
   "emit_const", ldy (zp .opos), sta (indY .prgp .prgph), "parser_inc_opos", inc (zp .opos), Ins.bne "rts1",
   "too_long", ldy (imm err), "parser_error", ext,
   "parse_start", ldx (imm (lo (start - 1))), ldy (imm (hi (start - 1))),
   "parser_sub", pha, lda (zp .pptr), pha, stx (zp .pptr), sty (zp .pptrh), tsx, cpx (imm 16), bcc "too_long", jsr "parser_skipws",
   "ploop_line", lda (zp .cix), pha, lda (zp .opos), pha,
   "ploop", jsr "parser_fetch",
   "ploop_nofetch", bmi "pcall", cmp (imm 31),
   "ploop_tax", tax, bcs "match_char", beq "pexit_err", dex, beq "pexit_ok", dex, beq "pemit_ret",
   "emit_loop", jsr "emit_sub", "emit_next", dex, Ins.bne "emit_loop", beq "ploop",
   "match_char", ldy (zp .cix), cmp (imm 97), bcc "match", lda (imm 46), cmp (indY .inb .inbh), beq "matched_dot", txa, eor (imm 32),
   "match", cmp (indY .inb .inbh), Ins.bne "ploop_nextline", inc (zp .cix), Ins.bne "ploop",
   "pcall", asl acc, tay, lda (absY (tab + 1)), ldx (absY tab), cpy (imm nx), bcc "pcall_ml", tay, lda (zp .pptrh), bcs "parser_sub",
   "pemit_ret", jsr "emit_sub",
   "pexit_ok", pla, pla, pla, sta (zp .pptr), pla, sta (zp .pptrh), Ins.bne "ploop",
   "pdone", ext,
   "pcall_ml", ext, "pcall_back", bcc "ploop", bcs "ploop_nextline",
   "matched_dot", iny, sty (zp .cix),
   "skip_chars", jsr "parser_fetch", "skip_1", bmi "ploop_nofetch", cmp (imm 31), bcs "skip_chars", bcc "ploop_tax",
   "pexit_err", pla, pla, pla, sta (zp .pptr), pla, beq "set_parse_error", sta (zp .pptrh),
   "ploop_nextline", ldy (zp .cix), cpy (zp .bmax), bcc "pn_1", sty (zp .bmax),
   "pn_1", pla, sta (zp .opos), pla, sta (zp .cix), ldy (imm 0),
   "skip_nextline", iny, lda (indY .pptr .pptrh), cmp (imm 31), bcs "skip_nextline", tax, dex, beq "go_ploop", dex, beq "skip_ret",
   "sn_1", iny, dex, Ins.bne "sn_1", beq "skip_nextline",
   "skip_ret", iny,
   "go_ploop", tya, adc (zp .pptr), sta (zp .pptr), bcc "gp_1", inc (zp .pptrh), "gp_1", jmp "ploop_line",
   "set_parse_error", ext,
   "parser_skipws", ldy (zp .cix), lda (imm 0x20),
   "skb_1", cmp (indY .inb .inbh), Ins.bne "skb_2", iny, Ins.bne "skb_1",
   "skb_2", sty (zp .cix), rts]

set_option maxRecDepth 20000 in
code_labels_p engCode (tab : W) (start : W) (nx : B) (err : B)

end FB.Rt
