import Verif.Rt.Graph
/-!
# The quadrant of `SIN` and `COS`, and the index of the arrays of floating point

Transcription of `/repo/src/interp/atarifp/fp_sincos.asm` and `mul6.asm`.
-/
namespace FB.Rt
open Ins Opd

/-- `EXE_FP_SIN`, `EXE_FP_COS`, `SINCOS` (`fp_sincos.asm:57-141`) and `EXE_MUL6` (`mul6.asm:53-65`). `FR0` is `$D4`. Arbitrary places: `DEGFLAG` is `$B1`, `fp_pi1_2` is `$2F10`, `fp_90` is `$2F16` and `fp_sin_coef` is `$2F1C`. The routines of the OS, `FP_SET_1`, `eval_poly_x2` and `check_fp_err` are `next`:
the theorems say what is true when they are called, and start from any state at their return. The `.byte $2C` over `LDY #1` is a jump. -/
def scCode : Code :=
  asm!["sc_SIN", ldy (imm 2), Ins.bit (abs 0xD4), bmi "SINCOS", ldy (imm 0), jmp "SINCOS",
   "sc_COS", ldy (imm 1),
   "SINCOS", sty (zp .tmp2), ldy (imm 0x2F), ldx (imm 0x10), lda (abs 0xB1), beq "sc_rad", ldx (imm 0x16),
   "sc_rad", jsr "sc_FLD1R",
   "sc_0", jsr "sc_FDIV",
   "sc_1", bcs "sc_exit", lda (abs 0xD4), Ins.and (imm 0x7F), sta (abs 0xD4), cmp (imm 0x40), bcc "sc_less", cmp (imm 0x45), bcs "sc_exit", tax,
     lda (absX 0x95), Ins.and (imm 0x10), lsr acc, lsr acc, lsr acc, adc (zp .tmp2), adc (absX 0x95), sta (zp .tmp2), lda (imm 0),
   "sc_clr", sta (absX 0x95), dex, cpx (imm 0x3F), Ins.bne "sc_clr",
   "sc_2", jsr "sc_FPNORM",
   "sc_less", lsr (zp .tmp2), bcc "sc_poly", jsr "sc_FMOVE",
   "sc_3", jsr "sc_SET1",
   "sc_4", jsr "sc_FSUB",
   "sc_poly", ldx (imm 0x1C), ldy (imm 0x2F), lda (imm 5), jsr "sc_EVAL",
   "sc_5", asl (abs 0xD4), beq "sc_exit", lsr (zp .tmp2), ror (abs 0xD4),
   "sc_exit", next,
   "sc_FLD1R", next, "sc_FDIV", next, "sc_FPNORM", next, "sc_FMOVE", next, "sc_SET1", next, "sc_FSUB", next, "sc_EVAL", next,
   "EXE_MUL6", sta (zp .tmp1), stx (zp .tmp1h), asl acc, rol (zp .tmp1h), adc (zp .tmp1), sta (zp .tmp1), txa, adc (zp .tmp1h), asl (zp .tmp1), rol acc, tax, lda (zp .tmp1), next]

set_option maxRecDepth 20000 in
code_labels scCode

end FB.Rt
