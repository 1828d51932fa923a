import Verif.Rt.Graph
/-!
# Compilation from the editor

Transcription of `/repo/src/compile.asm`: `COMPILE_BUFFER` and the handler of the BREAK key.
-/
namespace FB.Rt
open Ins Opd

/-! The vector of the BREAK key of the OS (`BRKKY`, `atari.inc`), and variables that the linker places: their addresses here are arbitrary. `cbNew` is `new_brkky` (`compile.asm:63-64`), two bytes with the address of `break_irq`; `cbSave` is `brkky_save` (`:60`), the operand of the `JMP` in `break_irq`; `cbHead` is `COMP_HEAD_2+2` (`:100`). Simplification: the cells of page 0, except `sptr`, are also at arbitrary addresses. -/
scoped notation "cbBrkky" => (0x236#16 : W)
scoped notation "cbSave" => (0x3010#16 : W)
scoped notation "cbNew" => (0x3020#16 : W)
scoped notation "cbNewptr" => (0x3030#16 : W)
scoped notation "cbHead" => (0x3040#16 : W)
scoped notation "cbVarPage" => (0x3050#16 : W)
scoped notation "cbNumVars" => (0x3051#16 : W)
scoped notation "cbPage" => (0x3052#16 : W)
scoped notation "cbFixup" => (0x3053#16 : W)
scoped notation "cbProg" => (0x190#16 : W)
scoped notation "cbReloc" => (0x192#16 : W)
scoped notation "cbSaved" => (0x194#16 : W)
scoped notation "cbCount" => (0x195#16 : W)
scoped notation "cbCptr" => (0x196#16 : W)
scoped notation "cbEnd" => (0x198#16 : W)

/-- `COMPILE_BUFFER`, `compile.asm:68-171`. The four routines that it calls are `next` (the theorems say what is true when they are called and when they return). `__HEAP_RUN__` is in page `$3A`, an arbitrary one. The cells of page 0 indexed by `X` are here
out of it: the effect of the wrap in page 0 is that of the wrap at 64K here. -/
def cbCode : Code :=
  asm!["COMPILE_BUFFER", pla, tay, pla, jsr "parser_alloc_init",
   "cb_1", lda (abs cbSaved), pha, jsr "parser_start",
   "cb_2", ldx (imm 0xFE), bcs "cb_ed",
   "cb_sto", lda (absX 0x138), sta (absX 0x2F12), lda (absX 0x2F22), sta (absX 0x138), lda (absX 0x92), sta (absX 0x2F32), adc (absX 0x94), sta (absX 0x2F42), inx, Ins.bne "cb_sto",
   "cb_hdr", tay, iny, sty (abs cbVarPage), lda (abs cbCount), sta (abs cbNumVars), lda (abs 0x193), Ins.bne "cb_rest",
   "cb_run", lda (zp .sptr), pha, lda (abs cbCptr), pha, lda (abs 0x197), pha, lda (imm 125), jsr "cb_putc",
   "cb_3", lda (abs cbEnd), ldx (abs 0x199), jsr "interpreter_run",
   "cb_4", pla, sta (abs 0x197), pla, sta (abs cbCptr), pla, sta (zp .sptr), lda (imm 0x3A), sta (abs cbPage),
   "cb_rest", ldx (imm 2),
   "cb_rb", lda (absX 0x300F), sta (absX 0x235), dex, Ins.bne "cb_rb",
   "cb_jmp", lda (imm 0x4C), sta (abs cbFixup),
   "cb_ed", pla, sta (abs cbSaved), txa, rts,
   "parser_alloc_init", next,
   "parser_start", next,
   "cb_putc", next,
   "interpreter_run", next]

/-- `break_irq`, `compile.asm:55-61`; the `JMP` to the handler of the OS is `next`. -/
def brkCode : Code :=
  asm!["break_irq", lda (imm 0x2C), sta (abs cbFixup), next]

code_labels brkCode

set_option maxRecDepth 20000 in
code_labels cbCode

/-- `COMPILE_BUFFER` of the command line compiler, `cmdmenu.asm:48-101`, with the same cells. -/
def cmCode : Code :=
  asm!["cm_COMPILE_BUFFER", pla, tay, pla, jsr "cm_alloc_init",
   "cm_1", lda (abs cbSaved), pha, jsr "cm_parser",
   "cm_2", ldx (imm 0xFE), bcs "cm_end",
   "cm_sto", lda (absX 0x92), sta (absX 0x2F32), adc (absX 0x94), sta (absX 0x2F42), inx, Ins.bne "cm_sto",
   "cm_hdr", tay, iny, sty (abs cbVarPage), lda (abs cbCount), sta (abs cbNumVars),
   "cm_end", pla, sta (abs cbSaved), txa, rts,
   "cm_alloc_init", next,
   "cm_parser", next]

code_labels cmCode

end FB.Rt
