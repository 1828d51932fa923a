import Verif.Rt.Graph
/-!
# USR and the search of lines of the editor

Transcription of `/repo/src/interp/usr.asm` and `/repo/src/countlines.asm`.
-/
namespace FB.Rt
open Ins Opd

/-- `usr_addr`, `usr.asm:55-61`: the two bytes with the address of the routine; the place given is that of cartridges. -/
scoped notation "usrAddr" => (0x100#16 : W)

/-- `EXE_USR_PARAM`, `EXE_USR_ADDR` and `EXE_USR_CALL`, `usr.asm:34-62`, and `COUNT_LINES`, `countlines.asm:26-53`. The call of the interpreter in `EXE_USR_ADDR` leaves the address of what follows on the stack of the processor; `EXE_USR_CALL` is here the jump to
`COUNT_LINES`, the routine that the editor calls (`editor.bas:503`). -/
def usrCode : Code :=
  asm!["EXE_USR_PARAM", pha, txa, pha, next,
   "EXE_USR_ADDR", sta (abs usrAddr), stx (abs 0x101), jsr "usr_next",
   "usr_back", next,
   "usr_next", next,
   "EXE_USR_CALL", jmp "COUNT_LINES",
   "COUNT_LINES", pla, tax, pla, sta (zp .tmp1), pla, sta (zp .tmp2h), pla, tay, lda (imm 0), sta (zp .tmp2),
   "cl_loop", lda (indY .tmp2 .tmp2h), cpy (zp .tmp1), Ins.bne "cl_go", cpx (zp .tmp2h), beq "cl_end",
   "cl_go", iny, Ins.bne "cl_cmp", inc (zp .tmp2h),
   "cl_cmp", cmp (imm 0x9B), Ins.bne "cl_loop",
   "cl_end", tya, ldx (zp .tmp2h), rts]

code_labels usrCode

end FB.Rt
