import Verif.Eng.JCreate
/-!
# Variables in the native compiler: code

Transcription of the actions of `/repo/src/actions.asm` that search, create and give a type to variables, before the code of the jumps and of the memory areas.
-/
namespace FB.Rt
open Ins Opd

/-- `var_ptr` and `label_ptr` (`memptr.asm:38-48`): the ends of the tables of variables and labels. -/
abbrev varEnd : W := 0xA6
abbrev varEnd1 : W := 0xA7
abbrev lblEnd : W := 0xA8
abbrev lblEnd1 : W := 0xA9

/-- `actions.asm:312-375` (`E_VAR_SEARCH`, `E_VAR_WORD`, `E_VAR_CREATE`, `E_VAR_SET_TYPE`) and `414-422` (`E_LABEL_SET_TYPE`), with the rest of the code after it. `VT_WORD` is 1
(`actions.asm:63`), `var_ptr - prog_ptr` is 4 (`memptr.asm:38-42`). The byte `$2C` is written as a jump. Local labels have other names. -/
def varPart : Code :=
  asm!["E_VAR_SEARCH", jsr "get_last_tok",
   "vs_0", jmp "vs_1",
   "E_VAR_WORD", lda (imm 1),
   "vs_1", sta (zp .tmp3), jsr "var_search",
   "vs_2", bcs "vs_exit", cmp (zp .tmp3), beq "emit_varn",
   "vs_nf", sec,
   "vs_exit", rts,
   "E_VAR_CREATE", jsr "var_search",
   "vk_1", bcc "vs_nf", ldx (imm 4), jsr "name_new",
   "vk_2", ldx (abs varCount), inc (abs varCount),
   "emit_varn", txa, clc, jmp "parser_emit_byte",
   "E_VAR_SET_TYPE", jsr "get_last_tok",
   "st_1", bpl "st_nf", inc (abs varCount), inc (abs varCount),
   "st_nf", ldy (imm 0xFF), dec (abs varEnd1), sta (indRY varEnd), inc (abs varEnd1), lsr acc, rts,
   "E_LABEL_SET_TYPE", jsr "get_last_tok",
   "lt_1", ldy (imm 0xFF), dec (abs lblEnd1), sta (indRY lblEnd), inc (abs lblEnd1), rts]

/-- The same, with the routines that they call. -/
def varCode (rest : Code) : Code := varPart ++ rest

set_option maxRecDepth 20000 in
code_labels_p varCode (rest : Code)

/-- The code with the actions on variables, labels and jumps, and the routines on memory areas. -/
abbrev natCode (err lerr : B) : Code := varCode (jmpCode err lerr memCode)

set_option maxRecDepth 20000 in
theorem jmp_in (err lerr : B) : ∀ l k, find l (jmpCode err lerr memCode) = some k → find l (natCode err lerr) = some k := by
  have hd : ((labels varPart).all fun l => !(labels (jmpCode 0 0 memCode)).contains l) = true := by decide +kernel
  intro l k h
  have hl : l ∈ labels (jmpCode 0 0 memCode) := find_mem (P := jmpCode err lerr memCode) h
  show find l (varPart ++ _) = _
  rw [find_app, h]
  intro hx
  have := List.all_eq_true.1 hd l hx
  simp [List.contains_iff_mem] at this
  exact this hl

theorem mem_in' (err lerr : B) : ∀ l k, find l memCode = some k → find l (natCode err lerr) = some k := fun l k h => jmp_in err lerr l k (mem_in err lerr l k h)

end FB.Rt
