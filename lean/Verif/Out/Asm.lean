import Verif.Parse.State

/-!
# The assembly file written by the cross compiler

Model of `/repo/src/compiler/codew.h` (`escape`, `to_asm`) and of the last part of `compile_file`
(`/repo/src/compiler/compile.cc:267-392`). Texts are lists of character codes.
-/

namespace FB.Out

open FB.Parse

/-- The name of a token in the C++ code, where tokens are strings: the names in
`/repo/src/compiler/peephole.cc` for those of `FB.Tok`; the others carry it. -/
def tokName : Tok → Str
  | .NUM => ofS "TOK_NUM" | .BYTE => ofS "TOK_BYTE" | .CSTRING => ofS "TOK_CSTRING"
  | .VAR_ADDR => ofS "TOK_VAR_ADDR" | .VAR_SADDR => ofS "TOK_VAR_SADDR" | .VAR_LOAD => ofS "TOK_VAR_LOAD"
  | .SHL8 => ofS "TOK_SHL8" | .ZERO => ofS "TOK_0" | .ONE => ofS "TOK_1"
  | .PUSH => ofS "TOK_PUSH" | .PUSH_VAR_LOAD => ofS "TOK_PUSH_VAR_LOAD" | .PUSH_NUM => ofS "TOK_PUSH_NUM"
  | .PUSH_BYTE => ofS "TOK_PUSH_BYTE" | .PUSH_0 => ofS "TOK_PUSH_0" | .PUSH_1 => ofS "TOK_PUSH_1"
  | .NEG => ofS "TOK_NEG" | .ADD => ofS "TOK_ADD" | .SUB => ofS "TOK_SUB" | .MUL => ofS "TOK_MUL"
  | .DIV => ofS "TOK_DIV" | .MOD => ofS "TOK_MOD" | .ADD_VAR => ofS "TOK_ADD_VAR"
  | .BIT_AND => ofS "TOK_BIT_AND" | .BIT_OR => ofS "TOK_BIT_OR" | .BIT_EXOR => ofS "TOK_BIT_EXOR"
  | .PEEK => ofS "TOK_PEEK" | .BYTE_PEEK => ofS "TOK_BYTE_PEEK" | .L_NOT => ofS "TOK_L_NOT"
  | .L_OR => ofS "TOK_L_OR" | .L_AND => ofS "TOK_L_AND" | .LT => ofS "TOK_LT" | .GT => ofS "TOK_GT"
  | .NEQ => ofS "TOK_NEQ" | .EQ => ofS "TOK_EQ" | .COMP_0 => ofS "TOK_COMP_0" | .POKE => ofS "TOK_POKE"
  | .DPOKE => ofS "TOK_DPOKE" | .INC => ofS "TOK_INC" | .DEC => ofS "TOK_DEC"
  | .VAR_STORE => ofS "TOK_VAR_STORE" | .SADDR => ofS "TOK_SADDR" | .INCVAR => ofS "TOK_INCVAR"
  | .DECVAR => ofS "TOK_DECVAR" | .BYTE_POKE => ofS "TOK_BYTE_POKE" | .NUM_POKE => ofS "TOK_NUM_POKE"
  | .VAR_STORE_0 => ofS "TOK_VAR_STORE_0" | .PRINT_STR => ofS "TOK_PRINT_STR" | .GET => ofS "TOK_GET"
  | .GETKEY => ofS "TOK_GETKEY" | .PUT => ofS "TOK_PUT" | .BYTE_PUT => ofS "TOK_BYTE_PUT"
  | .JUMP => ofS "TOK_JUMP" | .CJUMP => ofS "TOK_CJUMP" | .CNJUMP => ofS "TOK_CNJUMP"
  | .CALL => ofS "TOK_CALL" | .RET => ofS "TOK_RET" | .CRET => ofS "TOK_CRET" | .CNRET => ofS "TOK_CNRET"
  | .END => ofS "TOK_END" | .USHL => ofS "TOK_USHL" | .STR_IDX => ofS "TOK_STR_IDX" | .CHR => ofS "TOK_CHR"
  | .IOCHN => ofS "TOK_IOCHN"
  | .other n => ofS "TOK_" ++ ofS n

/-- The loop of `codew::escape`, `/repo/src/compiler/codew.h:46-71`; the boolean is the variable `quote`. The
comparisons are of a signed `char`: codes 128…255 are negative, so `c < 32` holds for them; here the test is on
the unsigned code. -/
def escape : Bool → Str → Str
  | q, [] => if q then [34] else []
  | q, c :: cs =>
    if c < 32 ∨ c = 34 ∨ c > 126 then
      (if q then [34] else []) ++ [44, 32] ++ PS.decDigits (c % 256) ++ escape false cs
    else
      (if q then [] else [44, 32, 34]) ++ [c] ++ escape true cs

/-- `atari_fp::hex`, `/repo/src/compiler/atarifp.h:36-43`. -/
def hexByte (x : Nat) : Str := [36, PS.hexd (x / 16), PS.hexd x]

/-- `atari_fp::to_asm`, `/repo/src/compiler/atarifp.h:86-91`: the six bytes, separated by commas. -/
def fpAsm : List Nat → Str
  | [] => []
  | [x] => hexByte x
  | x :: xs => hexByte x ++ [44, 32] ++ fpAsm xs

/-- `codew::to_asm`, `/repo/src/compiler/codew.h:196-221`. -/
def toAsm : CK → Str
  | .tok t => 9 :: ofS ".byte" ++ 9 :: tokName t
  | .byte n => 9 :: ofS ".byte" ++ 9 :: PS.decDigits (n % 256)
  | .word n => 9 :: ofS ".word" ++ 9 :: PS.decDigits (n % 65536)
  | .varn name _ => 9 :: ofS "makevar" ++ 9 :: 34 :: name ++ [34]
  | .byteStr s => 9 :: ofS ".byte" ++ 9 :: s
  | .wordStr s => 9 :: ofS ".word" ++ 9 :: s
  | .fp b => 9 :: ofS ".byte" ++ 9 :: fpAsm b
  | .label s => s ++ [58]
  | .str s => 9 :: ofS ".byte" ++ 9 :: PS.decDigits s.length ++ escape false s

end FB.Out
