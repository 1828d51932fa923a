/-!
# Bytecode items

Model of `/repo/src/compiler/codew.h` (class `codew`), the representation of the program that the
compiler hands to the optimizer and to the assembly writer.
-/

namespace FB

/-- A 16-bit machine word (`int16_t`/`AX` in the sources). -/
abbrev W := BitVec 16
/-- An 8-bit byte. -/
abbrev B := BitVec 8

/-- Bytecode tokens.  `/repo/src/syntax/basic.syn:22-69` and `/repo/src/syntax/fileio.syn:22-27` list
the tokens; the constructors here are exactly the tokens that `/repo/src/compiler/peephole.cc`
mentions by name (`TOK_NUM` is `.NUM`, …, `TOK_0` is `.ZERO`, `TOK_1` is `.ONE`).
All the others are `.other name`. -/
inductive Tok
  | NUM | BYTE | CSTRING | VAR_ADDR | VAR_SADDR | VAR_LOAD | SHL8 | ZERO | ONE
  | PUSH | PUSH_VAR_LOAD | PUSH_NUM | PUSH_BYTE | PUSH_0 | PUSH_1
  | NEG | ADD | SUB | MUL | DIV | MOD | ADD_VAR | BIT_AND | BIT_OR | BIT_EXOR
  | PEEK | BYTE_PEEK | L_NOT | L_OR | L_AND | LT | GT | NEQ | EQ | COMP_0
  | POKE | DPOKE | INC | DEC | VAR_STORE | SADDR | INCVAR | DECVAR | BYTE_POKE | NUM_POKE
  | VAR_STORE_0 | PRINT_STR | GET | GETKEY | PUT | BYTE_PUT
  | JUMP | CJUMP | CNJUMP | CALL | RET | CRET | CNRET | END
  | USHL | STR_IDX | CHR | IOCHN
  | other (name : String)
deriving DecidableEq, Repr

/-- One item of the bytecode vector.  `codew.h:28-39` (the nine kinds) and `codew.h:73-149` (the
constructors).  Simplifications: the source line number `lnum` is dropped (no rule of the optimizer
reads it); `num` of a `byte` is an 8-bit value and of a `word` a 16-bit value, because all uses
(`to_asm`, `val`) reduce it to that range (`codew.h:203,205`, `peephole.cc:93-100`); a floating point
constant is kept as its six bytes. -/
inductive Codew
  | tok (t : Tok)
  | byte (v : B)
  | byteStr (s : String)
  | word (v : W)
  | wordStr (s : String)
  | varn (n : Nat) (name : String)
  | label (s : String)
  | fp (b : List B)
  | str (s : List B)
deriving DecidableEq, Repr

namespace Codew

/-- `codew.h:160` -/
def isLabel : Codew → Bool
  | .label _ => true
  | _ => false

/-- `codew.h:154` -/
def isTok : Codew → Bool
  | .tok _ => true
  | _ => false

/-- An item that can follow a token as its operand: neither a token nor a label. -/
def isData (c : Codew) : Bool := !c.isTok && !c.isLabel

end Codew

end FB
