import Verif.Syn.NativeFp

/-!
# The optimized tables of the native compiler, `NativeFp`

Generated by `tools/gen_opt.txt`: what the model of `syntax_optimize` gives with the tables of `Verif/Syn/NativeFp.lean`; `C33_native` proves it. Do not edit.
-/
namespace FB.Syn.NativeFp

/-- A table after `syntax_merge`, `/repo/src/compiler/synt-optimize.cc:24-86`. -/
def g0 : SM := ⟨0, [
  [.call 80, .ret],
  [.emit [.token .VAR_LOAD, .byteSym [86, 84, 95, 65, 82, 82, 65, 89, 95, 87, 79, 82, 68]], .ext .VAR_SEARCH, .ret],
  [.emit [.token .VAR_LOAD, .byteSym [86, 84, 95, 65, 82, 82, 65, 89, 95, 66, 89, 84, 69]], .ext .VAR_SEARCH, .ret],
  [.emit [.token .NUM, .byteSym [86, 84, 95, 65, 82, 82, 65, 89, 95, 87, 79, 82, 68]], .ext .LABEL, .ret],
  [.emit [.token .NUM, .byteSym [86, 84, 95, 65, 82, 82, 65, 89, 95, 66, 89, 84, 69]], .ext .LABEL, .ret],
  [.emit [.token .VAR_LOAD, .byteSym [86, 84, 95, 65, 82, 82, 65, 89, 95, 83, 84, 82, 73, 78, 71]], .ext .VAR_SEARCH, .ret],
  [.emit [.token .VAR_ADDR], .ext .VAR_WORD, .ret],
  [.emit [.token .VAR_LOAD, .byteSym [86, 84, 95, 65, 82, 82, 65, 89, 95, 70, 76, 79, 65, 84]], .ext .VAR_SEARCH, .lit [37], .ret],
  [.emit [.token .VAR_ADDR, .byteSym [86, 84, 95, 70, 76, 79, 65, 84]], .ext .VAR_SEARCH, .lit [37], .ret]
  ], false⟩

/-- A table after `syntax_merge`, `/repo/src/compiler/synt-optimize.cc:24-86`. -/
def g1 : SM := ⟨1, [
  [.call 2, .ret],
  [.ret]
  ], true⟩

/-- A table after `syntax_merge`, `/repo/src/compiler/synt-optimize.cc:24-86`. -/
def g2 : SM := ⟨2, [
  [.lit [65, 110, 100], .emit [.token .PUSH], .call 57, .emit [.token .L_AND], .call 1, .ret]
  ], false⟩

/-- A table after `syntax_merge`, `/repo/src/compiler/synt-optimize.cc:24-86`. -/
def g3 : SM := ⟨3, [
  [.emit [.token .VAR_LOAD, .byteSym [86, 84, 95, 65, 82, 82, 65, 89, 95, 66, 89, 84, 69]], .ext .VAR_SEARCH, .emit [.token .PUSH], .call 65, .emit [.token .ADD], .ret],
  [.emit [.token .NUM, .byteSym [86, 84, 95, 65, 82, 82, 65, 89, 95, 66, 89, 84, 69]], .ext .LABEL, .emit [.token .PUSH], .call 65, .emit [.token .ADD], .ret]
  ], false⟩

/-- A table after `syntax_merge`, `/repo/src/compiler/synt-optimize.cc:24-86`. -/
def g4 : SM := ⟨4, [
  [.emit [.token .VAR_LOAD, .byteSym [86, 84, 95, 65, 82, 82, 65, 89, 95, 70, 76, 79, 65, 84]], .ext .VAR_SEARCH, .lit [37], .emit [.token .PUSH], .call 65, .emit [.token (.other "MUL6"), .token .ADD], .ret]
  ], false⟩

/-- A table after `syntax_merge`, `/repo/src/compiler/synt-optimize.cc:24-86`. -/
def g5 : SM := ⟨5, [
  [.emit [.token .VAR_LOAD, .byteSym [86, 84, 95, 65, 82, 82, 65, 89, 95, 83, 84, 82, 73, 78, 71]], .ext .VAR_SEARCH, .lit [36], .emit [.token .PUSH], .call 65, .emit [.token .USHL, .token .ADD], .ret]
  ], false⟩

/-- A table after `syntax_merge`, `/repo/src/compiler/synt-optimize.cc:24-86`. -/
def g6 : SM := ⟨6, [
  [.emit [.token .VAR_LOAD, .byteSym [86, 84, 95, 65, 82, 82, 65, 89, 95, 87, 79, 82, 68]], .ext .VAR_SEARCH, .emit [.token .PUSH], .call 65, .emit [.token .USHL, .token .ADD], .ret],
  [.emit [.token .NUM, .byteSym [86, 84, 95, 65, 82, 82, 65, 89, 95, 87, 79, 82, 68]], .ext .LABEL, .emit [.token .PUSH], .call 65, .emit [.token .USHL, .token .ADD], .ret]
  ], false⟩

/-- A table after `syntax_merge`, `/repo/src/compiler/synt-optimize.cc:24-86`. -/
def g7 : SM := ⟨7, [
  [.lit [38], .call 73, .emit [.token .BIT_AND], .call 7, .ret],
  [.lit [33], .call 73, .emit [.token .BIT_OR], .call 7, .ret],
  [.lit [69, 120, 111, 114], .call 73, .emit [.token .BIT_EXOR], .call 7, .ret],
  [.ret]
  ], true⟩

/-- A table after `syntax_merge`, `/repo/src/compiler/synt-optimize.cc:24-86`. -/
def g8 : SM := ⟨8, [
  [.emit [.token .PUSH], .call 9, .call 8, .ret],
  [.ret]
  ], true⟩

/-- A table after `syntax_merge`, `/repo/src/compiler/synt-optimize.cc:24-86`. -/
def g9 : SM := ⟨9, [
  [.lit [60, 61], .call 47, .emit [.token .GT, .token .L_NOT], .ret],
  [.lit [62, 61], .call 47, .emit [.token .LT, .token .L_NOT], .ret],
  [.lit [60, 62], .call 47, .emit [.token .NEQ], .ret],
  [.lit [60], .call 47, .emit [.token .LT], .ret],
  [.lit [62], .call 47, .emit [.token .GT], .ret],
  [.lit [61], .call 47, .emit [.token .EQ], .ret]
  ], false⟩

/-- A table after `syntax_merge`, `/repo/src/compiler/synt-optimize.cc:24-86`. -/
def g10 : SM := ⟨10, [
  [.lit [61], .call 34, .emit [.token (.other "FP_CMP"), .token .EQ], .ret],
  [.lit [62], .call 34, .emit [.token (.other "FP_CMP"), .token .GT], .ret],
  [.lit [62, 61], .call 34, .emit [.token (.other "FP_CMP"), .token .LT, .token .L_NOT], .ret],
  [.lit [60, 62], .call 34, .emit [.token (.other "FP_CMP"), .token .NEQ], .ret],
  [.lit [60, 61], .call 34, .emit [.token (.other "FP_CMP"), .token .GT, .token .L_NOT], .ret],
  [.lit [60], .call 34, .emit [.token (.other "FP_CMP"), .token .LT], .ret]
  ], false⟩

/-- A table after `syntax_merge`, `/repo/src/compiler/synt-optimize.cc:24-86`. -/
def g11 : SM := ⟨11, [
  [.emit [.token .PUSH], .call 9, .call 8, .ret],
  [.emit [.token (.other "INT_FP")], .call 10, .call 8, .ret],
  [.emit [.token .COMP_0], .ret]
  ], true⟩

/-- A table after `syntax_merge`, `/repo/src/compiler/synt-optimize.cc:24-86`. -/
def g12 : SM := ⟨12, [
  [.lit [61], .call 67, .emit [.token .EQ], .ret],
  [.lit [62], .call 67, .emit [.token .GT], .ret],
  [.lit [62, 61], .call 67, .emit [.token .LT, .token .L_NOT], .ret],
  [.lit [60, 62], .call 67, .emit [.token .NEQ], .ret],
  [.lit [60, 61], .call 67, .emit [.token .GT, .token .L_NOT], .ret],
  [.lit [60], .call 67, .emit [.token .LT], .ret]
  ], false⟩

/-- A table after `syntax_merge`, `/repo/src/compiler/synt-optimize.cc:24-86`. -/
def g13 : SM := ⟨13, [
  [.lit [44], .emit [.token .PUSH], .call 31, .ret]
  ], false⟩

/-- A table after `syntax_merge`, `/repo/src/compiler/synt-optimize.cc:24-86`. -/
def g14 : SM := ⟨14, [
  [.lit [34], .ext .CONST_STRING, .ret],
  [.ext .NUMBER_BYTE, .ret],
  [.emit [.byteSym [86, 84, 95, 65, 82, 82, 65, 89, 95, 66, 89, 84, 69]], .ext .LABEL, .ret]
  ], false⟩

/-- A table after `syntax_merge`, `/repo/src/compiler/synt-optimize.cc:24-86`. -/
def g15 : SM := ⟨15, [
  [.call 14, .lit [44], .call 15, .ret],
  [.call 14, .ret]
  ], false⟩

/-- A table after `syntax_merge`, `/repo/src/compiler/synt-optimize.cc:24-86`. -/
def g16 : SM := ⟨16, [
  [.lit [44], .ret],
  [.ext .POP_PROC_DATA, .ret]
  ], false⟩

/-- A table after `syntax_merge`, `/repo/src/compiler/synt-optimize.cc:24-86`. -/
def g17 : SM := ⟨17, [
  [.ret]
  ], true⟩

/-- A table after `syntax_merge`, `/repo/src/compiler/synt-optimize.cc:24-86`. -/
def g18 : SM := ⟨18, [
  [.call 83, .call 17, .call 28, .ext .LABEL_SET_TYPE, .call 15, .ret],
  [.call 84, .call 17, .call 28, .ext .LABEL_SET_TYPE, .ext .NUMBER_WORD, .call 20, .ret]
  ], false⟩

/-- A table after `syntax_merge`, `/repo/src/compiler/synt-optimize.cc:24-86`. -/
def g19 : SM := ⟨19, [
  [.call 18, .ret],
  [.ext .LABEL_CREATE, .lit [40, 41], .emit [.token .JUMP], .ext .LABEL_DEF, .call 18, .ret]
  ], false⟩

/-- A table after `syntax_merge`, `/repo/src/compiler/synt-optimize.cc:24-86`. -/
def g20 : SM := ⟨20, [
  [.lit [44], .ext .NUMBER_WORD, .call 20, .ret],
  [.ret]
  ], true⟩

/-- A table after `syntax_merge`, `/repo/src/compiler/synt-optimize.cc:24-86`. -/
def g21 : SM := ⟨21, [
  [.lit [44], .call 22, .call 21, .ret],
  [.ret]
  ], true⟩

/-- A table after `syntax_merge`, `/repo/src/compiler/synt-optimize.cc:24-86`. -/
def g22 : SM := ⟨22, [
  [.ext .VAR_CREATE, .ext .PUSH_VAR, .call 23, .ext .VAR_SET_TYPE, .emit [.token (.other "DIM")], .ext .POP_VAR, .ret],
  [.ext .VAR_WORD, .ext .PUSH_VAR, .ret],
  [.emit [.byteSym [86, 84, 95, 83, 84, 82, 73, 78, 71]], .ext .VAR_SEARCH, .lit [36], .ext .PUSH_VAR, .ret],
  [.emit [.byteSym [86, 84, 95, 70, 76, 79, 65, 84]], .ext .VAR_SEARCH, .lit [37], .ext .PUSH_VAR, .ret]
  ], false⟩

/-- A table after `syntax_merge`, `/repo/src/compiler/synt-optimize.cc:24-86`. -/
def g23 : SM := ⟨23, [
  [.lit [37], .call 65, .emit [.token .PUSH_1, .token .ADD, .token (.other "MUL6"), .byteSym [86, 84, 95, 65, 82, 82, 65, 89, 95, 70, 76, 79, 65, 84]], .ret],
  [.lit [36], .call 65, .emit [.token .PUSH_1, .token .ADD, .token .USHL, .byteSym [86, 84, 95, 65, 82, 82, 65, 89, 95, 83, 84, 82, 73, 78, 71]], .ret],
  [.call 65, .emit [.token .PUSH_1, .token .ADD], .call 83, .ret],
  [.call 65, .emit [.token .PUSH_1, .token .ADD, .token .USHL], .call 84, .ret],
  [.call 87, .ret]
  ], false⟩

/-- A table after `syntax_merge`, `/repo/src/compiler/synt-optimize.cc:24-86`. -/
def g24 : SM := ⟨24, [
  [.lit [83, 101, 116], .ext .LABEL_CREATE, .emit [.token .JUMP], .ext .LABEL_DEF, .emit [.byteSym [86, 84, 95, 65, 82, 82, 65, 89, 95, 66, 89, 84, 69]], .ext .LABEL_SET_TYPE, .emit [.byteVal 72, .byteVal 138, .byteVal 72, .byteVal 166, .byteVal 79], .call 28, .call 25, .emit [.byteVal 141, .wordVal 54282], .call 27, .call 26, .ret],
  [.call 28, .call 25, .call 27, .call 26, .ret],
  [.emit [.token .ZERO, .token (.other "PAUSE"), .token .NUM, .wordVal 512, .token .SADDR, .token .NUM, .byteSym [86, 84, 95, 65, 82, 82, 65, 89, 95, 66, 89, 84, 69]], .ext .LABEL, .emit [.token .DPOKE, .token .BYTE, .byteVal 192, .token .NUM_POKE, .wordVal 54286], .ret],
  [.emit [.token .BYTE, .byteVal 64, .token .NUM_POKE, .wordVal 54286], .ret]
  ], true⟩

/-- A table after `syntax_merge`, `/repo/src/compiler/synt-optimize.cc:24-86`. -/
def g25 : SM := ⟨25, [
  [.emit [.byteVal 189, .byteSym [86, 84, 95, 65, 82, 82, 65, 89, 95, 66, 89, 84, 69]], .ext .LABEL, .ret],
  [.emit [.byteVal 169], .ext .NUMBER_BYTE, .ret]
  ], false⟩

/-- A table after `syntax_merge`, `/repo/src/compiler/synt-optimize.cc:24-86`. -/
def g26 : SM := ⟨26, [
  [.call 27, .call 26, .ret],
  [.lit [44], .call 25, .call 27, .call 26, .ret],
  [.lit [44], .ret],
  [.emit [.byteVal 230, .byteVal 79, .byteVal 104, .byteVal 170, .byteVal 104, .byteVal 64], .ext .POP_PROC_DATA, .ret]
  ], false⟩

/-- A table after `syntax_merge`, `/repo/src/compiler/synt-optimize.cc:24-86`. -/
def g27 : SM := ⟨27, [
  [.lit [73, 110, 116, 111], .emit [.byteVal 141], .ext .NUMBER_WORD, .ret],
  [.lit [87, 115, 121, 110, 99], .emit [.byteVal 141, .wordVal 54282], .call 27, .ret]
  ], false⟩

/-- A table after `syntax_merge`, `/repo/src/compiler/synt-optimize.cc:24-86`. -/
def g28 : SM := ⟨28, [
  [.lit [61], .ret]
  ], false⟩

/-- A table after `syntax_merge`, `/repo/src/compiler/synt-optimize.cc:24-86`. -/
def g29 : SM := ⟨29, [
  [.lit [69, 88, 69, 99], .ret],
  [.lit [64], .ret]
  ], false⟩

/-- A table after `syntax_merge`, `/repo/src/compiler/synt-optimize.cc:24-86`. -/
def g30 : SM := ⟨30, [
  [.call 13, .call 30, .ret],
  [.ret]
  ], true⟩

/-- A table after `syntax_merge`, `/repo/src/compiler/synt-optimize.cc:24-86`. -/
def g31 : SM := ⟨31, [
  [.call 47, .call 81, .ret],
  [.call 80, .call 12, .ret],
  [.call 34, .call 10, .ret]
  ], false⟩

/-- A table after `syntax_merge`, `/repo/src/compiler/synt-optimize.cc:24-86`. -/
def g32 : SM := ⟨32, [
  [.lit [44], .call 31, .emit [.token .USHL, .token .USHL, .token .USHL, .token .USHL], .call 13, .emit [.token .ADD], .ret]
  ], false⟩

/-- A table after `syntax_merge`, `/repo/src/compiler/synt-optimize.cc:24-86`. -/
def g33 : SM := ⟨33, [
  [.call 57, .call 1, .call 62, .ret]
  ], false⟩

/-- A table after `syntax_merge`, `/repo/src/compiler/synt-optimize.cc:24-86`. -/
def g34 : SM := ⟨34, [
  [.call 39, .call 36, .call 38, .call 35, .ret]
  ], false⟩

/-- A table after `syntax_merge`, `/repo/src/compiler/synt-optimize.cc:24-86`. -/
def g35 : SM := ⟨35, [
  [.lit [43], .call 39, .call 36, .call 38, .emit [.token (.other "FP_ADD")], .call 35, .ret],
  [.lit [45], .call 39, .call 36, .call 38, .emit [.token (.other "FP_SUB")], .call 35, .ret],
  [.ret]
  ], true⟩

/-- A table after `syntax_merge`, `/repo/src/compiler/synt-optimize.cc:24-86`. -/
def g36 : SM := ⟨36, [
  [.lit [94], .call 85, .emit [.token (.other "FP_IPOW")], .call 36, .ret],
  [.lit [94], .emit [.token (.other "FP_LOG10")], .call 39, .emit [.token (.other "FP_MUL"), .token (.other "FP_EXP10")], .call 36, .ret],
  [.ret]
  ], true⟩

/-- A table after `syntax_merge`, `/repo/src/compiler/synt-optimize.cc:24-86`. -/
def g38 : SM := ⟨38, [
  [.lit [42], .call 39, .call 36, .emit [.token (.other "FP_MUL")], .call 38, .ret],
  [.lit [47], .call 39, .call 36, .emit [.token (.other "FP_DIV")], .call 38, .ret],
  [.ret]
  ], true⟩

/-- A table after `syntax_merge`, `/repo/src/compiler/synt-optimize.cc:24-86`. -/
def g39 : SM := ⟨39, [
  [.emit [.token (.other "FLOAT")], .ext .NUMBER_FP, .ret],
  [.lit [45], .call 39, .emit [.token (.other "FP_NEG")], .ret],
  [.lit [43], .call 39, .ret],
  [.lit [65, 98, 115], .call 39, .emit [.token (.other "FP_ABS")], .ret],
  [.lit [65, 84, 110], .call 39, .emit [.token (.other "FP_ATN")], .ret],
  [.lit [83, 71, 110], .call 39, .emit [.token (.other "FP_SGN")], .ret],
  [.lit [69, 88, 112, 49, 48], .call 39, .emit [.token (.other "FP_EXP10")], .ret],
  [.lit [69, 88, 80], .call 39, .emit [.token (.other "FP_EXP")], .ret],
  [.lit [76, 79, 103, 49, 48], .call 39, .emit [.token (.other "FP_LOG10")], .ret],
  [.lit [76, 79, 71], .call 39, .emit [.token (.other "FP_LOG")], .ret],
  [.lit [83, 81, 114], .call 39, .emit [.token (.other "FP_SQRT")], .ret],
  [.lit [83, 73, 110], .call 39, .emit [.token (.other "FP_SIN")], .ret],
  [.lit [67, 79, 115], .call 39, .emit [.token (.other "FP_COS")], .ret],
  [.lit [86, 97, 108], .call 80, .emit [.token (.other "FP_VAL")], .ret],
  [.lit [82, 78, 100, 40, 41], .emit [.token (.other "FP_RND")], .ret],
  [.lit [37, 84, 105, 109, 101], .emit [.token (.other "FP_TIME")], .ret],
  [.lit [37], .call 65, .emit [.token (.other "FP_LOAD")], .ret],
  [.lit [40], .call 34, .lit [41], .ret],
  [.call 4, .emit [.token (.other "FP_LOAD")], .ret],
  [.emit [.token .VAR_ADDR, .byteSym [86, 84, 95, 70, 76, 79, 65, 84]], .ext .VAR_SEARCH, .lit [37], .emit [.token (.other "FP_LOAD")], .ret],
  [.call 49, .emit [.token (.other "INT_FP")], .ret]
  ], false⟩

/-- A table after `syntax_merge`, `/repo/src/compiler/synt-optimize.cc:24-86`. -/
def g40 : SM := ⟨40, [
  [.call 3, .emit [.token .SADDR, .token .GETKEY, .token .POKE], .ret],
  [.call 90, .emit [.token .GETKEY, .token .DPOKE], .ret]
  ], false⟩

/-- A table after `syntax_merge`, `/repo/src/compiler/synt-optimize.cc:24-86`. -/
def g41 : SM := ⟨41, [
  [.lit [44], .call 3, .emit [.token .SADDR, .token .GET, .token .POKE], .call 42, .ret],
  [.lit [44], .call 90, .emit [.token .GET, .token .DPOKE], .call 42, .ret]
  ], false⟩

/-- A table after `syntax_merge`, `/repo/src/compiler/synt-optimize.cc:24-86`. -/
def g42 : SM := ⟨42, [
  [.call 41, .ret],
  [.call 51, .ret]
  ], false⟩

/-- A table after `syntax_merge`, `/repo/src/compiler/synt-optimize.cc:24-86`. -/
def g43 : SM := ⟨43, [
  [.call 50, .emit [.token .IOCHN], .lit [44], .ret],
  [.lit [34], .emit [.token .CSTRING], .ext .CONST_STRING, .emit [.token .PRINT_STR], .call 72, .ret],
  [.lit [59], .ret],
  [.emit [.token .BYTE_PUT, .byteVal 63], .ret]
  ], true⟩

/-- A table after `syntax_merge`, `/repo/src/compiler/synt-optimize.cc:24-86`. -/
def g44 : SM := ⟨44, [
  [.call 90, .emit [.token (.other "INPUT_STR"), .token (.other "VAL"), .token .DPOKE], .ret],
  [.call 3, .emit [.token .SADDR, .token (.other "INPUT_STR"), .token (.other "VAL"), .token .POKE], .ret],
  [.call 89, .emit [.token (.other "INPUT_STR"), .token (.other "COPY_STR")], .ret],
  [.call 88, .emit [.token (.other "INPUT_STR"), .token (.other "FP_VAL"), .token (.other "FP_STORE")], .ret]
  ], false⟩

/-- A table after `syntax_merge`, `/repo/src/compiler/synt-optimize.cc:24-86`. -/
def g45 : SM := ⟨45, [
  [.call 44, .call 46, .ret]
  ], false⟩

/-- A table after `syntax_merge`, `/repo/src/compiler/synt-optimize.cc:24-86`. -/
def g46 : SM := ⟨46, [
  [.lit [44], .call 45, .ret],
  [.ret]
  ], true⟩

/-- A table after `syntax_merge`, `/repo/src/compiler/synt-optimize.cc:24-86`. -/
def g47 : SM := ⟨47, [
  [.call 85, .call 7, .call 55, .call 48, .ret]
  ], false⟩

/-- A table after `syntax_merge`, `/repo/src/compiler/synt-optimize.cc:24-86`. -/
def g48 : SM := ⟨48, [
  [.lit [43], .call 73, .call 7, .call 55, .emit [.token .ADD], .call 48, .ret],
  [.lit [45], .call 73, .call 7, .call 55, .emit [.token .SUB], .call 48, .ret],
  [.ret]
  ], true⟩

/-- A table after `syntax_merge`, `/repo/src/compiler/synt-optimize.cc:24-86`. -/
def g49 : SM := ⟨49, [
  [.lit [78, 111, 116], .call 57, .emit [.token .L_NOT], .ret],
  [.lit [84, 105, 109, 101], .emit [.token (.other "TIME")], .ret],
  [.call 6, .emit [.token (.other "DPEEK")], .ret],
  [.call 3, .emit [.token .PEEK], .ret],
  [.lit [70, 114, 101, 40, 41], .emit [.token .NUM, .wordSym [77, 69, 77, 84, 79, 80], .token (.other "DPEEK"), .token .PUSH_BYTE, .byteSym [66, 65, 83, 73, 67, 95, 84, 79, 80], .token (.other "DPEEK"), .token .SUB], .ret],
  [.lit [69, 114, 114, 40, 41], .emit [.token .BYTE_PEEK, .byteSym [73, 79, 69, 82, 82, 79, 82]], .ret],
  [.lit [75, 101, 121, 40, 41], .emit [.token .NUM, .wordVal 764, .token .PEEK, .token .PUSH_BYTE, .byteVal 255, .token .BIT_EXOR], .ret],
  [.emit [.token .VAR_LOAD], .ext .VAR_WORD, .ret],
  [.lit [65, 98, 115], .call 85, .emit [.token (.other "ABS")], .ret],
  [.lit [83, 71, 110], .call 85, .emit [.token (.other "SGN")], .ret],
  [.lit [80, 101, 101, 107], .call 85, .emit [.token .PEEK], .ret],
  [.lit [80, 65, 100, 100, 108, 101], .emit [.token .NUM, .wordVal 624, .token .PUSH_BYTE, .byteVal 7], .call 74, .ret],
  [.lit [80, 84, 114, 105, 103], .emit [.token .NUM, .wordVal 636, .token .PUSH_BYTE, .byteVal 7], .call 74, .ret],
  [.lit [83, 116, 105, 99, 107], .emit [.token .NUM, .wordVal 632, .token .PUSH_BYTE, .byteVal 3], .call 74, .ret],
  [.lit [83, 84, 82, 105, 103], .emit [.token .NUM, .wordVal 644, .token .PUSH_BYTE, .byteVal 3], .call 74, .ret],
  [.lit [82, 97, 110, 100], .call 85, .emit [.token (.other "RAND")], .ret],
  [.lit [68, 112, 101, 101, 107], .call 85, .emit [.token (.other "DPEEK")], .ret],
  [.lit [85, 83, 82, 40], .call 31, .emit [.token (.other "USR_ADDR")], .call 86, .lit [41], .emit [.token (.other "USR_CALL")], .ret],
  [.lit [65, 68, 82, 40], .call 0, .lit [41], .ret],
  [.lit [38], .call 0, .ret],
  [.lit [76, 101, 110], .call 80, .emit [.token .PEEK], .ret],
  [.lit [86, 97, 108], .call 80, .emit [.token (.other "VAL")], .ret],
  [.lit [65, 83, 99], .call 80, .emit [.token .PUSH_1, .token .ADD, .token .PEEK], .ret],
  [.lit [80, 77, 97, 100, 114], .call 85, .emit [.token .PUSH_BYTE, .byteVal 4, .token .ADD, .token .PUSH_NUM, .wordSym [80, 77, 71, 77, 79, 68, 69], .token .PEEK, .token .USHL, .token .MUL, .token .PUSH_NUM, .wordSym [80, 77, 71, 66, 65, 83, 69], .token .PEEK, .token .SHL8, .token .ADD], .ret],
  [.lit [83, 69, 114, 114, 40, 41], .emit [.token .NUM, .wordVal 771, .token .PEEK], .ret],
  [.lit [73, 110, 116], .call 39, .emit [.token (.other "FP_INT")], .ret]
  ], false⟩

/-- A table after `syntax_merge`, `/repo/src/compiler/synt-optimize.cc:24-86`. -/
def g50 : SM := ⟨50, [
  [.lit [35], .call 31, .ret]
  ], false⟩

/-- A table after `syntax_merge`, `/repo/src/compiler/synt-optimize.cc:24-86`. -/
def g51 : SM := ⟨51, [
  [.emit [.token .ZERO], .emit [.token .IOCHN], .ret]
  ], true⟩

/-- A table after `syntax_merge`, `/repo/src/compiler/synt-optimize.cc:24-86`. -/
def g52 : SM := ⟨52, [
  [.call 50, .emit [.token .IOCHN], .lit [44], .ret],
  [.ret]
  ], true⟩

/-- A table after `syntax_merge`, `/repo/src/compiler/synt-optimize.cc:24-86`. -/
def g53 : SM := ⟨53, [
  [.call 50, .emit [.token .IOCHN], .ret],
  [.ret]
  ], true⟩

/-- A table after `syntax_merge`, `/repo/src/compiler/synt-optimize.cc:24-86`. -/
def g54 : SM := ⟨54, [
  [.call 91, .call 28, .call 31, .emit [.token .VAR_STORE], .ext .POP_VAR, .ret],
  [.call 90, .call 28, .call 31, .emit [.token .DPOKE], .ret],
  [.call 3, .emit [.token .SADDR], .call 28, .call 31, .emit [.token .POKE], .ret],
  [.call 89, .call 28, .call 80, .emit [.token (.other "COPY_STR")], .ret],
  [.call 89, .call 28, .lit [43], .call 80, .emit [.token (.other "CAT_STR")], .ret],
  [.call 88, .call 28, .call 34, .emit [.token (.other "FP_STORE")], .ret],
  [.ret]
  ], true⟩

/-- A table after `syntax_merge`, `/repo/src/compiler/synt-optimize.cc:24-86`. -/
def g55 : SM := ⟨55, [
  [.lit [42], .call 73, .call 7, .emit [.token .MUL], .call 55, .ret],
  [.lit [47], .call 73, .call 7, .emit [.token .DIV], .call 55, .ret],
  [.lit [77, 111, 100], .call 73, .call 7, .emit [.token .MOD], .call 55, .ret],
  [.ret]
  ], true⟩

/-- A table after `syntax_merge`, `/repo/src/compiler/synt-optimize.cc:24-86`. -/
def g56 : SM := ⟨56, [
  [.ext .VAR_WORD, .ret],
  [.emit [.byteVal 0], .ret]
  ], true⟩

/-- A table after `syntax_merge`, `/repo/src/compiler/synt-optimize.cc:24-86`. -/
def g57 : SM := ⟨57, [
  [.lit [78, 111, 116], .call 57, .emit [.token .L_NOT], .ret],
  [.call 47, .call 11, .ret],
  [.call 80, .call 12, .ret],
  [.call 34, .call 10, .ret]
  ], false⟩

/-- A table after `syntax_merge`, `/repo/src/compiler/synt-optimize.cc:24-86`. -/
def g58 : SM := ⟨58, [
  [.call 31, .call 30, .emit [.token .PUSH], .ret],
  [.ret]
  ], true⟩

/-- A table after `syntax_merge`, `/repo/src/compiler/synt-optimize.cc:24-86`. -/
def g59 : SM := ⟨59, [
  [.call 91, .call 59, .emit [.token (.other "POP"), .token .VAR_STORE], .ext .POP_VAR, .ret],
  [.ret]
  ], true⟩

/-- A table after `syntax_merge`, `/repo/src/compiler/synt-optimize.cc:24-86`. -/
def g60 : SM := ⟨60, [
  [.lit [91], .emit [.token .PUSH], .call 31, .call 13, .lit [93], .emit [.token .STR_IDX], .call 60, .ret],
  [.lit [91], .emit [.token .PUSH], .call 31, .lit [93], .emit [.token .PUSH_BYTE, .byteVal 255, .token .STR_IDX], .call 60, .ret],
  [.ret]
  ], true⟩

/-- A table after `syntax_merge`, `/repo/src/compiler/synt-optimize.cc:24-86`. -/
def g61 : SM := ⟨61, [
  [.call 63, .ret],
  [.call 2, .call 62, .ret]
  ], false⟩

/-- A table after `syntax_merge`, `/repo/src/compiler/synt-optimize.cc:24-86`. -/
def g62 : SM := ⟨62, [
  [.call 63, .ret],
  [.ret]
  ], true⟩

/-- A table after `syntax_merge`, `/repo/src/compiler/synt-optimize.cc:24-86`. -/
def g63 : SM := ⟨63, [
  [.lit [79, 114], .emit [.token .PUSH], .call 57, .call 1, .emit [.token .L_OR], .call 62, .ret]
  ], false⟩

/-- A table after `syntax_merge`, `/repo/src/compiler/synt-optimize.cc:24-86`. -/
def g64 : SM := ⟨64, [
  [.call 77, .ext .EOL, .ret],
  [.call 54, .ext .EOL, .ret]
  ], false⟩

/-- A table after `syntax_merge`, `/repo/src/compiler/synt-optimize.cc:24-86`. -/
def g65 : SM := ⟨65, [
  [.lit [40], .call 31, .lit [41], .ret]
  ], false⟩

/-- A table after `syntax_merge`, `/repo/src/compiler/synt-optimize.cc:24-86`. -/
def g66 : SM := ⟨66, [
  [.call 31, .ret],
  [.ext .EOL, .emit [.token .ZERO], .ret]
  ], false⟩

/-- A table after `syntax_merge`, `/repo/src/compiler/synt-optimize.cc:24-86`. -/
def g67 : SM := ⟨67, [
  [.emit [.token .PUSH], .call 80, .emit [.token (.other "CMP_STR")], .ret]
  ], false⟩

/-- A table after `syntax_merge`, `/repo/src/compiler/synt-optimize.cc:24-86`. -/
def g68 : SM := ⟨68, [
  [.call 31, .call 13, .emit [.token (.other "POSITION")], .ret]
  ], false⟩

/-- A table after `syntax_merge`, `/repo/src/compiler/synt-optimize.cc:24-86`. -/
def g69 : SM := ⟨69, [
  [.ext .EOL, .emit [.token .BYTE_PUT, .byteVal 155], .ret],
  [.call 70, .ret]
  ], false⟩

/-- A table after `syntax_merge`, `/repo/src/compiler/synt-optimize.cc:24-86`. -/
def g70 : SM := ⟨70, [
  [.ext .EOL, .ret],
  [.call 72, .call 70, .ret],
  [.call 71, .emit [.token .PRINT_STR], .call 69, .ret]
  ], false⟩

/-- A table after `syntax_merge`, `/repo/src/compiler/synt-optimize.cc:24-86`. -/
def g71 : SM := ⟨71, [
  [.call 31, .emit [.token (.other "INT_STR")], .ret],
  [.call 80, .ret],
  [.call 34, .emit [.token (.other "FP_STR")], .ret]
  ], false⟩

/-- A table after `syntax_merge`, `/repo/src/compiler/synt-optimize.cc:24-86`. -/
def g72 : SM := ⟨72, [
  [.lit [84, 97, 98], .call 85, .emit [.token (.other "PRINT_TAB")], .ret],
  [.lit [82, 84, 97, 98], .call 85, .emit [.token .BYTE_POKE, .byteSym [80, 82, 73, 78, 84, 95, 82, 84, 65, 66, 95, 65, 82, 71]], .call 71, .emit [.token (.other "PRINT_RTAB")], .call 69, .ret],
  [.lit [67, 111, 108, 111, 114], .call 85, .emit [.token .BYTE_POKE, .byteSym [80, 82, 73, 78, 84, 95, 67, 79, 76, 79, 82]], .call 70, .emit [.token .ZERO, .token .BYTE_POKE, .byteSym [80, 82, 73, 78, 84, 95, 67, 79, 76, 79, 82]], .ret],
  [.lit [44], .emit [.token .BYTE, .byteVal 10, .token (.other "PRINT_TAB")], .ret],
  [.lit [59], .ret]
  ], false⟩

/-- A table after `syntax_merge`, `/repo/src/compiler/synt-optimize.cc:24-86`. -/
def g73 : SM := ⟨73, [
  [.emit [.token .PUSH], .call 85, .ret]
  ], false⟩

/-- A table after `syntax_merge`, `/repo/src/compiler/synt-optimize.cc:24-86`. -/
def g74 : SM := ⟨74, [
  [.emit [.token .PUSH], .call 85, .emit [.token .BIT_AND, .token .ADD, .token .PEEK], .ret]
  ], false⟩

/-- A table after `syntax_merge`, `/repo/src/compiler/synt-optimize.cc:24-86`. -/
def g75 : SM := ⟨75, [
  [.call 76, .lit [44], .call 31, .emit [.token .PUSH], .call 32, .emit [.token .SHL8, .token .ADD, .token .DPOKE, .token .ZERO, .token .NUM_POKE, .wordVal 53768, .token .BYTE, .byteVal 3, .token .NUM_POKE, .wordVal 53775], .ret],
  [.call 76, .emit [.token .ZERO, .token .DPOKE], .ret],
  [.emit [.token .NUM, .wordSym [83, 79, 85, 78, 68, 95, 79, 70, 70], .token (.other "USR_ADDR"), .token (.other "USR_CALL")], .ret]
  ], true⟩

/-- A table after `syntax_merge`, `/repo/src/compiler/synt-optimize.cc:24-86`. -/
def g76 : SM := ⟨76, [
  [.call 31, .emit [.token .USHL, .token .PUSH_NUM, .wordVal 53760, .token .ADD, .token .SADDR], .ret]
  ], false⟩

/-- A table after `syntax_merge`, `/repo/src/compiler/synt-optimize.cc:24-86`. -/
def g77 : SM := ⟨77, [
  [.lit [46], .ext .REM, .ret],
  [.lit [63], .call 52, .call 69, .call 51, .ret],
  [.lit [80, 82, 73, 110, 116], .call 52, .call 69, .call 51, .ret],
  [.lit [73, 78, 112, 117, 116], .call 43, .call 45, .call 51, .ret],
  [.lit [71, 69, 116], .call 40, .ret],
  [.lit [80, 85, 116], .call 52, .call 31, .emit [.token .PUT], .call 51, .ret],
  [.lit [67, 76, 83], .call 53, .emit [.token .BYTE_PUT, .byteVal 125], .call 51, .ret],
  [.lit [80, 111, 107, 101], .call 31, .emit [.token .SADDR], .lit [44], .call 31, .emit [.token .POKE], .ret],
  [.lit [68, 112, 111, 107, 101], .call 31, .emit [.token .SADDR], .lit [44], .call 31, .emit [.token .DPOKE], .ret],
  [.lit [77, 83, 101, 116], .call 31, .call 13, .call 13, .emit [.token (.other "MSET")], .ret],
  [.lit [77, 111, 118, 101], .call 31, .call 13, .call 13, .emit [.token (.other "MOVE")], .ret],
  [.lit [45, 109, 111, 118, 101], .call 31, .call 13, .call 13, .emit [.token (.other "NMOVE")], .ret],
  [.lit [68, 79], .ext .EOL, .emit [.byteSym [76, 84, 95, 68, 79, 95, 76, 79, 79, 80]], .ext .PUSH_LT, .ret],
  [.lit [76, 111, 111, 112], .ext .EOL, .emit [.token .JUMP], .ext .POP_LOOP, .ret],
  [.lit [82, 101, 112, 101, 97, 116], .ext .EOL, .emit [.byteSym [76, 84, 95, 82, 69, 80, 69, 65, 84]], .ext .PUSH_LT, .ret],
  [.lit [85, 110, 116, 105, 108], .call 33, .emit [.token .CJUMP], .ext .POP_REPEAT, .ret],
  [.lit [87, 104, 105, 108, 101], .emit [.byteSym [76, 84, 95, 87, 72, 73, 76, 69, 95, 49]], .ext .PUSH_LT, .call 33, .emit [.token .CJUMP, .byteSym [76, 84, 95, 87, 72, 73, 76, 69, 95, 50]], .ext .PUSH_LT, .ret],
  [.lit [87, 69, 110, 100], .ext .EOL, .emit [.token .JUMP], .ext .POP_WHILE, .ret],
  [.lit [73, 102], .call 33, .emit [.token .CJUMP, .byteSym [76, 84, 95, 73, 70]], .ext .PUSH_LT, .call 82, .ret],
  [.lit [70, 111, 114], .call 90, .call 28, .emit [.token .PUSH], .call 31, .emit [.token .DPOKE], .lit [84, 111], .call 31, .call 78, .emit [.token (.other "FOR"), .token .CNJUMP, .byteSym [76, 84, 95, 70, 79, 82, 95, 50]], .ext .PUSH_LT, .emit [.byteSym [76, 84, 95, 70, 79, 82, 95, 49]], .ext .PUSH_LT, .ret],
  [.lit [78, 101, 120, 116], .emit [.token (.other "FOR_NEXT")], .emit [.token .CJUMP], .call 56, .ext .EOL, .ext .POP_FOR, .emit [.token (.other "FOR_EXIT")], .ret],
  [.lit [69, 76, 115, 101], .ext .EOL, .emit [.token .JUMP], .emit [.byteSym [76, 84, 95, 69, 76, 83, 69]], .ext .ELSEIF, .ret],
  [.lit [69, 76, 73, 102], .emit [.token .JUMP, .byteSym [76, 84, 95, 69, 76, 73, 70]], .ext .ELSEIF, .call 33, .emit [.token .CJUMP, .byteSym [76, 84, 95, 73, 70]], .ext .PUSH_LT, .ret],
  [.lit [69, 110, 100, 105, 102], .ext .EOL, .ext .POP_IF, .ret],
  [.lit [69, 88, 105, 116], .emit [.token .JUMP], .ext .EXIT_LOOP, .ret],
  [.lit [80, 79, 83, 105, 116, 105, 111, 110], .call 68, .ret],
  [.lit [68, 73, 109], .call 22, .call 21, .ret],
  [.lit [80, 65, 117, 115, 101], .call 66, .emit [.token (.other "PAUSE")], .ret],
  [.lit [73, 78, 67], .call 90, .emit [.token .INC], .ret],
  [.lit [68, 69, 99], .call 90, .emit [.token .DEC], .ret],
  [.lit [80, 82, 111, 99], .ext .LABEL_CREATE, .emit [.token .JUMP], .ext .LABEL_DEF, .emit [.byteSym [76, 84, 95, 80, 82, 79, 67, 95, 50]], .ext .PUSH_LT, .call 59, .ret],
  [.lit [69, 78, 68, 80, 114, 111, 99], .ext .POP_PROC_2, .emit [.token .RET], .ext .POP_PROC_DATA, .ret],
  [.call 29, .ext .LABEL_CREATE, .call 58, .emit [.token .CALL], .ext .DO_EXEC, .ret],
  [.lit [68, 65, 116, 97], .call 19, .call 16, .ret],
  [.lit [69, 78, 68], .emit [.token .END], .ret],
  [.lit [84, 105, 109, 101, 114], .emit [.token .ZERO, .token .BYTE_POKE, .byteVal 19, .token .ZERO, .token .BYTE_POKE, .byteVal 20], .ret],
  [.lit [67, 76, 82], .emit [.token .NUM, .wordSym [67, 76, 69, 65, 82, 95, 68, 65, 84, 65], .token (.other "USR_ADDR"), .token (.other "USR_CALL")], .ret],
  [.lit [68, 76, 105], .call 24, .ret],
  [.lit [71, 69, 116], .call 50, .emit [.token .IOCHN], .call 41, .ret],
  [.lit [67, 76, 111, 115, 101], .call 50, .emit [.token (.other "CLOSE")], .ret],
  [.lit [79, 112, 101, 110], .call 50, .emit [.token .PUSH_BYTE, .byteVal 3], .call 92, .ret],
  [.lit [88, 105, 111], .call 50, .call 13, .call 92, .ret],
  [.lit [66, 80, 117, 116], .call 50, .call 13, .call 13, .emit [.token (.other "BPUT")], .ret],
  [.lit [66, 71, 101, 116], .call 50, .call 13, .call 13, .emit [.token (.other "BGET")], .ret],
  [.lit [80, 77, 71, 114, 97, 112, 104, 105, 99, 115], .call 31, .emit [.token (.other "PMGRAPHICS")], .ret],
  [.lit [80, 77, 104, 112, 111, 115], .call 31, .emit [.token .PUSH_NUM, .wordVal 53248, .token .ADD, .token .SADDR], .lit [44], .call 31, .emit [.token .POKE], .ret],
  [.lit [71, 114, 97, 112, 104, 105, 99, 115], .emit [.token .ZERO, .token (.other "PMGRAPHICS"), .token .BYTE, .byteVal 6, .token (.other "CLOSE")], .call 31, .emit [.token (.other "GRAPHICS")], .ret],
  [.lit [67, 111, 108, 111, 114], .call 31, .emit [.token .BYTE_POKE, .byteSym [67, 79, 76, 79, 82]], .ret],
  [.lit [70, 67, 111, 108, 111, 114], .call 31, .emit [.token .NUM_POKE, .wordVal 765], .ret],
  [.lit [76, 79, 67, 97, 116, 101], .call 68, .emit [.token .BYTE, .byteVal 6, .token .IOCHN], .call 41, .ret],
  [.lit [80, 76, 111, 116], .call 68, .emit [.token .BYTE, .byteVal 6, .token .IOCHN, .token .BYTE_PEEK, .byteSym [67, 79, 76, 79, 82], .token .PUT], .call 51, .ret],
  [.lit [68, 82, 97, 119, 116, 111], .call 68, .emit [.token .BYTE, .byteVal 17, .token (.other "DRAWTO")], .ret],
  [.lit [70, 73, 108, 108, 116, 111], .call 68, .emit [.token .BYTE, .byteVal 18, .token (.other "DRAWTO")], .ret],
  [.lit [83, 69, 116, 99, 111, 108, 111, 114], .call 31, .emit [.token .PUSH_NUM, .wordVal 708, .token .ADD, .token .SADDR], .call 32, .emit [.token .POKE], .ret],
  [.lit [83, 73, 111], .call 31, .emit [.token .NUM_POKE, .wordVal 768], .lit [44], .call 31, .emit [.token .NUM_POKE, .wordVal 769], .lit [44], .call 31, .emit [.token .NUM_POKE, .wordVal 770], .lit [44], .call 31, .emit [.token .NUM_POKE, .wordVal 771], .lit [44], .emit [.token .NUM, .wordVal 772, .token .SADDR], .call 31, .emit [.token .DPOKE], .lit [44], .call 31, .emit [.token .NUM_POKE, .wordVal 774], .lit [44], .emit [.token .NUM, .wordVal 776, .token .SADDR], .call 31, .emit [.token .DPOKE], .lit [44], .call 31, .emit [.token .NUM_POKE, .wordVal 778], .lit [44], .call 31, .emit [.token .NUM_POKE, .wordVal 779], .emit [.token .NUM, .wordVal 58457, .token (.other "USR_ADDR"), .token (.other "USR_CALL")], .ret],
  [.lit [83, 111, 117, 110, 100], .call 75, .ret],
  [.lit [68, 69, 71], .emit [.token .ONE, .token .BYTE_POKE, .byteSym [68, 69, 71, 70, 76, 65, 71]], .ret],
  [.lit [82, 65, 100], .emit [.token .ZERO, .token .BYTE_POKE, .byteSym [68, 69, 71, 70, 76, 65, 71]], .ret],
  [.lit [78, 79, 112, 101, 110], .call 31, .emit [.token .NUM_POKE, .wordVal 769], .lit [44], .call 31, .emit [.token .NUM_POKE, .wordVal 778], .lit [44], .call 31, .emit [.token .NUM_POKE, .wordVal 779], .lit [44], .emit [.token .NUM, .wordVal 772, .token .SADDR], .call 80, .emit [.token .PUSH_1, .token .ADD, .token .DPOKE], .emit [.token .BYTE, .byteVal 113, .token .NUM_POKE, .wordVal 768], .emit [.token .BYTE, .byteVal 79, .token .NUM_POKE, .wordVal 770], .emit [.token .BYTE, .byteVal 128, .token .NUM_POKE, .wordVal 771], .emit [.token .BYTE, .byteVal 31, .token .NUM_POKE, .wordVal 774], .emit [.token .NUM, .wordVal 776, .token .SADDR, .token .NUM, .wordVal 256, .token .DPOKE], .emit [.token .NUM, .wordVal 58457, .token (.other "USR_ADDR"), .token (.other "USR_CALL")], .ret],
  [.lit [78, 67, 108, 111, 115, 101], .call 31, .emit [.token .NUM_POKE, .wordVal 769], .emit [.token .BYTE, .byteVal 113, .token .NUM_POKE, .wordVal 768], .emit [.token .BYTE, .byteVal 67, .token .NUM_POKE, .wordVal 770], .emit [.token .BYTE, .byteVal 0, .token .NUM_POKE, .wordVal 771], .emit [.token .BYTE, .byteVal 31, .token .NUM_POKE, .wordVal 774], .emit [.token .NUM, .wordVal 776, .token .SADDR, .token .ZERO, .token .DPOKE], .emit [.token .NUM, .wordVal 58457, .token (.other "USR_ADDR"), .token (.other "USR_CALL")], .ret],
  [.lit [78, 83, 116, 97, 116, 117, 115], .call 31, .emit [.token .NUM_POKE, .wordVal 769], .emit [.token .BYTE, .byteVal 113, .token .NUM_POKE, .wordVal 768], .emit [.token .BYTE, .byteVal 83, .token .NUM_POKE, .wordVal 770], .emit [.token .BYTE, .byteVal 64, .token .NUM_POKE, .wordVal 771], .emit [.token .BYTE, .byteVal 31, .token .NUM_POKE, .wordVal 774], .emit [.token .NUM, .wordVal 772, .token .SADDR, .token .NUM, .wordVal 746, .token .DPOKE], .emit [.token .BYTE, .byteVal 4, .token .NUM_POKE, .wordVal 776], .emit [.token .BYTE, .byteVal 0, .token .NUM_POKE, .wordVal 777], .emit [.token .NUM, .wordVal 58457, .token (.other "USR_ADDR"), .token (.other "USR_CALL")], .ret],
  [.lit [78, 71, 101, 116], .call 31, .emit [.token .NUM_POKE, .wordVal 769], .lit [44], .emit [.token .NUM, .wordVal 772, .token .SADDR], .call 31, .emit [.token .DPOKE], .lit [44], .emit [.token .NUM, .wordVal 776, .token .SADDR], .call 31, .emit [.token .DPOKE], .emit [.token .NUM, .wordVal 778, .token .SADDR, .token .NUM, .wordVal 776, .token (.other "DPEEK"), .token .DPOKE], .emit [.token .BYTE, .byteVal 113, .token .NUM_POKE, .wordVal 768], .emit [.token .BYTE, .byteVal 82, .token .NUM_POKE, .wordVal 770], .emit [.token .BYTE, .byteVal 64, .token .NUM_POKE, .wordVal 771], .emit [.token .BYTE, .byteVal 31, .token .NUM_POKE, .wordVal 774], .emit [.token .NUM, .wordVal 58457, .token (.other "USR_ADDR"), .token (.other "USR_CALL")], .ret],
  [.lit [78, 80, 117, 116], .call 31, .emit [.token .NUM_POKE, .wordVal 769], .lit [44], .emit [.token .NUM, .wordVal 772, .token .SADDR], .call 31, .emit [.token .DPOKE], .lit [44], .emit [.token .NUM, .wordVal 776, .token .SADDR], .call 31, .emit [.token .DPOKE], .emit [.token .NUM, .wordVal 778, .token .SADDR, .token .NUM, .wordVal 776, .token (.other "DPEEK"), .token .DPOKE], .emit [.token .BYTE, .byteVal 113, .token .NUM_POKE, .wordVal 768], .emit [.token .BYTE, .byteVal 87, .token .NUM_POKE, .wordVal 770], .emit [.token .BYTE, .byteVal 128, .token .NUM_POKE, .wordVal 771], .emit [.token .BYTE, .byteVal 31, .token .NUM_POKE, .wordVal 774], .emit [.token .NUM, .wordVal 58457, .token (.other "USR_ADDR"), .token (.other "USR_CALL")], .ret]
  ], false⟩

/-- A table after `syntax_merge`, `/repo/src/compiler/synt-optimize.cc:24-86`. -/
def g78 : SM := ⟨78, [
  [.lit [83, 116, 101, 112], .emit [.token .PUSH], .call 31, .ret],
  [.emit [.token .PUSH_1], .ret]
  ], true⟩

/-- A table after `syntax_merge`, `/repo/src/compiler/synt-optimize.cc:24-86`. -/
def g79 : SM := ⟨79, [
  [.lit [34], .emit [.token .CSTRING], .ext .CONST_STRING, .ret],
  [.lit [67, 72, 82, 36], .call 85, .emit [.token .CHR], .ret],
  [.lit [83, 84, 82, 36], .call 85, .emit [.token (.other "INT_STR")], .ret],
  [.lit [36], .call 65, .ret],
  [.emit [.token .VAR_LOAD, .byteSym [86, 84, 95, 83, 84, 82, 73, 78, 71]], .ext .VAR_SEARCH, .lit [36], .ret],
  [.call 5, .emit [.token (.other "DPEEK")], .ret],
  [.lit [83, 84, 82, 36], .call 39, .emit [.token (.other "FP_STR")], .ret]
  ], false⟩

/-- A table after `syntax_merge`, `/repo/src/compiler/synt-optimize.cc:24-86`. -/
def g80 : SM := ⟨80, [
  [.lit [40], .call 80, .lit [41], .ret],
  [.call 79, .call 60, .ret]
  ], false⟩

/-- A table after `syntax_merge`, `/repo/src/compiler/synt-optimize.cc:24-86`. -/
def g81 : SM := ⟨81, [
  [.emit [.token .COMP_0], .call 61, .ret],
  [.emit [.token .PUSH], .call 9, .call 1, .call 62, .call 8, .ret],
  [.emit [.token (.other "INT_FP")], .call 10, .call 62, .call 1, .call 8, .ret],
  [.ret]
  ], true⟩

/-- A table after `syntax_merge`, `/repo/src/compiler/synt-optimize.cc:24-86`. -/
def g82 : SM := ⟨82, [
  [.lit [84, 104, 101, 110], .call 64, .ext .POP_IF, .ret],
  [.ret]
  ], true⟩

/-- A table after `syntax_merge`, `/repo/src/compiler/synt-optimize.cc:24-86`. -/
def g83 : SM := ⟨83, [
  [.lit [66, 121, 116, 101], .emit [.byteSym [86, 84, 95, 65, 82, 82, 65, 89, 95, 66, 89, 84, 69]], .ret]
  ], false⟩

/-- A table after `syntax_merge`, `/repo/src/compiler/synt-optimize.cc:24-86`. -/
def g84 : SM := ⟨84, [
  [.lit [87, 111, 114, 100], .emit [.byteSym [86, 84, 95, 65, 82, 82, 65, 89, 95, 87, 79, 82, 68]], .ret],
  [.emit [.byteSym [86, 84, 95, 65, 82, 82, 65, 89, 95, 87, 79, 82, 68]], .ret]
  ], true⟩

/-- A table after `syntax_merge`, `/repo/src/compiler/synt-optimize.cc:24-86`. -/
def g85 : SM := ⟨85, [
  [.emit [.token .BYTE], .ext .NUMBER_BYTE, .ret],
  [.emit [.token .NUM], .ext .NUMBER_WORD, .ret],
  [.lit [45], .call 85, .emit [.token .NEG], .ret],
  [.lit [43], .call 85, .ret],
  [.call 65, .ret],
  [.call 49, .ret]
  ], false⟩

/-- A table after `syntax_merge`, `/repo/src/compiler/synt-optimize.cc:24-86`. -/
def g86 : SM := ⟨86, [
  [.lit [44], .call 31, .emit [.token (.other "USR_PARAM")], .call 86, .ret],
  [.ret]
  ], true⟩

/-- A table after `syntax_merge`, `/repo/src/compiler/synt-optimize.cc:24-86`. -/
def g87 : SM := ⟨87, [
  [.lit [36], .emit [.byteSym [86, 84, 95, 83, 84, 82, 73, 78, 71]], .ret],
  [.lit [37], .emit [.byteSym [86, 84, 95, 70, 76, 79, 65, 84]], .ret],
  [.emit [.byteSym [86, 84, 95, 87, 79, 82, 68]], .ret]
  ], true⟩

/-- A table after `syntax_merge`, `/repo/src/compiler/synt-optimize.cc:24-86`. -/
def g88 : SM := ⟨88, [
  [.emit [.token .VAR_SADDR, .byteSym [86, 84, 95, 70, 76, 79, 65, 84]], .ext .VAR_SEARCH, .lit [37], .ret],
  [.call 4, .emit [.token .SADDR], .ret]
  ], false⟩

/-- A table after `syntax_merge`, `/repo/src/compiler/synt-optimize.cc:24-86`. -/
def g89 : SM := ⟨89, [
  [.emit [.token .VAR_SADDR, .byteSym [86, 84, 95, 83, 84, 82, 73, 78, 71]], .ext .VAR_SEARCH, .lit [36], .ret],
  [.call 5, .emit [.token .SADDR], .ret]
  ], false⟩

/-- A table after `syntax_merge`, `/repo/src/compiler/synt-optimize.cc:24-86`. -/
def g90 : SM := ⟨90, [
  [.call 6, .emit [.token .SADDR], .ret],
  [.ext .VAR_CREATE, .call 87, .ext .VAR_SET_TYPE, .ret],
  [.emit [.token .VAR_SADDR], .ext .VAR_WORD, .ret]
  ], false⟩

/-- A table after `syntax_merge`, `/repo/src/compiler/synt-optimize.cc:24-86`. -/
def g91 : SM := ⟨91, [
  [.ext .VAR_CREATE, .call 87, .ext .VAR_SET_TYPE, .ret],
  [.ext .VAR_WORD, .ext .PUSH_VAR, .ret]
  ], false⟩

/-- A table after `syntax_merge`, `/repo/src/compiler/synt-optimize.cc:24-86`. -/
def g92 : SM := ⟨92, [
  [.call 13, .call 13, .emit [.token .SHL8, .token .ADD, .token .PUSH], .lit [44], .call 80, .emit [.token (.other "XIO")], .ret]
  ], false⟩

/-- The tables after `syntax_merge`, `/repo/src/compiler/synt-optimize.cc:24-86`. -/
def merged : SMs := [g0, g1, g2, g3, g4, g5, g6, g7, g8, g9, g10, g11, g12, g13, g14, g15, g16, g17, g18, g19, g20, g21, g22, g23, g24, g25, g26, g27, g28, g29, g30, g31, g32, g33, g34, g35, g36, g38, g39, g40, g41, g42, g43, g44, g45, g46, g47, g48, g49, g50, g51, g52, g53, g54, g55, g56, g57, g58, g59, g60, g61, g62, g63, g64, g65, g66, g67, g68, g69, g70, g71, g72, g73, g74, g75, g76, g77, g78, g79, g80, g81, g82, g83, g84, g85, g86, g87, g88, g89, g90, g91, g92]

/-- A table after `syntax_optimize`, `/repo/src/compiler/synt-optimize.cc:88-125`. -/
def o0 : SM := ⟨0, [
  [.call 80, .ret],
  [.emit [.token .VAR_LOAD, .byteSym [86, 84, 95, 65, 82, 82, 65, 89, 95, 87, 79, 82, 68]], .ext .VAR_SEARCH, .ret],
  [.emit [.token .VAR_LOAD, .byteSym [86, 84, 95, 65, 82, 82, 65, 89, 95, 66, 89, 84, 69]], .ext .VAR_SEARCH, .ret],
  [.emit [.token .NUM, .byteSym [86, 84, 95, 65, 82, 82, 65, 89, 95, 87, 79, 82, 68]], .ext .LABEL, .ret],
  [.emit [.token .NUM, .byteSym [86, 84, 95, 65, 82, 82, 65, 89, 95, 66, 89, 84, 69]], .ext .LABEL, .ret],
  [.emit [.token .VAR_LOAD, .byteSym [86, 84, 95, 65, 82, 82, 65, 89, 95, 83, 84, 82, 73, 78, 71]], .ext .VAR_SEARCH, .ret],
  [.emit [.token .VAR_ADDR], .ext .VAR_WORD, .ret],
  [.emit [.token .VAR_LOAD, .byteSym [86, 84, 95, 65, 82, 82, 65, 89, 95, 70, 76, 79, 65, 84]], .ext .VAR_SEARCH, .lit [37], .ret],
  [.emit [.token .VAR_ADDR, .byteSym [86, 84, 95, 70, 76, 79, 65, 84]], .ext .VAR_SEARCH, .lit [37], .ret]
  ], false⟩

/-- A table after `syntax_optimize`, `/repo/src/compiler/synt-optimize.cc:88-125`. -/
def o1 : SM := ⟨1, [
  [.call 2, .ret],
  [.ret]
  ], true⟩

/-- A table after `syntax_optimize`, `/repo/src/compiler/synt-optimize.cc:88-125`. -/
def o2 : SM := ⟨2, [
  [.lit [65, 110, 100], .emit [.token .PUSH], .call 57, .emit [.token .L_AND], .call 1, .ret]
  ], false⟩

/-- A table after `syntax_optimize`, `/repo/src/compiler/synt-optimize.cc:88-125`. -/
def o3 : SM := ⟨3, [
  [.emit [.token .VAR_LOAD, .byteSym [86, 84, 95, 65, 82, 82, 65, 89, 95, 66, 89, 84, 69]], .ext .VAR_SEARCH, .emit [.token .PUSH], .call 65, .emitRet [.token .ADD]],
  [.emit [.token .NUM, .byteSym [86, 84, 95, 65, 82, 82, 65, 89, 95, 66, 89, 84, 69]], .ext .LABEL, .emit [.token .PUSH], .call 65, .emitRet [.token .ADD]]
  ], false⟩

/-- A table after `syntax_optimize`, `/repo/src/compiler/synt-optimize.cc:88-125`. -/
def o4 : SM := ⟨4, [
  [.emit [.token .VAR_LOAD, .byteSym [86, 84, 95, 65, 82, 82, 65, 89, 95, 70, 76, 79, 65, 84]], .ext .VAR_SEARCH, .lit [37], .emit [.token .PUSH], .call 65, .emitRet [.token (.other "MUL6"), .token .ADD]]
  ], false⟩

/-- A table after `syntax_optimize`, `/repo/src/compiler/synt-optimize.cc:88-125`. -/
def o5 : SM := ⟨5, [
  [.emit [.token .VAR_LOAD, .byteSym [86, 84, 95, 65, 82, 82, 65, 89, 95, 83, 84, 82, 73, 78, 71]], .ext .VAR_SEARCH, .lit [36], .emit [.token .PUSH], .call 65, .emitRet [.token .USHL, .token .ADD]]
  ], false⟩

/-- A table after `syntax_optimize`, `/repo/src/compiler/synt-optimize.cc:88-125`. -/
def o6 : SM := ⟨6, [
  [.emit [.token .VAR_LOAD, .byteSym [86, 84, 95, 65, 82, 82, 65, 89, 95, 87, 79, 82, 68]], .ext .VAR_SEARCH, .emit [.token .PUSH], .call 65, .emitRet [.token .USHL, .token .ADD]],
  [.emit [.token .NUM, .byteSym [86, 84, 95, 65, 82, 82, 65, 89, 95, 87, 79, 82, 68]], .ext .LABEL, .emit [.token .PUSH], .call 65, .emitRet [.token .USHL, .token .ADD]]
  ], false⟩

/-- A table after `syntax_optimize`, `/repo/src/compiler/synt-optimize.cc:88-125`. -/
def o7 : SM := ⟨7, [
  [.lit [38], .call 73, .emit [.token .BIT_AND], .call 7, .ret],
  [.lit [33], .call 73, .emit [.token .BIT_OR], .call 7, .ret],
  [.lit [69, 120, 111, 114], .call 73, .emit [.token .BIT_EXOR], .call 7, .ret],
  [.ret]
  ], true⟩

/-- A table after `syntax_optimize`, `/repo/src/compiler/synt-optimize.cc:88-125`. -/
def o8 : SM := ⟨8, [
  [.emit [.token .PUSH], .call 9, .call 8, .ret],
  [.ret]
  ], true⟩

/-- A table after `syntax_optimize`, `/repo/src/compiler/synt-optimize.cc:88-125`. -/
def o9 : SM := ⟨9, [
  [.lit [60, 61], .call 47, .emitRet [.token .GT, .token .L_NOT]],
  [.lit [62, 61], .call 47, .emitRet [.token .LT, .token .L_NOT]],
  [.lit [60, 62], .call 47, .emitRet [.token .NEQ]],
  [.lit [60], .call 47, .emitRet [.token .LT]],
  [.lit [62], .call 47, .emitRet [.token .GT]],
  [.lit [61], .call 47, .emitRet [.token .EQ]]
  ], false⟩

/-- A table after `syntax_optimize`, `/repo/src/compiler/synt-optimize.cc:88-125`. -/
def o10 : SM := ⟨10, [
  [.lit [61], .call 34, .emitRet [.token (.other "FP_CMP"), .token .EQ]],
  [.lit [62], .call 34, .emitRet [.token (.other "FP_CMP"), .token .GT]],
  [.lit [62, 61], .call 34, .emitRet [.token (.other "FP_CMP"), .token .LT, .token .L_NOT]],
  [.lit [60, 62], .call 34, .emitRet [.token (.other "FP_CMP"), .token .NEQ]],
  [.lit [60, 61], .call 34, .emitRet [.token (.other "FP_CMP"), .token .GT, .token .L_NOT]],
  [.lit [60], .call 34, .emitRet [.token (.other "FP_CMP"), .token .LT]]
  ], false⟩

/-- A table after `syntax_optimize`, `/repo/src/compiler/synt-optimize.cc:88-125`. -/
def o11 : SM := ⟨11, [
  [.emit [.token .PUSH], .call 9, .call 8, .ret],
  [.emit [.token (.other "INT_FP")], .call 10, .call 8, .ret],
  [.emitRet [.token .COMP_0]]
  ], true⟩

/-- A table after `syntax_optimize`, `/repo/src/compiler/synt-optimize.cc:88-125`. -/
def o12 : SM := ⟨12, [
  [.lit [61], .call 67, .emitRet [.token .EQ]],
  [.lit [62], .call 67, .emitRet [.token .GT]],
  [.lit [62, 61], .call 67, .emitRet [.token .LT, .token .L_NOT]],
  [.lit [60, 62], .call 67, .emitRet [.token .NEQ]],
  [.lit [60, 61], .call 67, .emitRet [.token .GT, .token .L_NOT]],
  [.lit [60], .call 67, .emitRet [.token .LT]]
  ], false⟩

/-- A table after `syntax_optimize`, `/repo/src/compiler/synt-optimize.cc:88-125`. -/
def o13 : SM := ⟨13, [
  [.lit [44], .emit [.token .PUSH], .call 31, .ret]
  ], false⟩

/-- A table after `syntax_optimize`, `/repo/src/compiler/synt-optimize.cc:88-125`. -/
def o14 : SM := ⟨14, [
  [.lit [34], .ext .CONST_STRING, .ret],
  [.ext .NUMBER_BYTE, .ret],
  [.emit [.byteSym [86, 84, 95, 65, 82, 82, 65, 89, 95, 66, 89, 84, 69]], .ext .LABEL, .ret]
  ], false⟩

/-- A table after `syntax_optimize`, `/repo/src/compiler/synt-optimize.cc:88-125`. -/
def o15 : SM := ⟨15, [
  [.call 14, .lit [44], .call 15, .ret],
  [.call 14, .ret]
  ], false⟩

/-- A table after `syntax_optimize`, `/repo/src/compiler/synt-optimize.cc:88-125`. -/
def o16 : SM := ⟨16, [
  [.lit [44], .ret],
  [.ext .POP_PROC_DATA, .ret]
  ], false⟩

/-- A table after `syntax_optimize`, `/repo/src/compiler/synt-optimize.cc:88-125`. -/
def o18 : SM := ⟨18, [
  [.call 83, .call 28, .ext .LABEL_SET_TYPE, .call 15, .ret],
  [.call 84, .call 28, .ext .LABEL_SET_TYPE, .ext .NUMBER_WORD, .call 20, .ret]
  ], false⟩

/-- A table after `syntax_optimize`, `/repo/src/compiler/synt-optimize.cc:88-125`. -/
def o19 : SM := ⟨19, [
  [.call 18, .ret],
  [.ext .LABEL_CREATE, .lit [40, 41], .emit [.token .JUMP], .ext .LABEL_DEF, .call 18, .ret]
  ], false⟩

/-- A table after `syntax_optimize`, `/repo/src/compiler/synt-optimize.cc:88-125`. -/
def o20 : SM := ⟨20, [
  [.lit [44], .ext .NUMBER_WORD, .call 20, .ret],
  [.ret]
  ], true⟩

/-- A table after `syntax_optimize`, `/repo/src/compiler/synt-optimize.cc:88-125`. -/
def o21 : SM := ⟨21, [
  [.lit [44], .call 22, .call 21, .ret],
  [.ret]
  ], true⟩

/-- A table after `syntax_optimize`, `/repo/src/compiler/synt-optimize.cc:88-125`. -/
def o22 : SM := ⟨22, [
  [.ext .VAR_CREATE, .ext .PUSH_VAR, .call 23, .ext .VAR_SET_TYPE, .emit [.token (.other "DIM")], .ext .POP_VAR, .ret],
  [.ext .VAR_WORD, .ext .PUSH_VAR, .ret],
  [.emit [.byteSym [86, 84, 95, 83, 84, 82, 73, 78, 71]], .ext .VAR_SEARCH, .lit [36], .ext .PUSH_VAR, .ret],
  [.emit [.byteSym [86, 84, 95, 70, 76, 79, 65, 84]], .ext .VAR_SEARCH, .lit [37], .ext .PUSH_VAR, .ret]
  ], false⟩

/-- A table after `syntax_optimize`, `/repo/src/compiler/synt-optimize.cc:88-125`. -/
def o23 : SM := ⟨23, [
  [.lit [37], .call 65, .emitRet [.token .PUSH_1, .token .ADD, .token (.other "MUL6"), .byteSym [86, 84, 95, 65, 82, 82, 65, 89, 95, 70, 76, 79, 65, 84]]],
  [.lit [36], .call 65, .emitRet [.token .PUSH_1, .token .ADD, .token .USHL, .byteSym [86, 84, 95, 65, 82, 82, 65, 89, 95, 83, 84, 82, 73, 78, 71]]],
  [.call 65, .emit [.token .PUSH_1, .token .ADD], .call 83, .ret],
  [.call 65, .emit [.token .PUSH_1, .token .ADD, .token .USHL], .call 84, .ret],
  [.call 87, .ret]
  ], false⟩

/-- A table after `syntax_optimize`, `/repo/src/compiler/synt-optimize.cc:88-125`. -/
def o24 : SM := ⟨24, [
  [.lit [83, 101, 116], .ext .LABEL_CREATE, .emit [.token .JUMP], .ext .LABEL_DEF, .emit [.byteSym [86, 84, 95, 65, 82, 82, 65, 89, 95, 66, 89, 84, 69]], .ext .LABEL_SET_TYPE, .emit [.byteVal 72, .byteVal 138, .byteVal 72, .byteVal 166, .byteVal 79], .call 28, .call 25, .emit [.byteVal 141, .wordVal 54282], .call 27, .call 26, .ret],
  [.call 28, .call 25, .call 27, .call 26, .ret],
  [.emit [.token .ZERO, .token (.other "PAUSE"), .token .NUM, .wordVal 512, .token .SADDR, .token .NUM, .byteSym [86, 84, 95, 65, 82, 82, 65, 89, 95, 66, 89, 84, 69]], .ext .LABEL, .emitRet [.token .DPOKE, .token .BYTE, .byteVal 192, .token .NUM_POKE, .wordVal 54286]],
  [.emitRet [.token .BYTE, .byteVal 64, .token .NUM_POKE, .wordVal 54286]]
  ], true⟩

/-- A table after `syntax_optimize`, `/repo/src/compiler/synt-optimize.cc:88-125`. -/
def o25 : SM := ⟨25, [
  [.emit [.byteVal 189, .byteSym [86, 84, 95, 65, 82, 82, 65, 89, 95, 66, 89, 84, 69]], .ext .LABEL, .ret],
  [.emit [.byteVal 169], .ext .NUMBER_BYTE, .ret]
  ], false⟩

/-- A table after `syntax_optimize`, `/repo/src/compiler/synt-optimize.cc:88-125`. -/
def o26 : SM := ⟨26, [
  [.call 27, .call 26, .ret],
  [.lit [44], .call 25, .call 27, .call 26, .ret],
  [.lit [44], .ret],
  [.emit [.byteVal 230, .byteVal 79, .byteVal 104, .byteVal 170, .byteVal 104, .byteVal 64], .ext .POP_PROC_DATA, .ret]
  ], false⟩

/-- A table after `syntax_optimize`, `/repo/src/compiler/synt-optimize.cc:88-125`. -/
def o27 : SM := ⟨27, [
  [.lit [73, 110, 116, 111], .emit [.byteVal 141], .ext .NUMBER_WORD, .ret],
  [.lit [87, 115, 121, 110, 99], .emit [.byteVal 141, .wordVal 54282], .call 27, .ret]
  ], false⟩

/-- A table after `syntax_optimize`, `/repo/src/compiler/synt-optimize.cc:88-125`. -/
def o28 : SM := ⟨28, [
  [.lit [61], .ret]
  ], false⟩

/-- A table after `syntax_optimize`, `/repo/src/compiler/synt-optimize.cc:88-125`. -/
def o29 : SM := ⟨29, [
  [.lit [69, 88, 69, 99], .ret],
  [.lit [64], .ret]
  ], false⟩

/-- A table after `syntax_optimize`, `/repo/src/compiler/synt-optimize.cc:88-125`. -/
def o30 : SM := ⟨30, [
  [.call 13, .call 30, .ret],
  [.ret]
  ], true⟩

/-- A table after `syntax_optimize`, `/repo/src/compiler/synt-optimize.cc:88-125`. -/
def o31 : SM := ⟨31, [
  [.call 47, .call 81, .ret],
  [.call 80, .call 12, .ret],
  [.call 34, .call 10, .ret]
  ], false⟩

/-- A table after `syntax_optimize`, `/repo/src/compiler/synt-optimize.cc:88-125`. -/
def o32 : SM := ⟨32, [
  [.lit [44], .call 31, .emit [.token .USHL, .token .USHL, .token .USHL, .token .USHL], .call 13, .emitRet [.token .ADD]]
  ], false⟩

/-- A table after `syntax_optimize`, `/repo/src/compiler/synt-optimize.cc:88-125`. -/
def o33 : SM := ⟨33, [
  [.call 57, .call 1, .call 62, .ret]
  ], false⟩

/-- A table after `syntax_optimize`, `/repo/src/compiler/synt-optimize.cc:88-125`. -/
def o34 : SM := ⟨34, [
  [.call 39, .call 36, .call 38, .call 35, .ret]
  ], false⟩

/-- A table after `syntax_optimize`, `/repo/src/compiler/synt-optimize.cc:88-125`. -/
def o35 : SM := ⟨35, [
  [.lit [43], .call 39, .call 36, .call 38, .emit [.token (.other "FP_ADD")], .call 35, .ret],
  [.lit [45], .call 39, .call 36, .call 38, .emit [.token (.other "FP_SUB")], .call 35, .ret],
  [.ret]
  ], true⟩

/-- A table after `syntax_optimize`, `/repo/src/compiler/synt-optimize.cc:88-125`. -/
def o36 : SM := ⟨36, [
  [.lit [94], .call 85, .emit [.token (.other "FP_IPOW")], .call 36, .ret],
  [.lit [94], .emit [.token (.other "FP_LOG10")], .call 39, .emit [.token (.other "FP_MUL"), .token (.other "FP_EXP10")], .call 36, .ret],
  [.ret]
  ], true⟩

/-- A table after `syntax_optimize`, `/repo/src/compiler/synt-optimize.cc:88-125`. -/
def o38 : SM := ⟨38, [
  [.lit [42], .call 39, .call 36, .emit [.token (.other "FP_MUL")], .call 38, .ret],
  [.lit [47], .call 39, .call 36, .emit [.token (.other "FP_DIV")], .call 38, .ret],
  [.ret]
  ], true⟩

/-- A table after `syntax_optimize`, `/repo/src/compiler/synt-optimize.cc:88-125`. -/
def o39 : SM := ⟨39, [
  [.emit [.token (.other "FLOAT")], .ext .NUMBER_FP, .ret],
  [.lit [45], .call 39, .emitRet [.token (.other "FP_NEG")]],
  [.lit [43], .call 39, .ret],
  [.lit [65, 98, 115], .call 39, .emitRet [.token (.other "FP_ABS")]],
  [.lit [65, 84, 110], .call 39, .emitRet [.token (.other "FP_ATN")]],
  [.lit [83, 71, 110], .call 39, .emitRet [.token (.other "FP_SGN")]],
  [.lit [69, 88, 112, 49, 48], .call 39, .emitRet [.token (.other "FP_EXP10")]],
  [.lit [69, 88, 80], .call 39, .emitRet [.token (.other "FP_EXP")]],
  [.lit [76, 79, 103, 49, 48], .call 39, .emitRet [.token (.other "FP_LOG10")]],
  [.lit [76, 79, 71], .call 39, .emitRet [.token (.other "FP_LOG")]],
  [.lit [83, 81, 114], .call 39, .emitRet [.token (.other "FP_SQRT")]],
  [.lit [83, 73, 110], .call 39, .emitRet [.token (.other "FP_SIN")]],
  [.lit [67, 79, 115], .call 39, .emitRet [.token (.other "FP_COS")]],
  [.lit [86, 97, 108], .call 80, .emitRet [.token (.other "FP_VAL")]],
  [.lit [82, 78, 100, 40, 41], .emitRet [.token (.other "FP_RND")]],
  [.lit [37, 84, 105, 109, 101], .emitRet [.token (.other "FP_TIME")]],
  [.lit [37], .call 65, .emitRet [.token (.other "FP_LOAD")]],
  [.lit [40], .call 34, .lit [41], .ret],
  [.call 4, .emitRet [.token (.other "FP_LOAD")]],
  [.emit [.token .VAR_ADDR, .byteSym [86, 84, 95, 70, 76, 79, 65, 84]], .ext .VAR_SEARCH, .lit [37], .emitRet [.token (.other "FP_LOAD")]],
  [.call 49, .emitRet [.token (.other "INT_FP")]]
  ], false⟩

/-- A table after `syntax_optimize`, `/repo/src/compiler/synt-optimize.cc:88-125`. -/
def o40 : SM := ⟨40, [
  [.call 3, .emitRet [.token .SADDR, .token .GETKEY, .token .POKE]],
  [.call 90, .emitRet [.token .GETKEY, .token .DPOKE]]
  ], false⟩

/-- A table after `syntax_optimize`, `/repo/src/compiler/synt-optimize.cc:88-125`. -/
def o41 : SM := ⟨41, [
  [.lit [44], .call 3, .emit [.token .SADDR, .token .GET, .token .POKE], .call 42, .ret],
  [.lit [44], .call 90, .emit [.token .GET, .token .DPOKE], .call 42, .ret]
  ], false⟩

/-- A table after `syntax_optimize`, `/repo/src/compiler/synt-optimize.cc:88-125`. -/
def o42 : SM := ⟨42, [
  [.call 41, .ret],
  [.call 51, .ret]
  ], false⟩

/-- A table after `syntax_optimize`, `/repo/src/compiler/synt-optimize.cc:88-125`. -/
def o43 : SM := ⟨43, [
  [.call 50, .emit [.token .IOCHN], .lit [44], .ret],
  [.lit [34], .emit [.token .CSTRING], .ext .CONST_STRING, .emit [.token .PRINT_STR], .call 72, .ret],
  [.lit [59], .ret],
  [.emitRet [.token .BYTE_PUT, .byteVal 63]]
  ], true⟩

/-- A table after `syntax_optimize`, `/repo/src/compiler/synt-optimize.cc:88-125`. -/
def o44 : SM := ⟨44, [
  [.call 90, .emitRet [.token (.other "INPUT_STR"), .token (.other "VAL"), .token .DPOKE]],
  [.call 3, .emitRet [.token .SADDR, .token (.other "INPUT_STR"), .token (.other "VAL"), .token .POKE]],
  [.call 89, .emitRet [.token (.other "INPUT_STR"), .token (.other "COPY_STR")]],
  [.call 88, .emitRet [.token (.other "INPUT_STR"), .token (.other "FP_VAL"), .token (.other "FP_STORE")]]
  ], false⟩

/-- A table after `syntax_optimize`, `/repo/src/compiler/synt-optimize.cc:88-125`. -/
def o45 : SM := ⟨45, [
  [.call 44, .call 46, .ret]
  ], false⟩

/-- A table after `syntax_optimize`, `/repo/src/compiler/synt-optimize.cc:88-125`. -/
def o46 : SM := ⟨46, [
  [.lit [44], .call 45, .ret],
  [.ret]
  ], true⟩

/-- A table after `syntax_optimize`, `/repo/src/compiler/synt-optimize.cc:88-125`. -/
def o47 : SM := ⟨47, [
  [.call 85, .call 7, .call 55, .call 48, .ret]
  ], false⟩

/-- A table after `syntax_optimize`, `/repo/src/compiler/synt-optimize.cc:88-125`. -/
def o48 : SM := ⟨48, [
  [.lit [43], .call 73, .call 7, .call 55, .emit [.token .ADD], .call 48, .ret],
  [.lit [45], .call 73, .call 7, .call 55, .emit [.token .SUB], .call 48, .ret],
  [.ret]
  ], true⟩

/-- A table after `syntax_optimize`, `/repo/src/compiler/synt-optimize.cc:88-125`. -/
def o49 : SM := ⟨49, [
  [.lit [78, 111, 116], .call 57, .emitRet [.token .L_NOT]],
  [.lit [84, 105, 109, 101], .emitRet [.token (.other "TIME")]],
  [.call 6, .emitRet [.token (.other "DPEEK")]],
  [.call 3, .emitRet [.token .PEEK]],
  [.lit [70, 114, 101, 40, 41], .emitRet [.token .NUM, .wordSym [77, 69, 77, 84, 79, 80], .token (.other "DPEEK"), .token .PUSH_BYTE, .byteSym [66, 65, 83, 73, 67, 95, 84, 79, 80], .token (.other "DPEEK"), .token .SUB]],
  [.lit [69, 114, 114, 40, 41], .emitRet [.token .BYTE_PEEK, .byteSym [73, 79, 69, 82, 82, 79, 82]]],
  [.lit [75, 101, 121, 40, 41], .emitRet [.token .NUM, .wordVal 764, .token .PEEK, .token .PUSH_BYTE, .byteVal 255, .token .BIT_EXOR]],
  [.emit [.token .VAR_LOAD], .ext .VAR_WORD, .ret],
  [.lit [65, 98, 115], .call 85, .emitRet [.token (.other "ABS")]],
  [.lit [83, 71, 110], .call 85, .emitRet [.token (.other "SGN")]],
  [.lit [80, 101, 101, 107], .call 85, .emitRet [.token .PEEK]],
  [.lit [80, 65, 100, 100, 108, 101], .emit [.token .NUM, .wordVal 624, .token .PUSH_BYTE, .byteVal 7], .call 74, .ret],
  [.lit [80, 84, 114, 105, 103], .emit [.token .NUM, .wordVal 636, .token .PUSH_BYTE, .byteVal 7], .call 74, .ret],
  [.lit [83, 116, 105, 99, 107], .emit [.token .NUM, .wordVal 632, .token .PUSH_BYTE, .byteVal 3], .call 74, .ret],
  [.lit [83, 84, 82, 105, 103], .emit [.token .NUM, .wordVal 644, .token .PUSH_BYTE, .byteVal 3], .call 74, .ret],
  [.lit [82, 97, 110, 100], .call 85, .emitRet [.token (.other "RAND")]],
  [.lit [68, 112, 101, 101, 107], .call 85, .emitRet [.token (.other "DPEEK")]],
  [.lit [85, 83, 82, 40], .call 31, .emit [.token (.other "USR_ADDR")], .call 86, .lit [41], .emitRet [.token (.other "USR_CALL")]],
  [.lit [65, 68, 82, 40], .call 0, .lit [41], .ret],
  [.lit [38], .call 0, .ret],
  [.lit [76, 101, 110], .call 80, .emitRet [.token .PEEK]],
  [.lit [86, 97, 108], .call 80, .emitRet [.token (.other "VAL")]],
  [.lit [65, 83, 99], .call 80, .emitRet [.token .PUSH_1, .token .ADD, .token .PEEK]],
  [.lit [80, 77, 97, 100, 114], .call 85, .emitRet [.token .PUSH_BYTE, .byteVal 4, .token .ADD, .token .PUSH_NUM, .wordSym [80, 77, 71, 77, 79, 68, 69], .token .PEEK, .token .USHL, .token .MUL, .token .PUSH_NUM, .wordSym [80, 77, 71, 66, 65, 83, 69], .token .PEEK, .token .SHL8, .token .ADD]],
  [.lit [83, 69, 114, 114, 40, 41], .emitRet [.token .NUM, .wordVal 771, .token .PEEK]],
  [.lit [73, 110, 116], .call 39, .emitRet [.token (.other "FP_INT")]]
  ], false⟩

/-- A table after `syntax_optimize`, `/repo/src/compiler/synt-optimize.cc:88-125`. -/
def o50 : SM := ⟨50, [
  [.lit [35], .call 31, .ret]
  ], false⟩

/-- A table after `syntax_optimize`, `/repo/src/compiler/synt-optimize.cc:88-125`. -/
def o51 : SM := ⟨51, [
  [.emitRet [.token .ZERO, .token .IOCHN]]
  ], true⟩

/-- A table after `syntax_optimize`, `/repo/src/compiler/synt-optimize.cc:88-125`. -/
def o52 : SM := ⟨52, [
  [.call 50, .emit [.token .IOCHN], .lit [44], .ret],
  [.ret]
  ], true⟩

/-- A table after `syntax_optimize`, `/repo/src/compiler/synt-optimize.cc:88-125`. -/
def o53 : SM := ⟨53, [
  [.call 50, .emitRet [.token .IOCHN]],
  [.ret]
  ], true⟩

/-- A table after `syntax_optimize`, `/repo/src/compiler/synt-optimize.cc:88-125`. -/
def o54 : SM := ⟨54, [
  [.call 91, .call 28, .call 31, .emit [.token .VAR_STORE], .ext .POP_VAR, .ret],
  [.call 90, .call 28, .call 31, .emitRet [.token .DPOKE]],
  [.call 3, .emit [.token .SADDR], .call 28, .call 31, .emitRet [.token .POKE]],
  [.call 89, .call 28, .call 80, .emitRet [.token (.other "COPY_STR")]],
  [.call 89, .call 28, .lit [43], .call 80, .emitRet [.token (.other "CAT_STR")]],
  [.call 88, .call 28, .call 34, .emitRet [.token (.other "FP_STORE")]],
  [.ret]
  ], true⟩

/-- A table after `syntax_optimize`, `/repo/src/compiler/synt-optimize.cc:88-125`. -/
def o55 : SM := ⟨55, [
  [.lit [42], .call 73, .call 7, .emit [.token .MUL], .call 55, .ret],
  [.lit [47], .call 73, .call 7, .emit [.token .DIV], .call 55, .ret],
  [.lit [77, 111, 100], .call 73, .call 7, .emit [.token .MOD], .call 55, .ret],
  [.ret]
  ], true⟩

/-- A table after `syntax_optimize`, `/repo/src/compiler/synt-optimize.cc:88-125`. -/
def o56 : SM := ⟨56, [
  [.ext .VAR_WORD, .ret],
  [.emitRet [.byteVal 0]]
  ], true⟩

/-- A table after `syntax_optimize`, `/repo/src/compiler/synt-optimize.cc:88-125`. -/
def o57 : SM := ⟨57, [
  [.lit [78, 111, 116], .call 57, .emitRet [.token .L_NOT]],
  [.call 47, .call 11, .ret],
  [.call 80, .call 12, .ret],
  [.call 34, .call 10, .ret]
  ], false⟩

/-- A table after `syntax_optimize`, `/repo/src/compiler/synt-optimize.cc:88-125`. -/
def o58 : SM := ⟨58, [
  [.call 31, .call 30, .emitRet [.token .PUSH]],
  [.ret]
  ], true⟩

/-- A table after `syntax_optimize`, `/repo/src/compiler/synt-optimize.cc:88-125`. -/
def o59 : SM := ⟨59, [
  [.call 91, .call 59, .emit [.token (.other "POP"), .token .VAR_STORE], .ext .POP_VAR, .ret],
  [.ret]
  ], true⟩

/-- A table after `syntax_optimize`, `/repo/src/compiler/synt-optimize.cc:88-125`. -/
def o60 : SM := ⟨60, [
  [.lit [91], .emit [.token .PUSH], .call 31, .call 13, .lit [93], .emit [.token .STR_IDX], .call 60, .ret],
  [.lit [91], .emit [.token .PUSH], .call 31, .lit [93], .emit [.token .PUSH_BYTE, .byteVal 255, .token .STR_IDX], .call 60, .ret],
  [.ret]
  ], true⟩

/-- A table after `syntax_optimize`, `/repo/src/compiler/synt-optimize.cc:88-125`. -/
def o61 : SM := ⟨61, [
  [.call 63, .ret],
  [.call 2, .call 62, .ret]
  ], false⟩

/-- A table after `syntax_optimize`, `/repo/src/compiler/synt-optimize.cc:88-125`. -/
def o62 : SM := ⟨62, [
  [.call 63, .ret],
  [.ret]
  ], true⟩

/-- A table after `syntax_optimize`, `/repo/src/compiler/synt-optimize.cc:88-125`. -/
def o63 : SM := ⟨63, [
  [.lit [79, 114], .emit [.token .PUSH], .call 57, .call 1, .emit [.token .L_OR], .call 62, .ret]
  ], false⟩

/-- A table after `syntax_optimize`, `/repo/src/compiler/synt-optimize.cc:88-125`. -/
def o64 : SM := ⟨64, [
  [.call 77, .ext .EOL, .ret],
  [.call 54, .ext .EOL, .ret]
  ], false⟩

/-- A table after `syntax_optimize`, `/repo/src/compiler/synt-optimize.cc:88-125`. -/
def o65 : SM := ⟨65, [
  [.lit [40], .call 31, .lit [41], .ret]
  ], false⟩

/-- A table after `syntax_optimize`, `/repo/src/compiler/synt-optimize.cc:88-125`. -/
def o66 : SM := ⟨66, [
  [.call 31, .ret],
  [.ext .EOL, .emitRet [.token .ZERO]]
  ], false⟩

/-- A table after `syntax_optimize`, `/repo/src/compiler/synt-optimize.cc:88-125`. -/
def o67 : SM := ⟨67, [
  [.emit [.token .PUSH], .call 80, .emitRet [.token (.other "CMP_STR")]]
  ], false⟩

/-- A table after `syntax_optimize`, `/repo/src/compiler/synt-optimize.cc:88-125`. -/
def o68 : SM := ⟨68, [
  [.call 31, .call 13, .emitRet [.token (.other "POSITION")]]
  ], false⟩

/-- A table after `syntax_optimize`, `/repo/src/compiler/synt-optimize.cc:88-125`. -/
def o69 : SM := ⟨69, [
  [.ext .EOL, .emitRet [.token .BYTE_PUT, .byteVal 155]],
  [.call 70, .ret]
  ], false⟩

/-- A table after `syntax_optimize`, `/repo/src/compiler/synt-optimize.cc:88-125`. -/
def o70 : SM := ⟨70, [
  [.ext .EOL, .ret],
  [.call 72, .call 70, .ret],
  [.call 71, .emit [.token .PRINT_STR], .call 69, .ret]
  ], false⟩

/-- A table after `syntax_optimize`, `/repo/src/compiler/synt-optimize.cc:88-125`. -/
def o71 : SM := ⟨71, [
  [.call 31, .emitRet [.token (.other "INT_STR")]],
  [.call 80, .ret],
  [.call 34, .emitRet [.token (.other "FP_STR")]]
  ], false⟩

/-- A table after `syntax_optimize`, `/repo/src/compiler/synt-optimize.cc:88-125`. -/
def o72 : SM := ⟨72, [
  [.lit [84, 97, 98], .call 85, .emitRet [.token (.other "PRINT_TAB")]],
  [.lit [82, 84, 97, 98], .call 85, .emit [.token .BYTE_POKE, .byteSym [80, 82, 73, 78, 84, 95, 82, 84, 65, 66, 95, 65, 82, 71]], .call 71, .emit [.token (.other "PRINT_RTAB")], .call 69, .ret],
  [.lit [67, 111, 108, 111, 114], .call 85, .emit [.token .BYTE_POKE, .byteSym [80, 82, 73, 78, 84, 95, 67, 79, 76, 79, 82]], .call 70, .emitRet [.token .ZERO, .token .BYTE_POKE, .byteSym [80, 82, 73, 78, 84, 95, 67, 79, 76, 79, 82]]],
  [.lit [44], .emitRet [.token .BYTE, .byteVal 10, .token (.other "PRINT_TAB")]],
  [.lit [59], .ret]
  ], false⟩

/-- A table after `syntax_optimize`, `/repo/src/compiler/synt-optimize.cc:88-125`. -/
def o73 : SM := ⟨73, [
  [.emit [.token .PUSH], .call 85, .ret]
  ], false⟩

/-- A table after `syntax_optimize`, `/repo/src/compiler/synt-optimize.cc:88-125`. -/
def o74 : SM := ⟨74, [
  [.emit [.token .PUSH], .call 85, .emitRet [.token .BIT_AND, .token .ADD, .token .PEEK]]
  ], false⟩

/-- A table after `syntax_optimize`, `/repo/src/compiler/synt-optimize.cc:88-125`. -/
def o75 : SM := ⟨75, [
  [.call 76, .lit [44], .call 31, .emit [.token .PUSH], .call 32, .emitRet [.token .SHL8, .token .ADD, .token .DPOKE, .token .ZERO, .token .NUM_POKE, .wordVal 53768, .token .BYTE, .byteVal 3, .token .NUM_POKE, .wordVal 53775]],
  [.call 76, .emitRet [.token .ZERO, .token .DPOKE]],
  [.emitRet [.token .NUM, .wordSym [83, 79, 85, 78, 68, 95, 79, 70, 70], .token (.other "USR_ADDR"), .token (.other "USR_CALL")]]
  ], true⟩

/-- A table after `syntax_optimize`, `/repo/src/compiler/synt-optimize.cc:88-125`. -/
def o76 : SM := ⟨76, [
  [.call 31, .emitRet [.token .USHL, .token .PUSH_NUM, .wordVal 53760, .token .ADD, .token .SADDR]]
  ], false⟩

/-- A table after `syntax_optimize`, `/repo/src/compiler/synt-optimize.cc:88-125`. -/
def o77 : SM := ⟨77, [
  [.lit [46], .ext .REM, .ret],
  [.lit [63], .call 52, .call 69, .call 51, .ret],
  [.lit [80, 82, 73, 110, 116], .call 52, .call 69, .call 51, .ret],
  [.lit [73, 78, 112, 117, 116], .call 43, .call 45, .call 51, .ret],
  [.lit [71, 69, 116], .call 40, .ret],
  [.lit [80, 85, 116], .call 52, .call 31, .emit [.token .PUT], .call 51, .ret],
  [.lit [67, 76, 83], .call 53, .emit [.token .BYTE_PUT, .byteVal 125], .call 51, .ret],
  [.lit [80, 111, 107, 101], .call 31, .emit [.token .SADDR], .lit [44], .call 31, .emitRet [.token .POKE]],
  [.lit [68, 112, 111, 107, 101], .call 31, .emit [.token .SADDR], .lit [44], .call 31, .emitRet [.token .DPOKE]],
  [.lit [77, 83, 101, 116], .call 31, .call 13, .call 13, .emitRet [.token (.other "MSET")]],
  [.lit [77, 111, 118, 101], .call 31, .call 13, .call 13, .emitRet [.token (.other "MOVE")]],
  [.lit [45, 109, 111, 118, 101], .call 31, .call 13, .call 13, .emitRet [.token (.other "NMOVE")]],
  [.lit [68, 79], .ext .EOL, .emit [.byteSym [76, 84, 95, 68, 79, 95, 76, 79, 79, 80]], .ext .PUSH_LT, .ret],
  [.lit [76, 111, 111, 112], .ext .EOL, .emit [.token .JUMP], .ext .POP_LOOP, .ret],
  [.lit [82, 101, 112, 101, 97, 116], .ext .EOL, .emit [.byteSym [76, 84, 95, 82, 69, 80, 69, 65, 84]], .ext .PUSH_LT, .ret],
  [.lit [85, 110, 116, 105, 108], .call 33, .emit [.token .CJUMP], .ext .POP_REPEAT, .ret],
  [.lit [87, 104, 105, 108, 101], .emit [.byteSym [76, 84, 95, 87, 72, 73, 76, 69, 95, 49]], .ext .PUSH_LT, .call 33, .emit [.token .CJUMP, .byteSym [76, 84, 95, 87, 72, 73, 76, 69, 95, 50]], .ext .PUSH_LT, .ret],
  [.lit [87, 69, 110, 100], .ext .EOL, .emit [.token .JUMP], .ext .POP_WHILE, .ret],
  [.lit [73, 102], .call 33, .emit [.token .CJUMP, .byteSym [76, 84, 95, 73, 70]], .ext .PUSH_LT, .call 82, .ret],
  [.lit [70, 111, 114], .call 90, .call 28, .emit [.token .PUSH], .call 31, .emit [.token .DPOKE], .lit [84, 111], .call 31, .call 78, .emit [.token (.other "FOR"), .token .CNJUMP, .byteSym [76, 84, 95, 70, 79, 82, 95, 50]], .ext .PUSH_LT, .emit [.byteSym [76, 84, 95, 70, 79, 82, 95, 49]], .ext .PUSH_LT, .ret],
  [.lit [78, 101, 120, 116], .emit [.token (.other "FOR_NEXT"), .token .CJUMP], .call 56, .ext .EOL, .ext .POP_FOR, .emitRet [.token (.other "FOR_EXIT")]],
  [.lit [69, 76, 115, 101], .ext .EOL, .emit [.token .JUMP, .byteSym [76, 84, 95, 69, 76, 83, 69]], .ext .ELSEIF, .ret],
  [.lit [69, 76, 73, 102], .emit [.token .JUMP, .byteSym [76, 84, 95, 69, 76, 73, 70]], .ext .ELSEIF, .call 33, .emit [.token .CJUMP, .byteSym [76, 84, 95, 73, 70]], .ext .PUSH_LT, .ret],
  [.lit [69, 110, 100, 105, 102], .ext .EOL, .ext .POP_IF, .ret],
  [.lit [69, 88, 105, 116], .emit [.token .JUMP], .ext .EXIT_LOOP, .ret],
  [.lit [80, 79, 83, 105, 116, 105, 111, 110], .call 68, .ret],
  [.lit [68, 73, 109], .call 22, .call 21, .ret],
  [.lit [80, 65, 117, 115, 101], .call 66, .emitRet [.token (.other "PAUSE")]],
  [.lit [73, 78, 67], .call 90, .emitRet [.token .INC]],
  [.lit [68, 69, 99], .call 90, .emitRet [.token .DEC]],
  [.lit [80, 82, 111, 99], .ext .LABEL_CREATE, .emit [.token .JUMP], .ext .LABEL_DEF, .emit [.byteSym [76, 84, 95, 80, 82, 79, 67, 95, 50]], .ext .PUSH_LT, .call 59, .ret],
  [.lit [69, 78, 68, 80, 114, 111, 99], .ext .POP_PROC_2, .emit [.token .RET], .ext .POP_PROC_DATA, .ret],
  [.call 29, .ext .LABEL_CREATE, .call 58, .emit [.token .CALL], .ext .DO_EXEC, .ret],
  [.lit [68, 65, 116, 97], .call 19, .call 16, .ret],
  [.lit [69, 78, 68], .emitRet [.token .END]],
  [.lit [84, 105, 109, 101, 114], .emitRet [.token .ZERO, .token .BYTE_POKE, .byteVal 19, .token .ZERO, .token .BYTE_POKE, .byteVal 20]],
  [.lit [67, 76, 82], .emitRet [.token .NUM, .wordSym [67, 76, 69, 65, 82, 95, 68, 65, 84, 65], .token (.other "USR_ADDR"), .token (.other "USR_CALL")]],
  [.lit [68, 76, 105], .call 24, .ret],
  [.lit [71, 69, 116], .call 50, .emit [.token .IOCHN], .call 41, .ret],
  [.lit [67, 76, 111, 115, 101], .call 50, .emitRet [.token (.other "CLOSE")]],
  [.lit [79, 112, 101, 110], .call 50, .emit [.token .PUSH_BYTE, .byteVal 3], .call 92, .ret],
  [.lit [88, 105, 111], .call 50, .call 13, .call 92, .ret],
  [.lit [66, 80, 117, 116], .call 50, .call 13, .call 13, .emitRet [.token (.other "BPUT")]],
  [.lit [66, 71, 101, 116], .call 50, .call 13, .call 13, .emitRet [.token (.other "BGET")]],
  [.lit [80, 77, 71, 114, 97, 112, 104, 105, 99, 115], .call 31, .emitRet [.token (.other "PMGRAPHICS")]],
  [.lit [80, 77, 104, 112, 111, 115], .call 31, .emit [.token .PUSH_NUM, .wordVal 53248, .token .ADD, .token .SADDR], .lit [44], .call 31, .emitRet [.token .POKE]],
  [.lit [71, 114, 97, 112, 104, 105, 99, 115], .emit [.token .ZERO, .token (.other "PMGRAPHICS"), .token .BYTE, .byteVal 6, .token (.other "CLOSE")], .call 31, .emitRet [.token (.other "GRAPHICS")]],
  [.lit [67, 111, 108, 111, 114], .call 31, .emitRet [.token .BYTE_POKE, .byteSym [67, 79, 76, 79, 82]]],
  [.lit [70, 67, 111, 108, 111, 114], .call 31, .emitRet [.token .NUM_POKE, .wordVal 765]],
  [.lit [76, 79, 67, 97, 116, 101], .call 68, .emit [.token .BYTE, .byteVal 6, .token .IOCHN], .call 41, .ret],
  [.lit [80, 76, 111, 116], .call 68, .emit [.token .BYTE, .byteVal 6, .token .IOCHN, .token .BYTE_PEEK, .byteSym [67, 79, 76, 79, 82], .token .PUT], .call 51, .ret],
  [.lit [68, 82, 97, 119, 116, 111], .call 68, .emitRet [.token .BYTE, .byteVal 17, .token (.other "DRAWTO")]],
  [.lit [70, 73, 108, 108, 116, 111], .call 68, .emitRet [.token .BYTE, .byteVal 18, .token (.other "DRAWTO")]],
  [.lit [83, 69, 116, 99, 111, 108, 111, 114], .call 31, .emit [.token .PUSH_NUM, .wordVal 708, .token .ADD, .token .SADDR], .call 32, .emitRet [.token .POKE]],
  [.lit [83, 73, 111], .call 31, .emit [.token .NUM_POKE, .wordVal 768], .lit [44], .call 31, .emit [.token .NUM_POKE, .wordVal 769], .lit [44], .call 31, .emit [.token .NUM_POKE, .wordVal 770], .lit [44], .call 31, .emit [.token .NUM_POKE, .wordVal 771], .lit [44], .emit [.token .NUM, .wordVal 772, .token .SADDR], .call 31, .emit [.token .DPOKE], .lit [44], .call 31, .emit [.token .NUM_POKE, .wordVal 774], .lit [44], .emit [.token .NUM, .wordVal 776, .token .SADDR], .call 31, .emit [.token .DPOKE], .lit [44], .call 31, .emit [.token .NUM_POKE, .wordVal 778], .lit [44], .call 31, .emitRet [.token .NUM_POKE, .wordVal 779, .token .NUM, .wordVal 58457, .token (.other "USR_ADDR"), .token (.other "USR_CALL")]],
  [.lit [83, 111, 117, 110, 100], .call 75, .ret],
  [.lit [68, 69, 71], .emitRet [.token .ONE, .token .BYTE_POKE, .byteSym [68, 69, 71, 70, 76, 65, 71]]],
  [.lit [82, 65, 100], .emitRet [.token .ZERO, .token .BYTE_POKE, .byteSym [68, 69, 71, 70, 76, 65, 71]]],
  [.lit [78, 79, 112, 101, 110], .call 31, .emit [.token .NUM_POKE, .wordVal 769], .lit [44], .call 31, .emit [.token .NUM_POKE, .wordVal 778], .lit [44], .call 31, .emit [.token .NUM_POKE, .wordVal 779], .lit [44], .emit [.token .NUM, .wordVal 772, .token .SADDR], .call 80, .emitRet [.token .PUSH_1, .token .ADD, .token .DPOKE, .token .BYTE, .byteVal 113, .token .NUM_POKE, .wordVal 768, .token .BYTE, .byteVal 79, .token .NUM_POKE, .wordVal 770, .token .BYTE, .byteVal 128, .token .NUM_POKE, .wordVal 771, .token .BYTE, .byteVal 31, .token .NUM_POKE, .wordVal 774, .token .NUM, .wordVal 776, .token .SADDR, .token .NUM, .wordVal 256, .token .DPOKE, .token .NUM, .wordVal 58457, .token (.other "USR_ADDR"), .token (.other "USR_CALL")]],
  [.lit [78, 67, 108, 111, 115, 101], .call 31, .emitRet [.token .NUM_POKE, .wordVal 769, .token .BYTE, .byteVal 113, .token .NUM_POKE, .wordVal 768, .token .BYTE, .byteVal 67, .token .NUM_POKE, .wordVal 770, .token .BYTE, .byteVal 0, .token .NUM_POKE, .wordVal 771, .token .BYTE, .byteVal 31, .token .NUM_POKE, .wordVal 774, .token .NUM, .wordVal 776, .token .SADDR, .token .ZERO, .token .DPOKE, .token .NUM, .wordVal 58457, .token (.other "USR_ADDR"), .token (.other "USR_CALL")]],
  [.lit [78, 83, 116, 97, 116, 117, 115], .call 31, .emitRet [.token .NUM_POKE, .wordVal 769, .token .BYTE, .byteVal 113, .token .NUM_POKE, .wordVal 768, .token .BYTE, .byteVal 83, .token .NUM_POKE, .wordVal 770, .token .BYTE, .byteVal 64, .token .NUM_POKE, .wordVal 771, .token .BYTE, .byteVal 31, .token .NUM_POKE, .wordVal 774, .token .NUM, .wordVal 772, .token .SADDR, .token .NUM, .wordVal 746, .token .DPOKE, .token .BYTE, .byteVal 4, .token .NUM_POKE, .wordVal 776, .token .BYTE, .byteVal 0, .token .NUM_POKE, .wordVal 777, .token .NUM, .wordVal 58457, .token (.other "USR_ADDR"), .token (.other "USR_CALL")]],
  [.lit [78, 71, 101, 116], .call 31, .emit [.token .NUM_POKE, .wordVal 769], .lit [44], .emit [.token .NUM, .wordVal 772, .token .SADDR], .call 31, .emit [.token .DPOKE], .lit [44], .emit [.token .NUM, .wordVal 776, .token .SADDR], .call 31, .emitRet [.token .DPOKE, .token .NUM, .wordVal 778, .token .SADDR, .token .NUM, .wordVal 776, .token (.other "DPEEK"), .token .DPOKE, .token .BYTE, .byteVal 113, .token .NUM_POKE, .wordVal 768, .token .BYTE, .byteVal 82, .token .NUM_POKE, .wordVal 770, .token .BYTE, .byteVal 64, .token .NUM_POKE, .wordVal 771, .token .BYTE, .byteVal 31, .token .NUM_POKE, .wordVal 774, .token .NUM, .wordVal 58457, .token (.other "USR_ADDR"), .token (.other "USR_CALL")]],
  [.lit [78, 80, 117, 116], .call 31, .emit [.token .NUM_POKE, .wordVal 769], .lit [44], .emit [.token .NUM, .wordVal 772, .token .SADDR], .call 31, .emit [.token .DPOKE], .lit [44], .emit [.token .NUM, .wordVal 776, .token .SADDR], .call 31, .emitRet [.token .DPOKE, .token .NUM, .wordVal 778, .token .SADDR, .token .NUM, .wordVal 776, .token (.other "DPEEK"), .token .DPOKE, .token .BYTE, .byteVal 113, .token .NUM_POKE, .wordVal 768, .token .BYTE, .byteVal 87, .token .NUM_POKE, .wordVal 770, .token .BYTE, .byteVal 128, .token .NUM_POKE, .wordVal 771, .token .BYTE, .byteVal 31, .token .NUM_POKE, .wordVal 774, .token .NUM, .wordVal 58457, .token (.other "USR_ADDR"), .token (.other "USR_CALL")]]
  ], false⟩

/-- A table after `syntax_optimize`, `/repo/src/compiler/synt-optimize.cc:88-125`. -/
def o78 : SM := ⟨78, [
  [.lit [83, 116, 101, 112], .emit [.token .PUSH], .call 31, .ret],
  [.emitRet [.token .PUSH_1]]
  ], true⟩

/-- A table after `syntax_optimize`, `/repo/src/compiler/synt-optimize.cc:88-125`. -/
def o79 : SM := ⟨79, [
  [.lit [34], .emit [.token .CSTRING], .ext .CONST_STRING, .ret],
  [.lit [67, 72, 82, 36], .call 85, .emitRet [.token .CHR]],
  [.lit [83, 84, 82, 36], .call 85, .emitRet [.token (.other "INT_STR")]],
  [.lit [36], .call 65, .ret],
  [.emit [.token .VAR_LOAD, .byteSym [86, 84, 95, 83, 84, 82, 73, 78, 71]], .ext .VAR_SEARCH, .lit [36], .ret],
  [.call 5, .emitRet [.token (.other "DPEEK")]],
  [.lit [83, 84, 82, 36], .call 39, .emitRet [.token (.other "FP_STR")]]
  ], false⟩

/-- A table after `syntax_optimize`, `/repo/src/compiler/synt-optimize.cc:88-125`. -/
def o80 : SM := ⟨80, [
  [.lit [40], .call 80, .lit [41], .ret],
  [.call 79, .call 60, .ret]
  ], false⟩

/-- A table after `syntax_optimize`, `/repo/src/compiler/synt-optimize.cc:88-125`. -/
def o81 : SM := ⟨81, [
  [.emit [.token .COMP_0], .call 61, .ret],
  [.emit [.token .PUSH], .call 9, .call 1, .call 62, .call 8, .ret],
  [.emit [.token (.other "INT_FP")], .call 10, .call 62, .call 1, .call 8, .ret],
  [.ret]
  ], true⟩

/-- A table after `syntax_optimize`, `/repo/src/compiler/synt-optimize.cc:88-125`. -/
def o82 : SM := ⟨82, [
  [.lit [84, 104, 101, 110], .call 64, .ext .POP_IF, .ret],
  [.ret]
  ], true⟩

/-- A table after `syntax_optimize`, `/repo/src/compiler/synt-optimize.cc:88-125`. -/
def o83 : SM := ⟨83, [
  [.lit [66, 121, 116, 101], .emitRet [.byteSym [86, 84, 95, 65, 82, 82, 65, 89, 95, 66, 89, 84, 69]]]
  ], false⟩

/-- A table after `syntax_optimize`, `/repo/src/compiler/synt-optimize.cc:88-125`. -/
def o84 : SM := ⟨84, [
  [.lit [87, 111, 114, 100], .emitRet [.byteSym [86, 84, 95, 65, 82, 82, 65, 89, 95, 87, 79, 82, 68]]],
  [.emitRet [.byteSym [86, 84, 95, 65, 82, 82, 65, 89, 95, 87, 79, 82, 68]]]
  ], true⟩

/-- A table after `syntax_optimize`, `/repo/src/compiler/synt-optimize.cc:88-125`. -/
def o85 : SM := ⟨85, [
  [.emit [.token .BYTE], .ext .NUMBER_BYTE, .ret],
  [.emit [.token .NUM], .ext .NUMBER_WORD, .ret],
  [.lit [45], .call 85, .emitRet [.token .NEG]],
  [.lit [43], .call 85, .ret],
  [.call 65, .ret],
  [.call 49, .ret]
  ], false⟩

/-- A table after `syntax_optimize`, `/repo/src/compiler/synt-optimize.cc:88-125`. -/
def o86 : SM := ⟨86, [
  [.lit [44], .call 31, .emit [.token (.other "USR_PARAM")], .call 86, .ret],
  [.ret]
  ], true⟩

/-- A table after `syntax_optimize`, `/repo/src/compiler/synt-optimize.cc:88-125`. -/
def o87 : SM := ⟨87, [
  [.lit [36], .emitRet [.byteSym [86, 84, 95, 83, 84, 82, 73, 78, 71]]],
  [.lit [37], .emitRet [.byteSym [86, 84, 95, 70, 76, 79, 65, 84]]],
  [.emitRet [.byteSym [86, 84, 95, 87, 79, 82, 68]]]
  ], true⟩

/-- A table after `syntax_optimize`, `/repo/src/compiler/synt-optimize.cc:88-125`. -/
def o88 : SM := ⟨88, [
  [.emit [.token .VAR_SADDR, .byteSym [86, 84, 95, 70, 76, 79, 65, 84]], .ext .VAR_SEARCH, .lit [37], .ret],
  [.call 4, .emitRet [.token .SADDR]]
  ], false⟩

/-- A table after `syntax_optimize`, `/repo/src/compiler/synt-optimize.cc:88-125`. -/
def o89 : SM := ⟨89, [
  [.emit [.token .VAR_SADDR, .byteSym [86, 84, 95, 83, 84, 82, 73, 78, 71]], .ext .VAR_SEARCH, .lit [36], .ret],
  [.call 5, .emitRet [.token .SADDR]]
  ], false⟩

/-- A table after `syntax_optimize`, `/repo/src/compiler/synt-optimize.cc:88-125`. -/
def o90 : SM := ⟨90, [
  [.call 6, .emitRet [.token .SADDR]],
  [.ext .VAR_CREATE, .call 87, .ext .VAR_SET_TYPE, .ret],
  [.emit [.token .VAR_SADDR], .ext .VAR_WORD, .ret]
  ], false⟩

/-- A table after `syntax_optimize`, `/repo/src/compiler/synt-optimize.cc:88-125`. -/
def o91 : SM := ⟨91, [
  [.ext .VAR_CREATE, .call 87, .ext .VAR_SET_TYPE, .ret],
  [.ext .VAR_WORD, .ext .PUSH_VAR, .ret]
  ], false⟩

/-- A table after `syntax_optimize`, `/repo/src/compiler/synt-optimize.cc:88-125`. -/
def o92 : SM := ⟨92, [
  [.call 13, .call 13, .emit [.token .SHL8, .token .ADD, .token .PUSH], .lit [44], .call 80, .emitRet [.token (.other "XIO")]]
  ], false⟩

/-- The tables after `syntax_optimize`, `/repo/src/compiler/synt-optimize.cc:88-125`. -/
def opt : SMs := [o0, o1, o2, o3, o4, o5, o6, o7, o8, o9, o10, o11, o12, o13, o14, o15, o16, o18, o19, o20, o21, o22, o23, o24, o25, o26, o27, o28, o29, o30, o31, o32, o33, o34, o35, o36, o38, o39, o40, o41, o42, o43, o44, o45, o46, o47, o48, o49, o50, o51, o52, o53, o54, o55, o56, o57, o58, o59, o60, o61, o62, o63, o64, o65, o66, o67, o68, o69, o70, o71, o72, o73, o74, o75, o76, o77, o78, o79, o80, o81, o82, o83, o84, o85, o86, o87, o88, o89, o90, o91, o92]

end FB.Syn.NativeFp
