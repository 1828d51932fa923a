import Verif.Syn.Tables

/-!
# Parsing tables of the native compiler, `native-fp`

Generated by `tools/gen_grammar.py` from the files of `SYNTAX_FP` in `/repo/Makefile:611-625`: a800.syn basic.syn dli.syn fileio.syn pm.syn graphics.syn sio.syn sound.syn float.syn fujinet.syn.
These are the tables as read, before `syntax_optimize`, in the order of the map `sms` (by name) and numbered in this order. Do not edit.
-/

namespace FB.Syn.NativeFp
open FB.Parse (Str Act)

/-- Symbol `BASIC_TOP`. -/
def y_BASIC_TOP : Str := [66, 65, 83, 73, 67, 95, 84, 79, 80]
/-- Symbol `CLEAR_DATA`. -/
def y_CLEAR_DATA : Str := [67, 76, 69, 65, 82, 95, 68, 65, 84, 65]
/-- Symbol `COLOR`. -/
def y_COLOR : Str := [67, 79, 76, 79, 82]
/-- Symbol `DEGFLAG`. -/
def y_DEGFLAG : Str := [68, 69, 71, 70, 76, 65, 71]
/-- Symbol `IOERROR`. -/
def y_IOERROR : Str := [73, 79, 69, 82, 82, 79, 82]
/-- Symbol `LT_DO_LOOP`. -/
def y_LT_DO_LOOP : Str := [76, 84, 95, 68, 79, 95, 76, 79, 79, 80]
/-- Symbol `LT_ELIF`. -/
def y_LT_ELIF : Str := [76, 84, 95, 69, 76, 73, 70]
/-- Symbol `LT_ELSE`. -/
def y_LT_ELSE : Str := [76, 84, 95, 69, 76, 83, 69]
/-- Symbol `LT_FOR_1`. -/
def y_LT_FOR_1 : Str := [76, 84, 95, 70, 79, 82, 95, 49]
/-- Symbol `LT_FOR_2`. -/
def y_LT_FOR_2 : Str := [76, 84, 95, 70, 79, 82, 95, 50]
/-- Symbol `LT_IF`. -/
def y_LT_IF : Str := [76, 84, 95, 73, 70]
/-- Symbol `LT_PROC_2`. -/
def y_LT_PROC_2 : Str := [76, 84, 95, 80, 82, 79, 67, 95, 50]
/-- Symbol `LT_REPEAT`. -/
def y_LT_REPEAT : Str := [76, 84, 95, 82, 69, 80, 69, 65, 84]
/-- Symbol `LT_WHILE_1`. -/
def y_LT_WHILE_1 : Str := [76, 84, 95, 87, 72, 73, 76, 69, 95, 49]
/-- Symbol `LT_WHILE_2`. -/
def y_LT_WHILE_2 : Str := [76, 84, 95, 87, 72, 73, 76, 69, 95, 50]
/-- Symbol `MEMTOP`. -/
def y_MEMTOP : Str := [77, 69, 77, 84, 79, 80]
/-- Symbol `PMGBASE`. -/
def y_PMGBASE : Str := [80, 77, 71, 66, 65, 83, 69]
/-- Symbol `PMGMODE`. -/
def y_PMGMODE : Str := [80, 77, 71, 77, 79, 68, 69]
/-- Symbol `PRINT_COLOR`. -/
def y_PRINT_COLOR : Str := [80, 82, 73, 78, 84, 95, 67, 79, 76, 79, 82]
/-- Symbol `PRINT_RTAB_ARG`. -/
def y_PRINT_RTAB_ARG : Str := [80, 82, 73, 78, 84, 95, 82, 84, 65, 66, 95, 65, 82, 71]
/-- Symbol `SOUND_OFF`. -/
def y_SOUND_OFF : Str := [83, 79, 85, 78, 68, 95, 79, 70, 70]
/-- Symbol `VT_ARRAY_BYTE`. -/
def y_VT_ARRAY_BYTE : Str := [86, 84, 95, 65, 82, 82, 65, 89, 95, 66, 89, 84, 69]
/-- Symbol `VT_ARRAY_FLOAT`. -/
def y_VT_ARRAY_FLOAT : Str := [86, 84, 95, 65, 82, 82, 65, 89, 95, 70, 76, 79, 65, 84]
/-- Symbol `VT_ARRAY_STRING`. -/
def y_VT_ARRAY_STRING : Str := [86, 84, 95, 65, 82, 82, 65, 89, 95, 83, 84, 82, 73, 78, 71]
/-- Symbol `VT_ARRAY_WORD`. -/
def y_VT_ARRAY_WORD : Str := [86, 84, 95, 65, 82, 82, 65, 89, 95, 87, 79, 82, 68]
/-- Symbol `VT_FLOAT`. -/
def y_VT_FLOAT : Str := [86, 84, 95, 70, 76, 79, 65, 84]
/-- Symbol `VT_STRING`. -/
def y_VT_STRING : Str := [86, 84, 95, 83, 84, 82, 73, 78, 71]
/-- Symbol `VT_WORD`. -/
def y_VT_WORD : Str := [86, 84, 95, 87, 79, 82, 68]

/-- Table `ADR_EXPR`. -/
def t0 : SM := ⟨0, [
  [.call 80, .ret],
  [.emit [.token .VAR_LOAD, .byteSym y_VT_ARRAY_WORD], .ext .VAR_SEARCH, .ret],
  [.emit [.token .VAR_LOAD, .byteSym y_VT_ARRAY_BYTE], .ext .VAR_SEARCH, .ret],
  [.emit [.token .NUM, .byteSym y_VT_ARRAY_WORD], .ext .LABEL, .ret],
  [.emit [.token .NUM, .byteSym y_VT_ARRAY_BYTE], .ext .LABEL, .ret],
  [.emit [.token .VAR_LOAD, .byteSym y_VT_ARRAY_STRING], .ext .VAR_SEARCH, .ret],
  [.emit [.token .VAR_ADDR], .ext .VAR_WORD, .ret],
  [.emit [.token .VAR_LOAD, .byteSym y_VT_ARRAY_FLOAT], .ext .VAR_SEARCH, .lit [37], .ret],
  [.emit [.token .VAR_ADDR, .byteSym y_VT_FLOAT], .ext .VAR_SEARCH, .lit [37], .ret]
  ], false⟩

/-- Table `AND_EXPR_MORE`. -/
def t1 : SM := ⟨1, [
  [.call 2, .ret],
  [.ret]
  ], true⟩

/-- Table `AND_EXPR_RIGHT`. -/
def t2 : SM := ⟨2, [
  [.lit [65, 110, 100], .emit [.token .PUSH], .call 57, .emit [.token .L_AND], .call 1, .ret]
  ], false⟩

/-- Table `ARRAY_BYTE_ADDR`. -/
def t3 : SM := ⟨3, [
  [.emit [.token .VAR_LOAD, .byteSym y_VT_ARRAY_BYTE], .ext .VAR_SEARCH, .emit [.token .PUSH], .call 65, .emit [.token .ADD], .ret],
  [.emit [.token .NUM, .byteSym y_VT_ARRAY_BYTE], .ext .LABEL, .emit [.token .PUSH], .call 65, .emit [.token .ADD], .ret]
  ], false⟩

/-- Table `ARRAY_FLOAT_ADDR`. -/
def t4 : SM := ⟨4, [
  [.emit [.token .VAR_LOAD, .byteSym y_VT_ARRAY_FLOAT], .ext .VAR_SEARCH, .lit [37], .emit [.token .PUSH], .call 65, .emit [.token (.other "MUL6"), .token .ADD], .ret]
  ], false⟩

/-- Table `ARRAY_STRING_ADDR`. -/
def t5 : SM := ⟨5, [
  [.emit [.token .VAR_LOAD, .byteSym y_VT_ARRAY_STRING], .ext .VAR_SEARCH, .lit [36], .emit [.token .PUSH], .call 65, .emit [.token .USHL, .token .ADD], .ret]
  ], false⟩

/-- Table `ARRAY_WORD_ADDR`. -/
def t6 : SM := ⟨6, [
  [.emit [.token .VAR_LOAD, .byteSym y_VT_ARRAY_WORD], .ext .VAR_SEARCH, .emit [.token .PUSH], .call 65, .emit [.token .USHL, .token .ADD], .ret],
  [.emit [.token .NUM, .byteSym y_VT_ARRAY_WORD], .ext .LABEL, .emit [.token .PUSH], .call 65, .emit [.token .USHL, .token .ADD], .ret]
  ], false⟩

/-- Table `BIT_EXPR_MORE`. -/
def t7 : SM := ⟨7, [
  [.lit [38], .call 73, .emit [.token .BIT_AND], .call 7, .ret],
  [.lit [33], .call 73, .emit [.token .BIT_OR], .call 7, .ret],
  [.lit [69, 120, 111, 114], .call 73, .emit [.token .BIT_EXOR], .call 7, .ret],
  [.ret]
  ], true⟩

/-- Table `COMP_EXPR_MORE`. -/
def t8 : SM := ⟨8, [
  [.emit [.token .PUSH], .call 9, .call 8, .ret],
  [.ret]
  ], true⟩

/-- Table `COMP_EXPR_RIGHT`. -/
def t9 : SM := ⟨9, [
  [.lit [60, 61], .call 47, .emit [.token .GT, .token .L_NOT], .ret],
  [.lit [62, 61], .call 47, .emit [.token .LT, .token .L_NOT], .ret],
  [.lit [60, 62], .call 47, .emit [.token .NEQ], .ret],
  [.lit [60], .call 47, .emit [.token .LT], .ret],
  [.lit [62], .call 47, .emit [.token .GT], .ret],
  [.lit [61], .call 47, .emit [.token .EQ], .ret]
  ], false⟩

/-- Table `COMP_FP_RIGHT`. -/
def t10 : SM := ⟨10, [
  [.lit [61], .call 34, .emit [.token (.other "FP_CMP"), .token .EQ], .ret],
  [.lit [62], .call 34, .emit [.token (.other "FP_CMP"), .token .GT], .ret],
  [.lit [62, 61], .call 34, .emit [.token (.other "FP_CMP"), .token .LT, .token .L_NOT], .ret],
  [.lit [60, 62], .call 34, .emit [.token (.other "FP_CMP"), .token .NEQ], .ret],
  [.lit [60, 61], .call 34, .emit [.token (.other "FP_CMP"), .token .GT, .token .L_NOT], .ret],
  [.lit [60], .call 34, .emit [.token (.other "FP_CMP"), .token .LT], .ret]
  ], false⟩

/-- Table `COMP_OR_BOOL`. -/
def t11 : SM := ⟨11, [
  [.emit [.token .PUSH], .call 9, .call 8, .ret],
  [.emit [.token (.other "INT_FP")], .call 10, .call 8, .ret],
  [.emit [.token .COMP_0], .ret]
  ], true⟩

/-- Table `COMP_STR_RIGHT`. -/
def t12 : SM := ⟨12, [
  [.lit [61], .call 67, .emit [.token .EQ], .ret],
  [.lit [62], .call 67, .emit [.token .GT], .ret],
  [.lit [62, 61], .call 67, .emit [.token .LT, .token .L_NOT], .ret],
  [.lit [60, 62], .call 67, .emit [.token .NEQ], .ret],
  [.lit [60, 61], .call 67, .emit [.token .GT, .token .L_NOT], .ret],
  [.lit [60], .call 67, .emit [.token .LT], .ret]
  ], false⟩

/-- Table `C_EXPR`. -/
def t13 : SM := ⟨13, [
  [.lit [44], .emit [.token .PUSH], .call 31, .ret]
  ], false⟩

/-- Table `DATA_BYTE`. -/
def t14 : SM := ⟨14, [
  [.lit [34], .ext .CONST_STRING, .ret],
  [.ext .NUMBER_BYTE, .ret],
  [.emit [.byteSym y_VT_ARRAY_BYTE], .ext .LABEL, .ret]
  ], false⟩

/-- Table `DATA_BYTES`. -/
def t15 : SM := ⟨15, [
  [.call 14, .lit [44], .call 15, .ret],
  [.call 14, .ret]
  ], false⟩

/-- Table `DATA_END`. -/
def t16 : SM := ⟨16, [
  [.lit [44], .ret],
  [.ext .POP_PROC_DATA, .ret]
  ], false⟩

/-- Table `DATA_EXT_TYPE`. -/
def t17 : SM := ⟨17, [
  [.ret]
  ], true⟩

/-- Table `DATA_TYPE`. -/
def t18 : SM := ⟨18, [
  [.call 83, .call 17, .call 28, .ext .LABEL_SET_TYPE, .call 15, .ret],
  [.call 84, .call 17, .call 28, .ext .LABEL_SET_TYPE, .ext .NUMBER_WORD, .call 20, .ret]
  ], false⟩

/-- Table `DATA_VAR`. -/
def t19 : SM := ⟨19, [
  [.call 18, .ret],
  [.ext .LABEL_CREATE, .lit [40, 41], .emit [.token .JUMP], .ext .LABEL_DEF, .call 18, .ret]
  ], false⟩

/-- Table `DATA_WORDS`. -/
def t20 : SM := ⟨20, [
  [.lit [44], .ext .NUMBER_WORD, .call 20, .ret],
  [.ret]
  ], true⟩

/-- Table `DIM_MORE`. -/
def t21 : SM := ⟨21, [
  [.lit [44], .call 22, .call 21, .ret],
  [.ret]
  ], true⟩

/-- Table `DIM_VAR`. -/
def t22 : SM := ⟨22, [
  [.ext .VAR_CREATE, .ext .PUSH_VAR, .call 23, .ext .VAR_SET_TYPE, .emit [.token (.other "DIM")], .ext .POP_VAR, .ret],
  [.ext .VAR_WORD, .ext .PUSH_VAR, .ret],
  [.emit [.byteSym y_VT_STRING], .ext .VAR_SEARCH, .lit [36], .ext .PUSH_VAR, .ret],
  [.emit [.byteSym y_VT_FLOAT], .ext .VAR_SEARCH, .lit [37], .ext .PUSH_VAR, .ret]
  ], false⟩

/-- Table `DIM_VAR_TYPE`. -/
def t23 : SM := ⟨23, [
  [.lit [37], .call 65, .emit [.token .PUSH_1, .token .ADD, .token (.other "MUL6"), .byteSym y_VT_ARRAY_FLOAT], .ret],
  [.lit [36], .call 65, .emit [.token .PUSH_1, .token .ADD, .token .USHL, .byteSym y_VT_ARRAY_STRING], .ret],
  [.call 65, .emit [.token .PUSH_1, .token .ADD], .call 83, .ret],
  [.call 65, .emit [.token .PUSH_1, .token .ADD, .token .USHL], .call 84, .ret],
  [.call 87, .ret]
  ], false⟩

/-- Table `DLI_COMMAND`. -/
def t24 : SM := ⟨24, [
  [.lit [83, 101, 116], .ext .LABEL_CREATE, .emit [.token .JUMP], .ext .LABEL_DEF, .emit [.byteSym y_VT_ARRAY_BYTE], .ext .LABEL_SET_TYPE, .emit [.byteVal 72, .byteVal 138, .byteVal 72, .byteVal 166, .byteVal 79], .call 28, .call 25, .emit [.byteVal 141, .wordVal 54282], .call 27, .call 26, .ret],
  [.call 28, .call 25, .call 27, .call 26, .ret],
  [.emit [.token .ZERO, .token (.other "PAUSE"), .token .NUM, .wordVal 512, .token .SADDR, .token .NUM, .byteSym y_VT_ARRAY_BYTE], .ext .LABEL, .emit [.token .DPOKE, .token .BYTE, .byteVal 192, .token .NUM_POKE, .wordVal 54286], .ret],
  [.emit [.token .BYTE, .byteVal 64, .token .NUM_POKE, .wordVal 54286], .ret]
  ], true⟩

/-- Table `DLI_LDA`. -/
def t25 : SM := ⟨25, [
  [.emit [.byteVal 189, .byteSym y_VT_ARRAY_BYTE], .ext .LABEL, .ret],
  [.emit [.byteVal 169], .ext .NUMBER_BYTE, .ret]
  ], false⟩

/-- Table `DLI_MORE`. -/
def t26 : SM := ⟨26, [
  [.call 27, .call 26, .ret],
  [.lit [44], .call 25, .call 27, .call 26, .ret],
  [.lit [44], .ret],
  [.emit [.byteVal 230, .byteVal 79, .byteVal 104, .byteVal 170, .byteVal 104, .byteVal 64], .ext .POP_PROC_DATA, .ret]
  ], false⟩

/-- Table `DLI_STA`. -/
def t27 : SM := ⟨27, [
  [.lit [73, 110, 116, 111], .emit [.byteVal 141], .ext .NUMBER_WORD, .ret],
  [.lit [87, 115, 121, 110, 99], .emit [.byteVal 141, .wordVal 54282], .call 27, .ret]
  ], false⟩

/-- Table `EQUAL`. -/
def t28 : SM := ⟨28, [
  [.lit [61], .ret]
  ], false⟩

/-- Table `EXEC_CALL`. -/
def t29 : SM := ⟨29, [
  [.lit [69, 88, 69, 99], .ret],
  [.lit [64], .ret]
  ], false⟩

/-- Table `EXEC_PARAM_MORE`. -/
def t30 : SM := ⟨30, [
  [.call 13, .call 30, .ret],
  [.ret]
  ], true⟩

/-- Table `EXPR`. -/
def t31 : SM := ⟨31, [
  [.call 47, .call 81, .ret],
  [.call 80, .call 12, .ret],
  [.call 34, .call 10, .ret]
  ], false⟩

/-- Table `EXPR_AB`. -/
def t32 : SM := ⟨32, [
  [.lit [44], .call 31, .emit [.token .USHL, .token .USHL, .token .USHL, .token .USHL], .call 13, .emit [.token .ADD], .ret]
  ], false⟩

/-- Table `FORCE_BOOL_EXPR`. -/
def t33 : SM := ⟨33, [
  [.call 57, .call 1, .call 62, .ret]
  ], false⟩

/-- Table `FP_EXPR`. -/
def t34 : SM := ⟨34, [
  [.call 39, .call 36, .call 38, .call 35, .ret]
  ], false⟩

/-- Table `FP_EXPR_MORE`. -/
def t35 : SM := ⟨35, [
  [.lit [43], .call 39, .call 36, .call 38, .emit [.token (.other "FP_ADD")], .call 35, .ret],
  [.lit [45], .call 39, .call 36, .call 38, .emit [.token (.other "FP_SUB")], .call 35, .ret],
  [.ret]
  ], true⟩

/-- Table `FP_E_EXPR_MORE`. -/
def t36 : SM := ⟨36, [
  [.lit [94], .call 85, .emit [.token (.other "FP_IPOW")], .call 36, .ret],
  [.lit [94], .emit [.token (.other "FP_LOG10")], .call 39, .emit [.token (.other "FP_MUL"), .token (.other "FP_EXP10")], .call 36, .ret],
  [.ret]
  ], true⟩

/-- Table `FP_FUNCS`. -/
def t37 : SM := ⟨37, [
  [.lit [65, 98, 115], .call 39, .emit [.token (.other "FP_ABS")], .ret],
  [.lit [65, 84, 110], .call 39, .emit [.token (.other "FP_ATN")], .ret],
  [.lit [83, 71, 110], .call 39, .emit [.token (.other "FP_SGN")], .ret],
  [.lit [69, 88, 112, 49, 48], .call 39, .emit [.token (.other "FP_EXP10")], .ret],
  [.lit [69, 88, 80], .call 39, .emit [.token (.other "FP_EXP")], .ret],
  [.lit [76, 79, 103, 49, 48], .call 39, .emit [.token (.other "FP_LOG10")], .ret],
  [.lit [76, 79, 71], .call 39, .emit [.token (.other "FP_LOG")], .ret],
  [.lit [83, 81, 114], .call 39, .emit [.token (.other "FP_SQRT")], .ret],
  [.lit [83, 73, 110], .call 39, .emit [.token (.other "FP_SIN")], .ret],
  [.lit [67, 79, 115], .call 39, .emit [.token (.other "FP_COS")], .ret],
  [.lit [86, 97, 108], .call 80, .emit [.token (.other "FP_VAL")], .ret],
  [.lit [82, 78, 100, 40, 41], .emit [.token (.other "FP_RND")], .ret],
  [.lit [37, 84, 105, 109, 101], .emit [.token (.other "FP_TIME")], .ret],
  [.lit [37], .call 65, .emit [.token (.other "FP_LOAD")], .ret]
  ], false⟩

/-- Table `FP_M_EXPR_MORE`. -/
def t38 : SM := ⟨38, [
  [.lit [42], .call 39, .call 36, .emit [.token (.other "FP_MUL")], .call 38, .ret],
  [.lit [47], .call 39, .call 36, .emit [.token (.other "FP_DIV")], .call 38, .ret],
  [.ret]
  ], true⟩

/-- Table `FP_T_EXPR`. -/
def t39 : SM := ⟨39, [
  [.emit [.token (.other "FLOAT")], .ext .NUMBER_FP, .ret],
  [.lit [45], .call 39, .emit [.token (.other "FP_NEG")], .ret],
  [.lit [43], .call 39, .ret],
  [.call 37, .ret],
  [.lit [40], .call 34, .lit [41], .ret],
  [.call 4, .emit [.token (.other "FP_LOAD")], .ret],
  [.emit [.token .VAR_ADDR, .byteSym y_VT_FLOAT], .ext .VAR_SEARCH, .lit [37], .emit [.token (.other "FP_LOAD")], .ret],
  [.call 49, .emit [.token (.other "INT_FP")], .ret]
  ], false⟩

/-- Table `GETK_EXPR`. -/
def t40 : SM := ⟨40, [
  [.call 3, .emit [.token .SADDR, .token .GETKEY, .token .POKE], .ret],
  [.call 90, .emit [.token .GETKEY, .token .DPOKE], .ret]
  ], false⟩

/-- Table `GET_EXPR`. -/
def t41 : SM := ⟨41, [
  [.lit [44], .call 3, .emit [.token .SADDR, .token .GET, .token .POKE], .call 42, .ret],
  [.lit [44], .call 90, .emit [.token .GET, .token .DPOKE], .call 42, .ret]
  ], false⟩

/-- Table `GET_EXPR_MORE`. -/
def t42 : SM := ⟨42, [
  [.call 41, .ret],
  [.call 51, .ret]
  ], false⟩

/-- Table `INPUT_STR`. -/
def t43 : SM := ⟨43, [
  [.call 50, .emit [.token .IOCHN], .lit [44], .ret],
  [.lit [34], .emit [.token .CSTRING], .ext .CONST_STRING, .emit [.token .PRINT_STR], .call 72, .ret],
  [.lit [59], .ret],
  [.emit [.token .BYTE_PUT, .byteVal 63], .ret]
  ], true⟩

/-- Table `INPUT_VAR`. -/
def t44 : SM := ⟨44, [
  [.call 90, .emit [.token (.other "INPUT_STR"), .token (.other "VAL"), .token .DPOKE], .ret],
  [.call 3, .emit [.token .SADDR, .token (.other "INPUT_STR"), .token (.other "VAL"), .token .POKE], .ret],
  [.call 89, .emit [.token (.other "INPUT_STR"), .token (.other "COPY_STR")], .ret],
  [.call 88, .emit [.token (.other "INPUT_STR"), .token (.other "FP_VAL"), .token (.other "FP_STORE")], .ret]
  ], false⟩

/-- Table `INPUT_VAR_LIST`. -/
def t45 : SM := ⟨45, [
  [.call 44, .call 46, .ret]
  ], false⟩

/-- Table `INPUT_VAR_MORE`. -/
def t46 : SM := ⟨46, [
  [.lit [44], .call 45, .ret],
  [.ret]
  ], true⟩

/-- Table `INT_EXPR`. -/
def t47 : SM := ⟨47, [
  [.call 85, .call 7, .call 55, .call 48, .ret]
  ], false⟩

/-- Table `INT_EXPR_MORE`. -/
def t48 : SM := ⟨48, [
  [.lit [43], .call 73, .call 7, .call 55, .emit [.token .ADD], .call 48, .ret],
  [.lit [45], .call 73, .call 7, .call 55, .emit [.token .SUB], .call 48, .ret],
  [.ret]
  ], true⟩

/-- Table `INT_FUNCTIONS`. -/
def t49 : SM := ⟨49, [
  [.lit [78, 111, 116], .call 57, .emit [.token .L_NOT], .ret],
  [.lit [84, 105, 109, 101], .emit [.token (.other "TIME")], .ret],
  [.call 6, .emit [.token (.other "DPEEK")], .ret],
  [.call 3, .emit [.token .PEEK], .ret],
  [.lit [70, 114, 101, 40, 41], .emit [.token .NUM, .wordSym y_MEMTOP, .token (.other "DPEEK"), .token .PUSH_BYTE, .byteSym y_BASIC_TOP, .token (.other "DPEEK"), .token .SUB], .ret],
  [.lit [69, 114, 114, 40, 41], .emit [.token .BYTE_PEEK, .byteSym y_IOERROR], .ret],
  [.lit [75, 101, 121, 40, 41], .emit [.token .NUM, .wordVal 764, .token .PEEK, .token .PUSH_BYTE, .byteVal 255, .token .BIT_EXOR], .ret],
  [.emit [.token .VAR_LOAD], .ext .VAR_WORD, .ret],
  [.lit [65, 98, 115], .call 85, .emit [.token (.other "ABS")], .ret],
  [.lit [83, 71, 110], .call 85, .emit [.token (.other "SGN")], .ret],
  [.lit [80, 101, 101, 107], .call 85, .emit [.token .PEEK], .ret],
  [.lit [80, 65, 100, 100, 108, 101], .emit [.token .NUM, .wordVal 624, .token .PUSH_BYTE, .byteVal 7], .call 74, .ret],
  [.lit [80, 84, 114, 105, 103], .emit [.token .NUM, .wordVal 636, .token .PUSH_BYTE, .byteVal 7], .call 74, .ret],
  [.lit [83, 116, 105, 99, 107], .emit [.token .NUM, .wordVal 632, .token .PUSH_BYTE, .byteVal 3], .call 74, .ret],
  [.lit [83, 84, 82, 105, 103], .emit [.token .NUM, .wordVal 644, .token .PUSH_BYTE, .byteVal 3], .call 74, .ret],
  [.lit [82, 97, 110, 100], .call 85, .emit [.token (.other "RAND")], .ret],
  [.lit [68, 112, 101, 101, 107], .call 85, .emit [.token (.other "DPEEK")], .ret],
  [.lit [85, 83, 82, 40], .call 31, .emit [.token (.other "USR_ADDR")], .call 86, .lit [41], .emit [.token (.other "USR_CALL")], .ret],
  [.lit [65, 68, 82, 40], .call 0, .lit [41], .ret],
  [.lit [38], .call 0, .ret],
  [.lit [76, 101, 110], .call 80, .emit [.token .PEEK], .ret],
  [.lit [86, 97, 108], .call 80, .emit [.token (.other "VAL")], .ret],
  [.lit [65, 83, 99], .call 80, .emit [.token .PUSH_1, .token .ADD, .token .PEEK], .ret],
  [.lit [80, 77, 97, 100, 114], .call 85, .emit [.token .PUSH_BYTE, .byteVal 4, .token .ADD, .token .PUSH_NUM, .wordSym y_PMGMODE, .token .PEEK, .token .USHL, .token .MUL, .token .PUSH_NUM, .wordSym y_PMGBASE, .token .PEEK, .token .SHL8, .token .ADD], .ret],
  [.lit [83, 69, 114, 114, 40, 41], .emit [.token .NUM, .wordVal 771, .token .PEEK], .ret],
  [.lit [73, 110, 116], .call 39, .emit [.token (.other "FP_INT")], .ret]
  ], false⟩

/-- Table `IO_CHAN`. -/
def t50 : SM := ⟨50, [
  [.lit [35], .call 31, .ret]
  ], false⟩

/-- Table `IO_CHAN0`. -/
def t51 : SM := ⟨51, [
  [.emit [.token .ZERO], .emit [.token .IOCHN], .ret]
  ], true⟩

/-- Table `IO_CHAN_OPT`. -/
def t52 : SM := ⟨52, [
  [.call 50, .emit [.token .IOCHN], .lit [44], .ret],
  [.ret]
  ], true⟩

/-- Table `IO_CHAN_OPT_NOCOMMA`. -/
def t53 : SM := ⟨53, [
  [.call 50, .emit [.token .IOCHN], .ret],
  [.ret]
  ], true⟩

/-- Table `LINE_ASSIGNMENT`. -/
def t54 : SM := ⟨54, [
  [.call 91, .call 28, .call 31, .emit [.token .VAR_STORE], .ext .POP_VAR, .ret],
  [.call 90, .call 28, .call 31, .emit [.token .DPOKE], .ret],
  [.call 3, .emit [.token .SADDR], .call 28, .call 31, .emit [.token .POKE], .ret],
  [.call 89, .call 28, .call 80, .emit [.token (.other "COPY_STR")], .ret],
  [.call 89, .call 28, .lit [43], .call 80, .emit [.token (.other "CAT_STR")], .ret],
  [.call 88, .call 28, .call 34, .emit [.token (.other "FP_STORE")], .ret],
  [.ret]
  ], true⟩

/-- Table `M_EXPR_MORE`. -/
def t55 : SM := ⟨55, [
  [.lit [42], .call 73, .call 7, .emit [.token .MUL], .call 55, .ret],
  [.lit [47], .call 73, .call 7, .emit [.token .DIV], .call 55, .ret],
  [.lit [77, 111, 100], .call 73, .call 7, .emit [.token .MOD], .call 55, .ret],
  [.ret]
  ], true⟩

/-- Table `NEXT_VARNAME`. -/
def t56 : SM := ⟨56, [
  [.ext .VAR_WORD, .ret],
  [.emit [.byteVal 0], .ret]
  ], true⟩

/-- Table `NOT_EXPR`. -/
def t57 : SM := ⟨57, [
  [.lit [78, 111, 116], .call 57, .emit [.token .L_NOT], .ret],
  [.call 47, .call 11, .ret],
  [.call 80, .call 12, .ret],
  [.call 34, .call 10, .ret]
  ], false⟩

/-- Table `OPT_EXEC_PARAM`. -/
def t58 : SM := ⟨58, [
  [.call 31, .call 30, .emit [.token .PUSH], .ret],
  [.ret]
  ], true⟩

/-- Table `OPT_PROC_VAR`. -/
def t59 : SM := ⟨59, [
  [.call 91, .call 59, .emit [.token (.other "POP"), .token .VAR_STORE], .ext .POP_VAR, .ret],
  [.ret]
  ], true⟩

/-- Table `OPT_STR_INDEX`. -/
def t60 : SM := ⟨60, [
  [.lit [91], .emit [.token .PUSH], .call 31, .call 13, .lit [93], .emit [.token .STR_IDX], .call 60, .ret],
  [.lit [91], .emit [.token .PUSH], .call 31, .lit [93], .emit [.token .PUSH_BYTE, .byteVal 255, .token .STR_IDX], .call 60, .ret],
  [.ret]
  ], true⟩

/-- Table `OR_AND_BOOL`. -/
def t61 : SM := ⟨61, [
  [.call 63, .ret],
  [.call 2, .call 62, .ret]
  ], false⟩

/-- Table `OR_EXPR_MORE`. -/
def t62 : SM := ⟨62, [
  [.call 63, .ret],
  [.ret]
  ], true⟩

/-- Table `OR_EXPR_RIGHT`. -/
def t63 : SM := ⟨63, [
  [.lit [79, 114], .emit [.token .PUSH], .call 57, .call 1, .emit [.token .L_OR], .call 62, .ret]
  ], false⟩

/-- Table `PARSE_START`. -/
def t64 : SM := ⟨64, [
  [.call 77, .ext .EOL, .ret],
  [.call 54, .ext .EOL, .ret]
  ], false⟩

/-- Table `PAR_EXPR`. -/
def t65 : SM := ⟨65, [
  [.lit [40], .call 31, .lit [41], .ret]
  ], false⟩

/-- Table `PAUSE_OPT`. -/
def t66 : SM := ⟨66, [
  [.call 31, .ret],
  [.ext .EOL, .emit [.token .ZERO], .ret]
  ], false⟩

/-- Table `PCMP_STR_EXPR`. -/
def t67 : SM := ⟨67, [
  [.emit [.token .PUSH], .call 80, .emit [.token (.other "CMP_STR")], .ret]
  ], false⟩

/-- Table `POSITION`. -/
def t68 : SM := ⟨68, [
  [.call 31, .call 13, .emit [.token (.other "POSITION")], .ret]
  ], false⟩

/-- Table `PRINT_EOL`. -/
def t69 : SM := ⟨69, [
  [.ext .EOL, .emit [.token .BYTE_PUT, .byteVal 155], .ret],
  [.call 70, .ret]
  ], false⟩

/-- Table `PRINT_NO_EOL`. -/
def t70 : SM := ⟨70, [
  [.ext .EOL, .ret],
  [.call 72, .call 70, .ret],
  [.call 71, .emit [.token .PRINT_STR], .call 69, .ret]
  ], false⟩

/-- Table `PRINT_ONE`. -/
def t71 : SM := ⟨71, [
  [.call 31, .emit [.token (.other "INT_STR")], .ret],
  [.call 80, .ret],
  [.call 34, .emit [.token (.other "FP_STR")], .ret]
  ], false⟩

/-- Table `PRINT_SEP`. -/
def t72 : SM := ⟨72, [
  [.lit [84, 97, 98], .call 85, .emit [.token (.other "PRINT_TAB")], .ret],
  [.lit [82, 84, 97, 98], .call 85, .emit [.token .BYTE_POKE, .byteSym y_PRINT_RTAB_ARG], .call 71, .emit [.token (.other "PRINT_RTAB")], .call 69, .ret],
  [.lit [67, 111, 108, 111, 114], .call 85, .emit [.token .BYTE_POKE, .byteSym y_PRINT_COLOR], .call 70, .emit [.token .ZERO, .token .BYTE_POKE, .byteSym y_PRINT_COLOR], .ret],
  [.lit [44], .emit [.token .BYTE, .byteVal 10, .token (.other "PRINT_TAB")], .ret],
  [.lit [59], .ret]
  ], false⟩

/-- Table `PUSH_T_EXPR`. -/
def t73 : SM := ⟨73, [
  [.emit [.token .PUSH], .call 85, .ret]
  ], false⟩

/-- Table `RD_PORT`. -/
def t74 : SM := ⟨74, [
  [.emit [.token .PUSH], .call 85, .emit [.token .BIT_AND, .token .ADD, .token .PEEK], .ret]
  ], false⟩

/-- Table `SOUND`. -/
def t75 : SM := ⟨75, [
  [.call 76, .lit [44], .call 31, .emit [.token .PUSH], .call 32, .emit [.token .SHL8, .token .ADD, .token .DPOKE, .token .ZERO, .token .NUM_POKE, .wordVal 53768, .token .BYTE, .byteVal 3, .token .NUM_POKE, .wordVal 53775], .ret],
  [.call 76, .emit [.token .ZERO, .token .DPOKE], .ret],
  [.emit [.token .NUM, .wordSym y_SOUND_OFF, .token (.other "USR_ADDR"), .token (.other "USR_CALL")], .ret]
  ], true⟩

/-- Table `SOUND_S1`. -/
def t76 : SM := ⟨76, [
  [.call 31, .emit [.token .USHL, .token .PUSH_NUM, .wordVal 53760, .token .ADD, .token .SADDR], .ret]
  ], false⟩

/-- Table `STATEMENT`. -/
def t77 : SM := ⟨77, [
  [.lit [46], .ext .REM, .ret],
  [.lit [63], .call 52, .call 69, .call 51, .ret],
  [.lit [80, 82, 73, 110, 116], .call 52, .call 69, .call 51, .ret],
  [.lit [73, 78, 112, 117, 116], .call 43, .call 45, .call 51, .ret],
  [.lit [71, 69, 116], .call 40, .ret],
  [.lit [80, 85, 116], .call 52, .call 31, .emit [.token .PUT], .call 51, .ret],
  [.lit [67, 76, 83], .call 53, .emit [.token .BYTE_PUT, .byteVal 125], .call 51, .ret],
  [.lit [80, 111, 107, 101], .call 31, .emit [.token .SADDR], .lit [44], .call 31, .emit [.token .POKE], .ret],
  [.lit [68, 112, 111, 107, 101], .call 31, .emit [.token .SADDR], .lit [44], .call 31, .emit [.token .DPOKE], .ret],
  [.lit [77, 83, 101, 116], .call 31, .call 13, .call 13, .emit [.token (.other "MSET")], .ret],
  [.lit [77, 111, 118, 101], .call 31, .call 13, .call 13, .emit [.token (.other "MOVE")], .ret],
  [.lit [45, 109, 111, 118, 101], .call 31, .call 13, .call 13, .emit [.token (.other "NMOVE")], .ret],
  [.lit [68, 79], .ext .EOL, .emit [.byteSym y_LT_DO_LOOP], .ext .PUSH_LT, .ret],
  [.lit [76, 111, 111, 112], .ext .EOL, .emit [.token .JUMP], .ext .POP_LOOP, .ret],
  [.lit [82, 101, 112, 101, 97, 116], .ext .EOL, .emit [.byteSym y_LT_REPEAT], .ext .PUSH_LT, .ret],
  [.lit [85, 110, 116, 105, 108], .call 33, .emit [.token .CJUMP], .ext .POP_REPEAT, .ret],
  [.lit [87, 104, 105, 108, 101], .emit [.byteSym y_LT_WHILE_1], .ext .PUSH_LT, .call 33, .emit [.token .CJUMP, .byteSym y_LT_WHILE_2], .ext .PUSH_LT, .ret],
  [.lit [87, 69, 110, 100], .ext .EOL, .emit [.token .JUMP], .ext .POP_WHILE, .ret],
  [.lit [73, 102], .call 33, .emit [.token .CJUMP, .byteSym y_LT_IF], .ext .PUSH_LT, .call 82, .ret],
  [.lit [70, 111, 114], .call 90, .call 28, .emit [.token .PUSH], .call 31, .emit [.token .DPOKE], .lit [84, 111], .call 31, .call 78, .emit [.token (.other "FOR"), .token .CNJUMP, .byteSym y_LT_FOR_2], .ext .PUSH_LT, .emit [.byteSym y_LT_FOR_1], .ext .PUSH_LT, .ret],
  [.lit [78, 101, 120, 116], .emit [.token (.other "FOR_NEXT")], .emit [.token .CJUMP], .call 56, .ext .EOL, .ext .POP_FOR, .emit [.token (.other "FOR_EXIT")], .ret],
  [.lit [69, 76, 115, 101], .ext .EOL, .emit [.token .JUMP], .emit [.byteSym y_LT_ELSE], .ext .ELSEIF, .ret],
  [.lit [69, 76, 73, 102], .emit [.token .JUMP, .byteSym y_LT_ELIF], .ext .ELSEIF, .call 33, .emit [.token .CJUMP, .byteSym y_LT_IF], .ext .PUSH_LT, .ret],
  [.lit [69, 110, 100, 105, 102], .ext .EOL, .ext .POP_IF, .ret],
  [.lit [69, 88, 105, 116], .emit [.token .JUMP], .ext .EXIT_LOOP, .ret],
  [.lit [80, 79, 83, 105, 116, 105, 111, 110], .call 68, .ret],
  [.lit [68, 73, 109], .call 22, .call 21, .ret],
  [.lit [80, 65, 117, 115, 101], .call 66, .emit [.token (.other "PAUSE")], .ret],
  [.lit [73, 78, 67], .call 90, .emit [.token .INC], .ret],
  [.lit [68, 69, 99], .call 90, .emit [.token .DEC], .ret],
  [.lit [80, 82, 111, 99], .ext .LABEL_CREATE, .emit [.token .JUMP], .ext .LABEL_DEF, .emit [.byteSym y_LT_PROC_2], .ext .PUSH_LT, .call 59, .ret],
  [.lit [69, 78, 68, 80, 114, 111, 99], .ext .POP_PROC_2, .emit [.token .RET], .ext .POP_PROC_DATA, .ret],
  [.call 29, .ext .LABEL_CREATE, .call 58, .emit [.token .CALL], .ext .DO_EXEC, .ret],
  [.lit [68, 65, 116, 97], .call 19, .call 16, .ret],
  [.lit [69, 78, 68], .emit [.token .END], .ret],
  [.lit [84, 105, 109, 101, 114], .emit [.token .ZERO, .token .BYTE_POKE, .byteVal 19, .token .ZERO, .token .BYTE_POKE, .byteVal 20], .ret],
  [.lit [67, 76, 82], .emit [.token .NUM, .wordSym y_CLEAR_DATA, .token (.other "USR_ADDR"), .token (.other "USR_CALL")], .ret],
  [.lit [68, 76, 105], .call 24, .ret],
  [.lit [71, 69, 116], .call 50, .emit [.token .IOCHN], .call 41, .ret],
  [.lit [67, 76, 111, 115, 101], .call 50, .emit [.token (.other "CLOSE")], .ret],
  [.lit [79, 112, 101, 110], .call 50, .emit [.token .PUSH_BYTE, .byteVal 3], .call 92, .ret],
  [.lit [88, 105, 111], .call 50, .call 13, .call 92, .ret],
  [.lit [66, 80, 117, 116], .call 50, .call 13, .call 13, .emit [.token (.other "BPUT")], .ret],
  [.lit [66, 71, 101, 116], .call 50, .call 13, .call 13, .emit [.token (.other "BGET")], .ret],
  [.lit [80, 77, 71, 114, 97, 112, 104, 105, 99, 115], .call 31, .emit [.token (.other "PMGRAPHICS")], .ret],
  [.lit [80, 77, 104, 112, 111, 115], .call 31, .emit [.token .PUSH_NUM, .wordVal 53248, .token .ADD, .token .SADDR], .lit [44], .call 31, .emit [.token .POKE], .ret],
  [.lit [71, 114, 97, 112, 104, 105, 99, 115], .emit [.token .ZERO, .token (.other "PMGRAPHICS"), .token .BYTE, .byteVal 6, .token (.other "CLOSE")], .call 31, .emit [.token (.other "GRAPHICS")], .ret],
  [.lit [67, 111, 108, 111, 114], .call 31, .emit [.token .BYTE_POKE, .byteSym y_COLOR], .ret],
  [.lit [70, 67, 111, 108, 111, 114], .call 31, .emit [.token .NUM_POKE, .wordVal 765], .ret],
  [.lit [76, 79, 67, 97, 116, 101], .call 68, .emit [.token .BYTE, .byteVal 6, .token .IOCHN], .call 41, .ret],
  [.lit [80, 76, 111, 116], .call 68, .emit [.token .BYTE, .byteVal 6, .token .IOCHN, .token .BYTE_PEEK, .byteSym y_COLOR, .token .PUT], .call 51, .ret],
  [.lit [68, 82, 97, 119, 116, 111], .call 68, .emit [.token .BYTE, .byteVal 17, .token (.other "DRAWTO")], .ret],
  [.lit [70, 73, 108, 108, 116, 111], .call 68, .emit [.token .BYTE, .byteVal 18, .token (.other "DRAWTO")], .ret],
  [.lit [83, 69, 116, 99, 111, 108, 111, 114], .call 31, .emit [.token .PUSH_NUM, .wordVal 708, .token .ADD, .token .SADDR], .call 32, .emit [.token .POKE], .ret],
  [.lit [83, 73, 111], .call 31, .emit [.token .NUM_POKE, .wordVal 768], .lit [44], .call 31, .emit [.token .NUM_POKE, .wordVal 769], .lit [44], .call 31, .emit [.token .NUM_POKE, .wordVal 770], .lit [44], .call 31, .emit [.token .NUM_POKE, .wordVal 771], .lit [44], .emit [.token .NUM, .wordVal 772, .token .SADDR], .call 31, .emit [.token .DPOKE], .lit [44], .call 31, .emit [.token .NUM_POKE, .wordVal 774], .lit [44], .emit [.token .NUM, .wordVal 776, .token .SADDR], .call 31, .emit [.token .DPOKE], .lit [44], .call 31, .emit [.token .NUM_POKE, .wordVal 778], .lit [44], .call 31, .emit [.token .NUM_POKE, .wordVal 779], .emit [.token .NUM, .wordVal 58457, .token (.other "USR_ADDR"), .token (.other "USR_CALL")], .ret],
  [.lit [83, 111, 117, 110, 100], .call 75, .ret],
  [.lit [68, 69, 71], .emit [.token .ONE, .token .BYTE_POKE, .byteSym y_DEGFLAG], .ret],
  [.lit [82, 65, 100], .emit [.token .ZERO, .token .BYTE_POKE, .byteSym y_DEGFLAG], .ret],
  [.lit [78, 79, 112, 101, 110], .call 31, .emit [.token .NUM_POKE, .wordVal 769], .lit [44], .call 31, .emit [.token .NUM_POKE, .wordVal 778], .lit [44], .call 31, .emit [.token .NUM_POKE, .wordVal 779], .lit [44], .emit [.token .NUM, .wordVal 772, .token .SADDR], .call 80, .emit [.token .PUSH_1, .token .ADD, .token .DPOKE], .emit [.token .BYTE, .byteVal 113, .token .NUM_POKE, .wordVal 768], .emit [.token .BYTE, .byteVal 79, .token .NUM_POKE, .wordVal 770], .emit [.token .BYTE, .byteVal 128, .token .NUM_POKE, .wordVal 771], .emit [.token .BYTE, .byteVal 31, .token .NUM_POKE, .wordVal 774], .emit [.token .NUM, .wordVal 776, .token .SADDR, .token .NUM, .wordVal 256, .token .DPOKE], .emit [.token .NUM, .wordVal 58457, .token (.other "USR_ADDR"), .token (.other "USR_CALL")], .ret],
  [.lit [78, 67, 108, 111, 115, 101], .call 31, .emit [.token .NUM_POKE, .wordVal 769], .emit [.token .BYTE, .byteVal 113, .token .NUM_POKE, .wordVal 768], .emit [.token .BYTE, .byteVal 67, .token .NUM_POKE, .wordVal 770], .emit [.token .BYTE, .byteVal 0, .token .NUM_POKE, .wordVal 771], .emit [.token .BYTE, .byteVal 31, .token .NUM_POKE, .wordVal 774], .emit [.token .NUM, .wordVal 776, .token .SADDR, .token .ZERO, .token .DPOKE], .emit [.token .NUM, .wordVal 58457, .token (.other "USR_ADDR"), .token (.other "USR_CALL")], .ret],
  [.lit [78, 83, 116, 97, 116, 117, 115], .call 31, .emit [.token .NUM_POKE, .wordVal 769], .emit [.token .BYTE, .byteVal 113, .token .NUM_POKE, .wordVal 768], .emit [.token .BYTE, .byteVal 83, .token .NUM_POKE, .wordVal 770], .emit [.token .BYTE, .byteVal 64, .token .NUM_POKE, .wordVal 771], .emit [.token .BYTE, .byteVal 31, .token .NUM_POKE, .wordVal 774], .emit [.token .NUM, .wordVal 772, .token .SADDR, .token .NUM, .wordVal 746, .token .DPOKE], .emit [.token .BYTE, .byteVal 4, .token .NUM_POKE, .wordVal 776], .emit [.token .BYTE, .byteVal 0, .token .NUM_POKE, .wordVal 777], .emit [.token .NUM, .wordVal 58457, .token (.other "USR_ADDR"), .token (.other "USR_CALL")], .ret],
  [.lit [78, 71, 101, 116], .call 31, .emit [.token .NUM_POKE, .wordVal 769], .lit [44], .emit [.token .NUM, .wordVal 772, .token .SADDR], .call 31, .emit [.token .DPOKE], .lit [44], .emit [.token .NUM, .wordVal 776, .token .SADDR], .call 31, .emit [.token .DPOKE], .emit [.token .NUM, .wordVal 778, .token .SADDR, .token .NUM, .wordVal 776, .token (.other "DPEEK"), .token .DPOKE], .emit [.token .BYTE, .byteVal 113, .token .NUM_POKE, .wordVal 768], .emit [.token .BYTE, .byteVal 82, .token .NUM_POKE, .wordVal 770], .emit [.token .BYTE, .byteVal 64, .token .NUM_POKE, .wordVal 771], .emit [.token .BYTE, .byteVal 31, .token .NUM_POKE, .wordVal 774], .emit [.token .NUM, .wordVal 58457, .token (.other "USR_ADDR"), .token (.other "USR_CALL")], .ret],
  [.lit [78, 80, 117, 116], .call 31, .emit [.token .NUM_POKE, .wordVal 769], .lit [44], .emit [.token .NUM, .wordVal 772, .token .SADDR], .call 31, .emit [.token .DPOKE], .lit [44], .emit [.token .NUM, .wordVal 776, .token .SADDR], .call 31, .emit [.token .DPOKE], .emit [.token .NUM, .wordVal 778, .token .SADDR, .token .NUM, .wordVal 776, .token (.other "DPEEK"), .token .DPOKE], .emit [.token .BYTE, .byteVal 113, .token .NUM_POKE, .wordVal 768], .emit [.token .BYTE, .byteVal 87, .token .NUM_POKE, .wordVal 770], .emit [.token .BYTE, .byteVal 128, .token .NUM_POKE, .wordVal 771], .emit [.token .BYTE, .byteVal 31, .token .NUM_POKE, .wordVal 774], .emit [.token .NUM, .wordVal 58457, .token (.other "USR_ADDR"), .token (.other "USR_CALL")], .ret]
  ], false⟩

/-- Table `STEP_OPTIONAL`. -/
def t78 : SM := ⟨78, [
  [.lit [83, 116, 101, 112], .emit [.token .PUSH], .call 31, .ret],
  [.emit [.token .PUSH_1], .ret]
  ], true⟩

/-- Table `STRING_FUNCTIONS`. -/
def t79 : SM := ⟨79, [
  [.lit [34], .emit [.token .CSTRING], .ext .CONST_STRING, .ret],
  [.lit [67, 72, 82, 36], .call 85, .emit [.token .CHR], .ret],
  [.lit [83, 84, 82, 36], .call 85, .emit [.token (.other "INT_STR")], .ret],
  [.lit [36], .call 65, .ret],
  [.emit [.token .VAR_LOAD, .byteSym y_VT_STRING], .ext .VAR_SEARCH, .lit [36], .ret],
  [.call 5, .emit [.token (.other "DPEEK")], .ret],
  [.lit [83, 84, 82, 36], .call 39, .emit [.token (.other "FP_STR")], .ret]
  ], false⟩

/-- Table `STR_EXPR`. -/
def t80 : SM := ⟨80, [
  [.lit [40], .call 80, .lit [41], .ret],
  [.call 79, .call 60, .ret]
  ], false⟩

/-- Table `TEST_BOOL_EXPR`. -/
def t81 : SM := ⟨81, [
  [.emit [.token .COMP_0], .call 61, .ret],
  [.emit [.token .PUSH], .call 9, .call 1, .call 62, .call 8, .ret],
  [.emit [.token (.other "INT_FP")], .call 10, .call 62, .call 1, .call 8, .ret],
  [.ret]
  ], true⟩

/-- Table `THEN_OR_MULTILINE`. -/
def t82 : SM := ⟨82, [
  [.lit [84, 104, 101, 110], .call 64, .ext .POP_IF, .ret],
  [.ret]
  ], true⟩

/-- Table `TYPE_BYTE`. -/
def t83 : SM := ⟨83, [
  [.lit [66, 121, 116, 101], .emit [.byteSym y_VT_ARRAY_BYTE], .ret]
  ], false⟩

/-- Table `TYPE_WORD`. -/
def t84 : SM := ⟨84, [
  [.lit [87, 111, 114, 100], .emit [.byteSym y_VT_ARRAY_WORD], .ret],
  [.emit [.byteSym y_VT_ARRAY_WORD], .ret]
  ], true⟩

/-- Table `T_EXPR`. -/
def t85 : SM := ⟨85, [
  [.emit [.token .BYTE], .ext .NUMBER_BYTE, .ret],
  [.emit [.token .NUM], .ext .NUMBER_WORD, .ret],
  [.lit [45], .call 85, .emit [.token .NEG], .ret],
  [.lit [43], .call 85, .ret],
  [.call 65, .ret],
  [.call 49, .ret]
  ], false⟩

/-- Table `USR_EXPR_MORE`. -/
def t86 : SM := ⟨86, [
  [.lit [44], .call 31, .emit [.token (.other "USR_PARAM")], .call 86, .ret],
  [.ret]
  ], true⟩

/-- Table `VAR_CREATE_TYPE`. -/
def t87 : SM := ⟨87, [
  [.lit [36], .emit [.byteSym y_VT_STRING], .ret],
  [.lit [37], .emit [.byteSym y_VT_FLOAT], .ret],
  [.emit [.byteSym y_VT_WORD], .ret]
  ], true⟩

/-- Table `VAR_FP_LVALUE_SADDR`. -/
def t88 : SM := ⟨88, [
  [.emit [.token .VAR_SADDR, .byteSym y_VT_FLOAT], .ext .VAR_SEARCH, .lit [37], .ret],
  [.call 4, .emit [.token .SADDR], .ret]
  ], false⟩

/-- Table `VAR_STR_LVALUE_SADDR`. -/
def t89 : SM := ⟨89, [
  [.emit [.token .VAR_SADDR, .byteSym y_VT_STRING], .ext .VAR_SEARCH, .lit [36], .ret],
  [.call 5, .emit [.token .SADDR], .ret]
  ], false⟩

/-- Table `VAR_WORD_LVALUE_SADDR`. -/
def t90 : SM := ⟨90, [
  [.call 6, .emit [.token .SADDR], .ret],
  [.ext .VAR_CREATE, .call 87, .ext .VAR_SET_TYPE, .ret],
  [.emit [.token .VAR_SADDR], .ext .VAR_WORD, .ret]
  ], false⟩

/-- Table `VAR_WORD_SAVE`. -/
def t91 : SM := ⟨91, [
  [.ext .VAR_CREATE, .call 87, .ext .VAR_SET_TYPE, .ret],
  [.ext .VAR_WORD, .ext .PUSH_VAR, .ret]
  ], false⟩

/-- Table `XIO_EXPR`. -/
def t92 : SM := ⟨92, [
  [.call 13, .call 13, .emit [.token .SHL8, .token .ADD, .token .PUSH], .lit [44], .call 80, .emit [.token (.other "XIO")], .ret]
  ], false⟩

/-- The tables, `/repo/src/syntax`. -/
def tables : SMs := [
  t0, t1, t2, t3, t4, t5, t6, t7, t8, t9, t10, t11, t12, t13, t14, t15, t16, t17, t18, t19, t20, t21, t22, t23, t24, t25, t26, t27, t28, t29, t30, t31, t32, t33, t34, t35, t36, t37, t38, t39, t40, t41, t42, t43, t44, t45, t46, t47, t48, t49, t50, t51, t52, t53, t54, t55, t56, t57, t58, t59, t60, t61, t62, t63, t64, t65, t66, t67, t68, t69, t70, t71, t72, t73, t74, t75, t76, t77, t78, t79, t80, t81, t82, t83, t84, t85, t86, t87, t88, t89, t90, t91, t92]

/-- The routines, in the order of the map `ext`: `EXTERN` in `/repo/src/syntax`. -/
def exts : List Act := [
  .CONST_STRING, .DO_EXEC, .ELSEIF, .EOL, .EXIT_LOOP, .LABEL, .LABEL_CREATE, .LABEL_DEF, .LABEL_SET_TYPE, .NUMBER_BYTE, .NUMBER_FP, .NUMBER_WORD, .POP_FOR, .POP_IF, .POP_LOOP, .POP_PROC_2, .POP_PROC_DATA, .POP_REPEAT, .POP_VAR, .POP_WHILE, .PUSH_LT, .PUSH_VAR, .REM, .VAR_CREATE, .VAR_SEARCH, .VAR_SET_TYPE, .VAR_WORD]

/-- The number of table `PARSE_START`. -/
abbrev n_PARSE_START : Nat := 64

end FB.Syn.NativeFp
