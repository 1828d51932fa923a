import Verif.Parse.Engine

/-!
# Parsing tables of target `atari-5200`

Generated by `tools/gen_grammar.py` from `/repo/src/syntax/*.syn` with the list of files of
`/repo/compiler/atari-5200.tgt`: a5200.syn basic.syn dli.syn pm.syn gr-a5200.syn sound.syn extended.syn.
These are the tables as read, before `syntax_optimize`.
Tables are numbered in order of first definition. Do not edit.
-/

namespace FB.Parse.Atari5200

/-- Symbol `BASIC_TOP`. -/
def y_BASIC_TOP : Str := [66, 65, 83, 73, 67, 95, 84, 79, 80]
/-- Symbol `CH`. -/
def y_CH : Str := [67, 72]
/-- Symbol `CLEAR_DATA`. -/
def y_CLEAR_DATA : Str := [67, 76, 69, 65, 82, 95, 68, 65, 84, 65]
/-- Symbol `COLOR`. -/
def y_COLOR : Str := [67, 79, 76, 79, 82]
/-- Symbol `COLRSH`. -/
def y_COLRSH : Str := [67, 79, 76, 82, 83, 72]
/-- Symbol `IOERROR`. -/
def y_IOERROR : Str := [73, 79, 69, 82, 82, 79, 82]
/-- Symbol `LT_DO_LOOP`. -/
def y_LT_DO_LOOP : Str := [76, 84, 95, 68, 79, 95, 76, 79, 79, 80]
/-- Symbol `LT_ELIF`. -/
def y_LT_ELIF : Str := [76, 84, 95, 69, 76, 73, 70]
/-- Symbol `LT_ELSE`. -/
def y_LT_ELSE : Str := [76, 84, 95, 69, 76, 83, 69]
/-- Symbol `LT_FOR_1`. -/
def y_LT_FOR_1 : Str := [76, 84, 95, 70, 79, 82, 95, 49]
/-- Symbol `LT_FOR_2`. -/
def y_LT_FOR_2 : Str := [76, 84, 95, 70, 79, 82, 95, 50]
/-- Symbol `LT_IF`. -/
def y_LT_IF : Str := [76, 84, 95, 73, 70]
/-- Symbol `LT_PROC_2`. -/
def y_LT_PROC_2 : Str := [76, 84, 95, 80, 82, 79, 67, 95, 50]
/-- Symbol `LT_REPEAT`. -/
def y_LT_REPEAT : Str := [76, 84, 95, 82, 69, 80, 69, 65, 84]
/-- Symbol `LT_WHILE_1`. -/
def y_LT_WHILE_1 : Str := [76, 84, 95, 87, 72, 73, 76, 69, 95, 49]
/-- Symbol `LT_WHILE_2`. -/
def y_LT_WHILE_2 : Str := [76, 84, 95, 87, 72, 73, 76, 69, 95, 50]
/-- Symbol `MEMTOP`. -/
def y_MEMTOP : Str := [77, 69, 77, 84, 79, 80]
/-- Symbol `PMGBASE`. -/
def y_PMGBASE : Str := [80, 77, 71, 66, 65, 83, 69]
/-- Symbol `PMGMODE`. -/
def y_PMGMODE : Str := [80, 77, 71, 77, 79, 68, 69]
/-- Symbol `PRINT_COLOR`. -/
def y_PRINT_COLOR : Str := [80, 82, 73, 78, 84, 95, 67, 79, 76, 79, 82]
/-- Symbol `PRINT_RTAB_ARG`. -/
def y_PRINT_RTAB_ARG : Str := [80, 82, 73, 78, 84, 95, 82, 84, 65, 66, 95, 65, 82, 71]
/-- Symbol `SOUND_OFF`. -/
def y_SOUND_OFF : Str := [83, 79, 85, 78, 68, 95, 79, 70, 70]
/-- Symbol `VT_ARRAY_BYTE`. -/
def y_VT_ARRAY_BYTE : Str := [86, 84, 95, 65, 82, 82, 65, 89, 95, 66, 89, 84, 69]
/-- Symbol `VT_ARRAY_STRING`. -/
def y_VT_ARRAY_STRING : Str := [86, 84, 95, 65, 82, 82, 65, 89, 95, 83, 84, 82, 73, 78, 71]
/-- Symbol `VT_ARRAY_WORD`. -/
def y_VT_ARRAY_WORD : Str := [86, 84, 95, 65, 82, 82, 65, 89, 95, 87, 79, 82, 68]
/-- Symbol `VT_STRING`. -/
def y_VT_STRING : Str := [86, 84, 95, 83, 84, 82, 73, 78, 71]
/-- Symbol `VT_WORD`. -/
def y_VT_WORD : Str := [86, 84, 95, 87, 79, 82, 68]

/-- Table `INT_EXPR`. -/
def t0 : Table := { desc := [105, 110, 116, 101, 103, 101, 114, 32, 101, 120, 112, 114, 101, 115, 115, 105, 111, 110], lines := [
  [.call 7, .call 4, .call 3, .call 2, .ret]
  ] }

/-- Table `PUSH_T_EXPR`. -/
def t1 : Table := { desc := [105, 110, 116, 101, 103, 101, 114, 32, 101, 120, 112, 114, 101, 115, 115, 105, 111, 110], lines := [
  [.emit [.token .PUSH], .call 7, .ret]
  ] }

/-- Table `INT_EXPR_MORE`. -/
def t2 : Table := { desc := [], lines := [
  [.lit [43], .call 1, .call 4, .call 3, .emit [.token .ADD], .call 2, .ret],
  [.lit [45], .call 1, .call 4, .call 3, .emit [.token .SUB], .call 2, .ret],
  [.ret]
  ] }

/-- Table `M_EXPR_MORE`. -/
def t3 : Table := { desc := [], lines := [
  [.lit [42], .call 1, .call 4, .emit [.token .MUL], .call 3, .ret],
  [.lit [47], .call 1, .call 4, .emit [.token .DIV], .call 3, .ret],
  [.lit [77, 111, 100], .call 1, .call 4, .emit [.token .MOD], .call 3, .ret],
  [.ret]
  ] }

/-- Table `BIT_EXPR_MORE`. -/
def t4 : Table := { desc := [], lines := [
  [.lit [38], .call 1, .emit [.token .BIT_AND], .call 4, .ret],
  [.lit [33], .call 1, .emit [.token .BIT_OR], .call 4, .ret],
  [.lit [69, 120, 111, 114], .call 1, .emit [.token .BIT_EXOR], .call 4, .ret],
  [.ret]
  ] }

/-- Table `ADR_EXPR`. -/
def t5 : Table := { desc := [115, 116, 114, 105, 110, 103, 32, 111, 114, 32, 118, 97, 114, 105, 97, 98, 108, 101], lines := [
  [.call 25, .ret],
  [.emit [.token .VAR_LOAD, .byteSym y_VT_ARRAY_WORD], .ext .VAR_SEARCH, .ret],
  [.emit [.token .VAR_LOAD, .byteSym y_VT_ARRAY_BYTE], .ext .VAR_SEARCH, .ret],
  [.emit [.token .NUM, .byteSym y_VT_ARRAY_WORD], .ext .LABEL, .ret],
  [.emit [.token .NUM, .byteSym y_VT_ARRAY_BYTE], .ext .LABEL, .ret],
  [.emit [.token .VAR_LOAD, .byteSym y_VT_ARRAY_STRING], .ext .VAR_SEARCH, .ret],
  [.emit [.token .VAR_ADDR], .ext .VAR_WORD, .ret]
  ] }

/-- Table `USR_EXPR_MORE`. -/
def t6 : Table := { desc := [], lines := [
  [.lit [44], .call 13, .emit [.token (.other "USR_PARAM")], .call 6, .ret],
  [.ret]
  ] }

/-- Table `T_EXPR`. -/
def t7 : Table := { desc := [105, 110, 116, 101, 103, 101, 114, 32, 99, 111, 110, 115, 116, 97, 110, 116, 44, 32, 118, 97, 114, 105, 97, 98, 108, 101, 32, 111, 114, 32, 102, 117, 110, 99, 116, 105, 111, 110], lines := [
  [.emit [.token .BYTE], .ext .NUMBER_BYTE, .ret],
  [.emit [.token .NUM], .ext .NUMBER_WORD, .ret],
  [.lit [45], .call 7, .emit [.token .NEG], .ret],
  [.lit [43], .call 7, .ret],
  [.call 10, .ret],
  [.call 8, .ret]
  ] }

/-- Table `INT_FUNCTIONS`. -/
def t8 : Table := { desc := [105, 110, 116, 101, 103, 101, 114, 32, 118, 97, 114, 105, 97, 98, 108, 101, 32, 111, 114, 32, 102, 117, 110, 99, 116, 105, 111, 110], lines := [
  [.lit [78, 111, 116], .call 19, .emit [.token .L_NOT], .ret],
  [.lit [84, 105, 109, 101], .emit [.token (.other "TIME")], .ret],
  [.call 41, .emit [.token (.other "DPEEK")], .ret],
  [.call 43, .emit [.token .PEEK], .ret],
  [.lit [70, 114, 101, 40, 41], .emit [.token .NUM, .wordSym y_MEMTOP, .token (.other "DPEEK"), .token .PUSH_BYTE, .byteSym y_BASIC_TOP, .token (.other "DPEEK"), .token .SUB], .ret],
  [.lit [69, 114, 114, 40, 41], .emit [.token .BYTE_PEEK, .byteSym y_IOERROR], .ret],
  [.lit [75, 101, 121, 40, 41], .emit [.token .NUM, .wordSym y_CH, .token .PEEK, .token .PUSH_BYTE, .byteVal 255, .token .BIT_EXOR], .ret],
  [.emit [.token .VAR_LOAD], .ext .VAR_WORD, .ret],
  [.lit [65, 98, 115], .call 7, .emit [.token (.other "ABS")], .ret],
  [.lit [83, 71, 110], .call 7, .emit [.token (.other "SGN")], .ret],
  [.lit [80, 101, 101, 107], .call 7, .emit [.token .PEEK], .ret],
  [.lit [80, 65, 100, 100, 108, 101], .emit [.token .NUM, .wordVal 17, .token .PUSH_BYTE, .byteVal 7], .call 9, .ret],
  [.lit [80, 84, 114, 105, 103], .emit [.token .NUM, .wordVal 548, .token .PUSH_BYTE, .byteVal 7], .call 9, .ret],
  [.lit [83, 116, 105, 99, 107], .emit [.token .NUM, .wordVal 540, .token .PUSH_BYTE, .byteVal 3], .call 9, .ret],
  [.lit [83, 84, 82, 105, 103], .emit [.token .NUM, .wordVal 544, .token .PUSH_BYTE, .byteVal 3], .call 9, .ret],
  [.lit [82, 97, 110, 100], .call 7, .emit [.token (.other "RAND")], .ret],
  [.lit [68, 112, 101, 101, 107], .call 7, .emit [.token (.other "DPEEK")], .ret],
  [.lit [85, 83, 82, 40], .call 13, .emit [.token (.other "USR_ADDR")], .call 6, .lit [41], .emit [.token (.other "USR_CALL")], .ret],
  [.lit [65, 68, 82, 40], .call 5, .lit [41], .ret],
  [.lit [38], .call 5, .ret],
  [.lit [76, 101, 110], .call 25, .emit [.token .PEEK], .ret],
  [.lit [86, 97, 108], .call 25, .emit [.token (.other "VAL")], .ret],
  [.lit [65, 83, 99], .call 25, .emit [.token .PUSH_1, .token .ADD, .token .PEEK], .ret],
  [.lit [80, 77, 97, 100, 114], .call 7, .emit [.token .PUSH_BYTE, .byteVal 4, .token .ADD, .token .PUSH_NUM, .wordSym y_PMGMODE, .token .PEEK, .token .USHL, .token .MUL, .token .PUSH_NUM, .wordSym y_PMGBASE, .token .PEEK, .token .SHL8, .token .ADD], .ret]
  ] }

/-- Table `RD_PORT`. -/
def t9 : Table := { desc := [], lines := [
  [.emit [.token .PUSH], .call 7, .emit [.token .BIT_AND, .token .ADD, .token .PEEK], .ret]
  ] }

/-- Table `PAR_EXPR`. -/
def t10 : Table := { desc := [108, 101, 102, 116, 32, 112, 97, 114, 101, 110, 116, 104, 101, 115, 105, 115], lines := [
  [.lit [40], .call 13, .lit [41], .ret]
  ] }

/-- Table `OR_AND_BOOL`. -/
def t11 : Table := { desc := [], lines := [
  [.call 15, .ret],
  [.call 17, .call 16, .ret]
  ] }

/-- Table `TEST_BOOL_EXPR`. -/
def t12 : Table := { desc := [], lines := [
  [.emit [.token .COMP_0], .call 11, .ret],
  [.emit [.token .PUSH], .call 21, .call 18, .call 16, .call 24, .ret],
  [.ret]
  ] }

/-- Table `EXPR`. -/
def t13 : Table := { desc := [], lines := [
  [.call 0, .call 12, .ret],
  [.call 25, .call 23, .ret]
  ] }

/-- Table `FORCE_BOOL_EXPR`. -/
def t14 : Table := { desc := [], lines := [
  [.call 19, .call 18, .call 16, .ret]
  ] }

/-- Table `OR_EXPR_RIGHT`. -/
def t15 : Table := { desc := [39, 79, 82, 39], lines := [
  [.lit [79, 114], .emit [.token .PUSH], .call 19, .call 18, .emit [.token .L_OR], .call 16, .ret]
  ] }

/-- Table `OR_EXPR_MORE`. -/
def t16 : Table := { desc := [], lines := [
  [.call 15, .ret],
  [.ret]
  ] }

/-- Table `AND_EXPR_RIGHT`. -/
def t17 : Table := { desc := [39, 65, 78, 68, 39], lines := [
  [.lit [65, 110, 100], .emit [.token .PUSH], .call 19, .emit [.token .L_AND], .call 18, .ret]
  ] }

/-- Table `AND_EXPR_MORE`. -/
def t18 : Table := { desc := [], lines := [
  [.call 17, .ret],
  [.ret]
  ] }

/-- Table `NOT_EXPR`. -/
def t19 : Table := { desc := [], lines := [
  [.lit [78, 111, 116], .call 19, .emit [.token .L_NOT], .ret],
  [.call 0, .call 20, .ret],
  [.call 25, .call 23, .ret]
  ] }

/-- Table `COMP_OR_BOOL`. -/
def t20 : Table := { desc := [], lines := [
  [.emit [.token .PUSH], .call 21, .call 24, .ret],
  [.emit [.token .COMP_0], .ret]
  ] }

/-- Table `COMP_EXPR_RIGHT`. -/
def t21 : Table := { desc := [105, 110, 116, 101, 103, 101, 114, 32, 99, 111, 109, 112, 97, 114, 105, 115, 111, 110, 32, 111, 112, 101, 114, 97, 116, 111, 114], lines := [
  [.lit [60, 61], .call 0, .emit [.token .GT, .token .L_NOT], .ret],
  [.lit [62, 61], .call 0, .emit [.token .LT, .token .L_NOT], .ret],
  [.lit [60, 62], .call 0, .emit [.token .NEQ], .ret],
  [.lit [60], .call 0, .emit [.token .LT], .ret],
  [.lit [62], .call 0, .emit [.token .GT], .ret],
  [.lit [61], .call 0, .emit [.token .EQ], .ret]
  ] }

/-- Table `PCMP_STR_EXPR`. -/
def t22 : Table := { desc := [], lines := [
  [.emit [.token .PUSH], .call 25, .emit [.token (.other "CMP_STR")], .ret]
  ] }

/-- Table `COMP_STR_RIGHT`. -/
def t23 : Table := { desc := [99, 111, 109, 112, 97, 114, 105, 115, 111, 110, 32, 111, 112, 101, 114, 97, 116, 111, 114], lines := [
  [.lit [61], .call 22, .emit [.token .EQ], .ret],
  [.lit [62], .call 22, .emit [.token .GT], .ret],
  [.lit [62, 61], .call 22, .emit [.token .LT, .token .L_NOT], .ret],
  [.lit [60, 62], .call 22, .emit [.token .NEQ], .ret],
  [.lit [60, 61], .call 22, .emit [.token .GT, .token .L_NOT], .ret],
  [.lit [60], .call 22, .emit [.token .LT], .ret]
  ] }

/-- Table `COMP_EXPR_MORE`. -/
def t24 : Table := { desc := [], lines := [
  [.emit [.token .PUSH], .call 21, .call 24, .ret],
  [.ret]
  ] }

/-- Table `STR_EXPR`. -/
def t25 : Table := { desc := [115, 116, 114, 105, 110, 103, 32, 101, 120, 112, 114, 101, 115, 115, 105, 111, 110], lines := [
  [.lit [40], .call 25, .lit [41], .ret],
  [.call 27, .call 26, .ret]
  ] }

/-- Table `OPT_STR_INDEX`. -/
def t26 : Table := { desc := [], lines := [
  [.lit [91], .emit [.token .PUSH], .call 13, .call 57, .lit [93], .emit [.token .STR_IDX], .call 26, .ret],
  [.lit [91], .emit [.token .PUSH], .call 13, .lit [93], .emit [.token .PUSH_BYTE, .byteVal 255, .token .STR_IDX], .call 26, .ret],
  [.ret]
  ] }

/-- Table `STRING_FUNCTIONS`. -/
def t27 : Table := { desc := [], lines := [
  [.lit [34], .emit [.token .CSTRING], .ext .CONST_STRING, .ret],
  [.lit [67, 72, 82, 36], .call 7, .emit [.token .CHR], .ret],
  [.lit [83, 84, 82, 36], .call 7, .emit [.token (.other "INT_STR")], .ret],
  [.lit [36], .call 10, .ret],
  [.emit [.token .VAR_LOAD, .byteSym y_VT_STRING], .ext .VAR_SEARCH, .lit [36], .ret],
  [.call 42, .emit [.token (.other "DPEEK")], .ret]
  ] }

/-- Table `PRINT_SEP`. -/
def t28 : Table := { desc := [], lines := [
  [.lit [84, 97, 98], .call 7, .emit [.token (.other "PRINT_TAB")], .ret],
  [.lit [82, 84, 97, 98], .call 7, .emit [.token .BYTE_POKE, .byteSym y_PRINT_RTAB_ARG], .call 29, .emit [.token (.other "PRINT_RTAB")], .call 31, .ret],
  [.lit [67, 111, 108, 111, 114], .call 7, .emit [.token .BYTE_POKE, .byteSym y_PRINT_COLOR], .call 30, .emit [.token .ZERO, .token .BYTE_POKE, .byteSym y_PRINT_COLOR], .ret],
  [.lit [44], .emit [.token .BYTE, .byteVal 10, .token (.other "PRINT_TAB")], .ret],
  [.lit [59], .ret]
  ] }

/-- Table `PRINT_ONE`. -/
def t29 : Table := { desc := [], lines := [
  [.call 13, .emit [.token (.other "INT_STR")], .ret],
  [.call 25, .ret]
  ] }

/-- Table `PRINT_NO_EOL`. -/
def t30 : Table := { desc := [], lines := [
  [.ext .EOL, .ret],
  [.call 28, .call 30, .ret],
  [.call 29, .emit [.token .PRINT_STR], .call 31, .ret]
  ] }

/-- Table `PRINT_EOL`. -/
def t31 : Table := { desc := [], lines := [
  [.ext .EOL, .emit [.token .BYTE_PUT, .byteVal 155], .ret],
  [.call 30, .ret]
  ] }

/-- Table `THEN_OR_MULTILINE`. -/
def t32 : Table := { desc := [39, 84, 72, 69, 78, 39], lines := [
  [.lit [84, 104, 101, 110], .call 73, .ext .POP_IF, .ret],
  [.ret]
  ] }

/-- Table `VAR_CREATE_TYPE`. -/
def t33 : Table := { desc := [], lines := [
  [.lit [36], .emit [.byteSym y_VT_STRING], .ret],
  [.emit [.byteSym y_VT_WORD], .ret]
  ] }

/-- Table `VAR_WORD_LVALUE_SADDR`. -/
def t34 : Table := { desc := [118, 97, 114, 105, 97, 98, 108, 101, 32, 110, 97, 109, 101], lines := [
  [.call 41, .emit [.token .SADDR], .ret],
  [.ext .VAR_CREATE, .call 33, .ext .VAR_SET_TYPE, .ret],
  [.emit [.token .VAR_SADDR], .ext .VAR_WORD, .ret]
  ] }

/-- Table `VAR_STR_LVALUE_SADDR`. -/
def t35 : Table := { desc := [118, 97, 114, 105, 97, 98, 108, 101, 32, 110, 97, 109, 101], lines := [
  [.emit [.token .VAR_SADDR, .byteSym y_VT_STRING], .ext .VAR_SEARCH, .lit [36], .ret],
  [.call 42, .emit [.token .SADDR], .ret]
  ] }

/-- Table `VAR_WORD_SAVE`. -/
def t36 : Table := { desc := [118, 97, 114, 105, 97, 98, 108, 101, 32, 110, 97, 109, 101], lines := [
  [.ext .VAR_CREATE, .call 33, .ext .VAR_SET_TYPE, .ret],
  [.ext .VAR_WORD, .ext .PUSH_VAR, .ret]
  ] }

/-- Table `EQUAL`. -/
def t37 : Table := { desc := [39, 61, 39], lines := [
  [.lit [61], .ret]
  ] }

/-- Table `STEP_OPTIONAL`. -/
def t38 : Table := { desc := [39, 83, 84, 69, 80, 39], lines := [
  [.lit [83, 116, 101, 112], .emit [.token .PUSH], .call 13, .ret],
  [.emit [.token .PUSH_1], .ret]
  ] }

/-- Table `NEXT_VARNAME`. -/
def t39 : Table := { desc := [], lines := [
  [.ext .VAR_WORD, .ret],
  [.emit [.byteVal 0], .ret]
  ] }

/-- Table `POSITION`. -/
def t40 : Table := { desc := [], lines := [
  [.call 13, .call 57, .emit [.token (.other "POSITION")], .ret]
  ] }

/-- Table `ARRAY_WORD_ADDR`. -/
def t41 : Table := { desc := [], lines := [
  [.emit [.token .VAR_LOAD, .byteSym y_VT_ARRAY_WORD], .ext .VAR_SEARCH, .emit [.token .PUSH], .call 10, .emit [.token .USHL, .token .ADD], .ret],
  [.emit [.token .NUM, .byteSym y_VT_ARRAY_WORD], .ext .LABEL, .emit [.token .PUSH], .call 10, .emit [.token .USHL, .token .ADD], .ret]
  ] }

/-- Table `ARRAY_STRING_ADDR`. -/
def t42 : Table := { desc := [], lines := [
  [.emit [.token .VAR_LOAD, .byteSym y_VT_ARRAY_STRING], .ext .VAR_SEARCH, .lit [36], .emit [.token .PUSH], .call 10, .emit [.token .USHL, .token .ADD], .ret]
  ] }

/-- Table `ARRAY_BYTE_ADDR`. -/
def t43 : Table := { desc := [118, 97, 114, 105, 97, 98, 108, 101, 32, 110, 97, 109, 101], lines := [
  [.emit [.token .VAR_LOAD, .byteSym y_VT_ARRAY_BYTE], .ext .VAR_SEARCH, .emit [.token .PUSH], .call 10, .emit [.token .ADD], .ret],
  [.emit [.token .NUM, .byteSym y_VT_ARRAY_BYTE], .ext .LABEL, .emit [.token .PUSH], .call 10, .emit [.token .ADD], .ret]
  ] }

/-- Table `DIM_MORE`. -/
def t44 : Table := { desc := [99, 111, 109, 109, 97], lines := [
  [.lit [44], .call 52, .call 44, .ret],
  [.ret]
  ] }

/-- Table `INPUT_STR`. -/
def t45 : Table := { desc := [], lines := [
  [.lit [34], .emit [.token .CSTRING], .ext .CONST_STRING, .emit [.token .PRINT_STR], .call 28, .ret],
  [.lit [59], .ret],
  [.emit [.token .BYTE_PUT, .byteVal 63], .ret]
  ] }

/-- Table `INPUT_VAR_LIST`. -/
def t46 : Table := { desc := [], lines := [
  [.call 48, .call 47, .ret]
  ] }

/-- Table `INPUT_VAR_MORE`. -/
def t47 : Table := { desc := [], lines := [
  [.lit [44], .call 46, .ret],
  [.ret]
  ] }

/-- Table `INPUT_VAR`. -/
def t48 : Table := { desc := [], lines := [
  [.call 34, .emit [.token (.other "INPUT_STR"), .token (.other "VAL"), .token .DPOKE], .ret],
  [.call 43, .emit [.token .SADDR, .token (.other "INPUT_STR"), .token (.other "VAL"), .token .POKE], .ret],
  [.call 35, .emit [.token (.other "INPUT_STR"), .token (.other "COPY_STR")], .ret]
  ] }

/-- Table `TYPE_WORD`. -/
def t49 : Table := { desc := [], lines := [
  [.lit [87, 111, 114, 100], .emit [.byteSym y_VT_ARRAY_WORD], .ret],
  [.emit [.byteSym y_VT_ARRAY_WORD], .ret]
  ] }

/-- Table `TYPE_BYTE`. -/
def t50 : Table := { desc := [], lines := [
  [.lit [66, 121, 116, 101], .emit [.byteSym y_VT_ARRAY_BYTE], .ret]
  ] }

/-- Table `DIM_VAR_TYPE`. -/
def t51 : Table := { desc := [], lines := [
  [.lit [36], .call 10, .emit [.token .PUSH_1, .token .ADD, .token .USHL, .byteSym y_VT_ARRAY_STRING], .ret],
  [.call 10, .emit [.token .PUSH_1, .token .ADD], .call 50, .ret],
  [.call 10, .emit [.token .PUSH_1, .token .ADD, .token .USHL], .call 49, .ret],
  [.call 33, .ret]
  ] }

/-- Table `DIM_VAR`. -/
def t52 : Table := { desc := [110, 101, 119, 32, 118, 97, 114, 105, 97, 98, 108, 101, 32, 110, 97, 109, 101], lines := [
  [.ext .VAR_CREATE, .ext .PUSH_VAR, .call 51, .ext .VAR_SET_TYPE, .emit [.token (.other "DIM")], .ext .POP_VAR, .ret],
  [.ext .VAR_WORD, .ext .PUSH_VAR, .ret],
  [.emit [.byteSym y_VT_STRING], .ext .VAR_SEARCH, .lit [36], .ext .PUSH_VAR, .ret]
  ] }

/-- Table `IO_CHAN_OPT`. -/
def t53 : Table := { desc := [], lines := [
  [.call 79, .lit [44], .ret],
  [.ret]
  ] }

/-- Table `IO_CHAN_OPT_NOCOMMA`. -/
def t54 : Table := { desc := [], lines := [
  [.call 79, .ret],
  [.ret]
  ] }

/-- Table `IO_CHAN0`. -/
def t55 : Table := { desc := [], lines := [

  ] }

/-- Table `GETK_EXPR`. -/
def t56 : Table := { desc := [], lines := [
  [.call 43, .emit [.token .SADDR, .token .GETKEY, .token .POKE], .ret],
  [.call 34, .emit [.token .GETKEY, .token .DPOKE], .ret]
  ] }

/-- Table `C_EXPR`. -/
def t57 : Table := { desc := [99, 111, 109, 109, 97, 32, 102, 111, 108, 108, 111, 119, 101, 100, 32, 98, 121, 32, 97, 110, 32, 101, 120, 112, 114, 101, 115, 115, 105, 111, 110], lines := [
  [.lit [44], .emit [.token .PUSH], .call 13, .ret]
  ] }

/-- Table `EXPR_AB`. -/
def t58 : Table := { desc := [], lines := [
  [.lit [44], .call 13, .emit [.token .USHL, .token .USHL, .token .USHL, .token .USHL], .call 57, .emit [.token .ADD], .ret]
  ] }

/-- Table `DATA_WORDS`. -/
def t59 : Table := { desc := [100, 97, 116, 97, 32, 119, 111, 114, 100], lines := [
  [.lit [44], .ext .NUMBER_WORD, .call 59, .ret],
  [.ret]
  ] }

/-- Table `DATA_BYTE`. -/
def t60 : Table := { desc := [], lines := [
  [.lit [34], .ext .CONST_STRING, .ret],
  [.ext .NUMBER_BYTE, .ret],
  [.emit [.byteSym y_VT_ARRAY_BYTE], .ext .LABEL, .ret]
  ] }

/-- Table `DATA_BYTES`. -/
def t61 : Table := { desc := [100, 97, 116, 97, 32, 98, 121, 116, 101], lines := [
  [.call 60, .lit [44], .call 61, .ret],
  [.call 60, .ret]
  ] }

/-- Table `DATA_EXT_TYPE`. -/
def t62 : Table := { desc := [101, 120, 116, 101, 110, 100, 101, 100, 32, 100, 97, 116, 97, 32, 116, 121, 112, 101], lines := [
  [.lit [82, 79, 77], .ext .DATA_SET_ROM_SEG, .ret],
  [.lit [91], .ext .DATA_SET_SEGMENT, .lit [93], .ret],
  [.ret]
  ] }

/-- Table `DATA_TYPE`. -/
def t63 : Table := { desc := [100, 97, 116, 97, 32, 116, 121, 112, 101], lines := [
  [.call 50, .call 62, .call 37, .ext .LABEL_SET_TYPE, .call 61, .ret],
  [.call 49, .call 62, .call 37, .ext .LABEL_SET_TYPE, .ext .NUMBER_WORD, .call 59, .ret],
  [.call 50, .call 83, .ret],
  [.call 49, .call 83, .ret]
  ] }

/-- Table `DATA_END`. -/
def t64 : Table := { desc := [], lines := [
  [.lit [44], .ret],
  [.ext .POP_PROC_DATA, .ret]
  ] }

/-- Table `DATA_VAR`. -/
def t65 : Table := { desc := [110, 101, 119, 32, 100, 97, 116, 97, 32, 97, 114, 114, 97, 121, 32, 110, 97, 109, 101], lines := [
  [.call 63, .ret],
  [.ext .LABEL_CREATE, .lit [40, 41], .emit [.token .JUMP], .ext .LABEL_DEF, .call 63, .ret]
  ] }

/-- Table `PAUSE_OPT`. -/
def t66 : Table := { desc := [], lines := [
  [.call 13, .ret],
  [.ext .EOL, .emit [.token .ZERO], .ret]
  ] }

/-- Table `OPT_EXEC_PARAM`. -/
def t67 : Table := { desc := [], lines := [
  [.call 13, .call 68, .emit [.token .PUSH], .ret],
  [.ret]
  ] }

/-- Table `EXEC_PARAM_MORE`. -/
def t68 : Table := { desc := [], lines := [
  [.ext .COUNT_PARAM, .ret],
  [.call 57, .call 68, .ret],
  [.ret]
  ] }

/-- Table `EXEC_CALL`. -/
def t69 : Table := { desc := [], lines := [
  [.lit [69, 88, 69, 99], .ret],
  [.lit [64], .ret]
  ] }

/-- Table `OPT_PROC_VAR`. -/
def t70 : Table := { desc := [], lines := [
  [.ext .COUNT_PARAM, .ret],
  [.call 36, .call 70, .emit [.token (.other "POP"), .token .VAR_STORE], .ext .POP_VAR, .ret],
  [.ext .PROC_CHECK, .ret],
  [.ret]
  ] }

/-- Table `STATEMENT`. -/
def t71 : Table := { desc := [115, 116, 97, 116, 101, 109, 101, 110, 116], lines := [
  [.lit [46], .ext .REM, .ret],
  [.lit [63], .call 53, .call 31, .call 55, .ret],
  [.lit [80, 82, 73, 110, 116], .call 53, .call 31, .call 55, .ret],
  [.lit [73, 78, 112, 117, 116], .call 45, .call 46, .call 55, .ret],
  [.lit [71, 69, 116], .call 56, .ret],
  [.lit [80, 85, 116], .call 53, .call 13, .emit [.token .PUT], .call 55, .ret],
  [.lit [67, 76, 83], .call 54, .emit [.token .BYTE_PUT, .byteVal 125], .call 55, .ret],
  [.lit [80, 111, 107, 101], .call 13, .emit [.token .SADDR], .lit [44], .call 13, .emit [.token .POKE], .ret],
  [.lit [68, 112, 111, 107, 101], .call 13, .emit [.token .SADDR], .lit [44], .call 13, .emit [.token .DPOKE], .ret],
  [.lit [77, 83, 101, 116], .call 13, .call 57, .call 57, .emit [.token (.other "MSET")], .ret],
  [.lit [77, 111, 118, 101], .call 13, .call 57, .call 57, .emit [.token (.other "MOVE")], .ret],
  [.lit [45, 109, 111, 118, 101], .call 13, .call 57, .call 57, .emit [.token (.other "NMOVE")], .ret],
  [.lit [68, 79], .ext .EOL, .emit [.byteSym y_LT_DO_LOOP], .ext .PUSH_LT, .ret],
  [.lit [76, 111, 111, 112], .ext .EOL, .emit [.token .JUMP], .ext .POP_LOOP, .ret],
  [.lit [82, 101, 112, 101, 97, 116], .ext .EOL, .emit [.byteSym y_LT_REPEAT], .ext .PUSH_LT, .ret],
  [.lit [85, 110, 116, 105, 108], .call 14, .emit [.token .CJUMP], .ext .POP_REPEAT, .ret],
  [.lit [87, 104, 105, 108, 101], .emit [.byteSym y_LT_WHILE_1], .ext .PUSH_LT, .call 14, .emit [.token .CJUMP, .byteSym y_LT_WHILE_2], .ext .PUSH_LT, .ret],
  [.lit [87, 69, 110, 100], .ext .EOL, .emit [.token .JUMP], .ext .POP_WHILE, .ret],
  [.lit [73, 102], .call 14, .emit [.token .CJUMP, .byteSym y_LT_IF], .ext .PUSH_LT, .call 32, .ret],
  [.lit [70, 111, 114], .call 34, .call 37, .emit [.token .PUSH], .call 13, .emit [.token .DPOKE], .lit [84, 111], .call 13, .call 38, .emit [.token (.other "FOR"), .token .CNJUMP, .byteSym y_LT_FOR_2], .ext .PUSH_LT, .emit [.byteSym y_LT_FOR_1], .ext .PUSH_LT, .ret],
  [.lit [78, 101, 120, 116], .emit [.token (.other "FOR_NEXT")], .emit [.token .CJUMP], .call 39, .ext .EOL, .ext .POP_FOR, .emit [.token (.other "FOR_EXIT")], .ret],
  [.lit [69, 76, 115, 101], .ext .EOL, .emit [.token .JUMP], .emit [.byteSym y_LT_ELSE], .ext .ELSEIF, .ret],
  [.lit [69, 76, 73, 102], .emit [.token .JUMP, .byteSym y_LT_ELIF], .ext .ELSEIF, .call 14, .emit [.token .CJUMP, .byteSym y_LT_IF], .ext .PUSH_LT, .ret],
  [.lit [69, 110, 100, 105, 102], .ext .EOL, .ext .POP_IF, .ret],
  [.lit [69, 88, 105, 116], .emit [.token .JUMP], .ext .EXIT_LOOP, .ret],
  [.lit [80, 79, 83, 105, 116, 105, 111, 110], .call 40, .ret],
  [.lit [68, 73, 109], .call 52, .call 44, .ret],
  [.lit [80, 65, 117, 115, 101], .call 66, .emit [.token (.other "PAUSE")], .ret],
  [.lit [73, 78, 67], .call 34, .emit [.token .INC], .ret],
  [.lit [68, 69, 99], .call 34, .emit [.token .DEC], .ret],
  [.lit [80, 82, 111, 99], .ext .LABEL_CREATE, .emit [.token .JUMP], .ext .LABEL_DEF, .emit [.byteSym y_LT_PROC_2], .ext .PUSH_LT, .call 70, .ret],
  [.lit [69, 78, 68, 80, 114, 111, 99], .ext .POP_PROC_2, .emit [.token .RET], .ext .POP_PROC_DATA, .ret],
  [.call 69, .ext .LABEL_CREATE, .call 67, .emit [.token .CALL], .ext .DO_EXEC, .ret],
  [.lit [68, 65, 116, 97], .call 65, .call 64, .ret],
  [.lit [69, 78, 68], .emit [.token .END], .ret],
  [.lit [84, 105, 109, 101, 114], .emit [.token .ZERO, .token .BYTE_POKE, .byteVal 1, .token .ZERO, .token .BYTE_POKE, .byteVal 2], .ret],
  [.lit [67, 76, 82], .emit [.token .NUM, .wordSym y_CLEAR_DATA, .token (.other "USR_ADDR"), .token (.other "USR_CALL")], .ret],
  [.lit [68, 76, 105], .call 74, .ret],
  [.lit [80, 77, 71, 114, 97, 112, 104, 105, 99, 115], .call 13, .emit [.token (.other "PMGRAPHICS")], .ret],
  [.lit [80, 77, 104, 112, 111, 115], .call 13, .emit [.token .PUSH_NUM, .wordVal 49152, .token .ADD, .token .SADDR], .lit [44], .call 13, .emit [.token .POKE], .ret],
  [.lit [71, 114, 97, 112, 104, 105, 99, 115], .emit [.token .ZERO, .token (.other "PMGRAPHICS")], .call 13, .emit [.token (.other "GRAPHICS")], .ret],
  [.lit [67, 111, 108, 111, 114], .call 13, .emit [.token .BYTE_POKE, .byteSym y_COLOR], .ret],
  [.lit [80, 76, 111, 116], .call 40, .emit [.token (.other "PLOT")], .ret],
  [.lit [76, 79, 67, 97, 116, 101], .call 40, .call 80, .ret],
  [.lit [68, 82, 97, 119, 116, 111], .call 40, .emit [.token (.other "DRAWTO")], .ret],
  [.lit [83, 69, 116, 99, 111, 108, 111, 114], .call 13, .emit [.token .PUSH_NUM, .wordVal 12, .token .ADD, .token .SADDR], .call 58, .emit [.token .POKE], .ret],
  [.lit [83, 111, 117, 110, 100], .call 81, .ret]
  ] }

/-- Table `LINE_ASSIGNMENT`. -/
def t72 : Table := { desc := [], lines := [
  [.call 36, .call 37, .call 13, .emit [.token .VAR_STORE], .ext .POP_VAR, .ret],
  [.call 34, .call 37, .call 13, .emit [.token .DPOKE], .ret],
  [.call 43, .emit [.token .SADDR], .call 37, .call 13, .emit [.token .POKE], .ret],
  [.call 35, .call 37, .call 25, .emit [.token (.other "COPY_STR")], .ret],
  [.call 35, .call 37, .lit [43], .call 25, .emit [.token (.other "CAT_STR")], .ret],
  [.ret]
  ] }

/-- Table `PARSE_START`. -/
def t73 : Table := { desc := [], lines := [
  [.call 71, .ext .EOL, .ret],
  [.call 72, .ext .EOL, .ret]
  ] }

/-- Table `DLI_COMMAND`. -/
def t74 : Table := { desc := [39, 83, 69, 84, 39, 44, 32, 108, 97, 98, 101, 108], lines := [
  [.lit [83, 101, 116], .ext .LABEL_CREATE, .emit [.token .JUMP], .ext .LABEL_DEF, .emit [.byteSym y_VT_ARRAY_BYTE], .ext .LABEL_SET_TYPE, .emit [.byteVal 72, .byteVal 138, .byteVal 72, .byteVal 166, .byteSym y_COLRSH], .call 37, .call 76, .emit [.byteVal 141, .wordVal 54282], .call 77, .call 75, .ret],
  [.call 37, .call 76, .call 77, .call 75, .ret],
  [.emit [.token .ZERO, .token (.other "PAUSE"), .token .NUM, .wordVal 518, .token .SADDR, .token .NUM, .byteSym y_VT_ARRAY_BYTE], .ext .LABEL, .emit [.token .DPOKE, .token .BYTE, .byteVal 192, .token .NUM_POKE, .wordVal 54286], .ret],
  [.emit [.token .BYTE, .byteVal 64, .token .NUM_POKE, .wordVal 54286], .ret]
  ] }

/-- Table `DLI_MORE`. -/
def t75 : Table := { desc := [], lines := [
  [.call 77, .call 75, .ret],
  [.lit [44], .call 76, .call 77, .call 75, .ret],
  [.lit [44], .ret],
  [.emit [.byteVal 230, .byteSym y_COLRSH, .byteVal 104, .byteVal 170, .byteVal 104, .byteVal 64], .ext .POP_PROC_DATA, .ret]
  ] }

/-- Table `DLI_LDA`. -/
def t76 : Table := { desc := [68, 76, 73, 32, 115, 111, 117, 114, 99, 101, 32, 100, 97, 116, 97], lines := [
  [.emit [.byteVal 189, .byteSym y_VT_ARRAY_BYTE], .ext .LABEL, .ret],
  [.emit [.byteVal 169], .ext .NUMBER_BYTE, .ret]
  ] }

/-- Table `DLI_STA`. -/
def t77 : Table := { desc := [68, 76, 73, 32, 100, 101, 115, 116, 105, 110, 97, 116, 105, 111, 110], lines := [
  [.lit [73, 110, 116, 111], .emit [.byteVal 141], .ext .NUMBER_WORD, .ret],
  [.lit [87, 115, 121, 110, 99], .emit [.byteVal 141, .wordVal 54282], .call 77, .ret]
  ] }

/-- Table `IO_CHAN_N6`. -/
def t78 : Table := { desc := [40, 111, 110, 108, 121, 32, 73, 47, 79, 32, 99, 104, 97, 110, 110, 101, 108, 32, 54, 32, 115, 117, 112, 112, 111, 114, 116, 101, 100, 41], lines := [
  [.lit [54], .ret]
  ] }

/-- Table `IO_CHAN`. -/
def t79 : Table := { desc := [73, 47, 79, 32, 99, 104, 97, 110, 110, 101, 108, 32, 110, 117, 109, 98, 101, 114], lines := [
  [.lit [35], .call 78, .ret]
  ] }

/-- Table `LOC_VAR`. -/
def t80 : Table := { desc := [99, 111, 109, 109, 97], lines := [
  [.lit [44], .call 43, .emit [.token .SADDR, .token (.other "LOCATE"), .token .POKE], .ret],
  [.lit [44], .call 34, .emit [.token (.other "LOCATE"), .token .DPOKE], .ret]
  ] }

/-- Table `SOUND`. -/
def t81 : Table := { desc := [], lines := [
  [.call 82, .lit [44], .call 13, .emit [.token .PUSH], .call 58, .emit [.token .SHL8, .token .ADD, .token .DPOKE, .token .ZERO, .token .NUM_POKE, .wordVal 59400, .token .BYTE, .byteVal 3, .token .NUM_POKE, .wordVal 59407], .ret],
  [.call 82, .emit [.token .ZERO, .token .DPOKE], .ret],
  [.emit [.token .NUM, .wordSym y_SOUND_OFF, .token (.other "USR_ADDR"), .token (.other "USR_CALL")], .ret]
  ] }

/-- Table `SOUND_S1`. -/
def t82 : Table := { desc := [], lines := [
  [.call 13, .emit [.token .USHL, .token .PUSH_NUM, .wordVal 59392, .token .ADD, .token .SADDR], .ret]
  ] }

/-- Table `DATA_FILE`. -/
def t83 : Table := { desc := [], lines := [
  [.lit [70, 105, 108, 101], .call 62, .ext .LABEL_SET_TYPE, .lit [34], .ext .DATA_FILE, .ret]
  ] }

/-- The tables, by number, `/repo/compiler/atari-5200.tgt`. -/
def tables : List Table := [
  t0, t1, t2, t3, t4, t5, t6, t7, t8, t9, t10, t11, t12, t13, t14, t15, t16, t17, t18, t19, t20, t21, t22, t23, t24, t25, t26, t27, t28, t29, t30, t31, t32, t33, t34, t35, t36, t37, t38, t39, t40, t41, t42, t43, t44, t45, t46, t47, t48, t49, t50, t51, t52, t53, t54, t55, t56, t57, t58, t59, t60, t61, t62, t63, t64, t65, t66, t67, t68, t69, t70, t71, t72, t73, t74, t75, t76, t77, t78, t79, t80, t81, t82, t83]

/-- The grammar: table by number. -/
def grammar : Grammar := fun n => tables[n]?

/-- The number of table `PARSE_START`. -/
abbrev n_PARSE_START : Nat := 73
/-- The number of table `STATEMENT`. -/
abbrev n_STATEMENT : Nat := 71
/-- The number of table `EXPR`. -/
abbrev n_EXPR : Nat := 13
/-- The number of table `LINE_ASSIGNMENT`. -/
abbrev n_LINE_ASSIGNMENT : Nat := 72
/-- The number of table `THEN_OR_MULTILINE`. -/
abbrev n_THEN_OR_MULTILINE : Nat := 32
/-- The number of table `IO_CHAN0`. -/
abbrev n_IO_CHAN0 : Nat := 55

end FB.Parse.Atari5200
