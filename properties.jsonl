{"id": "C01", "title": "Compile-time constant folding computes what the runtime would compute", "statement": "For every integer operator that the optimizer evaluates at compile time on literal operands (+, -, *, /, MOD, &, !, EXOR, unary minus, address doubling, *256, boolean test) the literal it leaves in the program is the value the interpreter leaves in its accumulator when it executes the unoptimized code on the same operands. (Known exception to be delimited exactly: MOD with a zero divisor.)", "quantifier": "all pairs of 16-bit operands, all folded operators", "why_tests_cant": "The operands range over all 16-bit values (2^32 pairs per operator) and the two sides are computed by different programs (C++ at compile time, 6502 code at run time).", "anchors": ["src/compiler/peephole.cc: peephole (constant folding rules)", "src/interp/{addsub,mul,div,bitand,bitor,bitexor,comp0,negax,lnot,shl8,ushl}.asm"]}
{"id": "C02", "title": "Strength-reduced comparisons with a constant keep their truth value", "statement": "Rewriting `x <= k` to `x < k+1`, `x >= k` to `x > k-1`, and dropping comparisons that are always true/false never changes the result of the comparison. (Known exception to be delimited exactly: the boundary constants.)", "quantifier": "all 16-bit x and all 16-bit constants k", "why_tests_cant": "The failing constants are isolated points of a 2^32 space; a test for ordinary constants passes.", "anchors": ["src/compiler/peephole.cc: peephole (comparison rules, lines ~1190-1290)", "src/interp/addsub.asm / comparison tokens"]}
{"id": "C03", "title": "The optimizer preserves the behaviour of every program", "statement": "If the unoptimized bytecode runs without reading an undefined accumulator or a non boolean as condition, then the optimized bytecode started in the same machine state produces the same sequence of output bytes, the same memory writes visible to the program and the same final outcome (end / still running).", "quantifier": "all well-formed bytecode programs, all initial machine states, all run lengths, all peephole rules", "why_tests_cant": "Rules are position-based pattern matches over an unbounded code vector, and are re-run until nothing changes; interactions between rules, labels and dead code cannot be enumerated.", "anchors": ["src/compiler/peephole.cc: class peephole (all)", "src/interp/*.asm"]}
{"id": "C04", "title": "Optimizing never breaks a jump", "statement": "After optimization every label that is referenced by a jump, call or address literal is still defined, and no label becomes defined twice, provided this held before.", "quantifier": "all programs whose labels were well defined before, all optimizer passes", "why_tests_cant": "Label removal, label retargeting and dead code removal interact over several passes.", "anchors": ["src/compiler/peephole.cc: remove_unused_labels, replace_label_targets, main rules for JUMP/CALL/RET"]}
{"id": "C05", "title": "The optimizer terminates", "statement": "For every program the compiler accepts the optimizer reaches a fixed point, so compilation finishes. (To be delimited: this is refuted for cyclic tail calls.)", "quantifier": "all programs", "why_tests_cant": "Non-termination cannot be observed by a finite test and termination cannot be established by any number of tests.", "anchors": ["src/compiler/peephole.cc: do { ... } while(changed), replace_label_targets"]}
{"id": "C06", "title": "Merging constant PRINT items keeps the printed text", "statement": "Joining adjacent constant strings and constant colours of PRINT statements into fewer print instructions sends exactly the same bytes to the same channel.", "quantifier": "all sequences of constant print items, all strings (0..255 bytes), all colours", "why_tests_cant": "Strings, lengths and colours are unbounded combinations; failures happen only with particular orders (empty string before COLOR, CHR$ under COLOR).", "anchors": ["src/compiler/peephole.cc: print_chars, fold of CSTRING/PRINT_STR, CHR/PRINT_STR", "src/interp/print_str.asm, putbyte.asm"]}
{"id": "C07", "title": "16-bit multiplication is exact modulo 65536", "statement": "For all x, y the multiply routine of the runtime ends with the accumulator equal to x*y mod 65536, pops exactly one value and leaves other program state alone.", "quantifier": "all 2^32 operand pairs, all initial scratch register contents", "why_tests_cant": "The operands range over all 16-bit values (2^32 pairs per operator) and the two sides are computed by different programs (C++ at compile time, 6502 code at run time).", "anchors": ["src/interp/mul.asm: EXE_MUL"]}
{"id": "C08", "title": "Signed division and modulus", "statement": "For all x and all y /= 0 the runtime division truncates toward zero and MOD takes the sign of the dividend, with x = y*(x/y) + x MOD y (mod 65536); division by zero gives -1 or 1 by the sign of x; the routine always terminates.", "quantifier": "all 2^32 operand pairs", "why_tests_cant": "The operands range over all 16-bit values (2^32 pairs per operator) and the two sides are computed by different programs (C++ at compile time, 6502 code at run time).", "anchors": ["src/interp/div.asm: EXE_DIV, EXE_MOD, divmod_sign_adjust"]}
{"id": "C09", "title": "Integer comparisons are the signed order", "statement": "For all x, y the comparison tokens return exactly 1 or 0 according to the mathematical signed 16-bit order / equality, including when x-y overflows.", "quantifier": "all 2^32 operand pairs", "why_tests_cant": "The operands range over all 16-bit values (2^32 pairs per operator) and the two sides are computed by different programs (C++ at compile time, 6502 code at run time).", "anchors": ["src/interp/addsub.asm and comp0.asm: EXE_LT, EXE_GT, EXE_EQ, EXE_NEQ, EXE_COMP_0, EXE_L_NOT"]}
{"id": "C10", "title": "Negation, absolute value, sign, shifts, increments", "statement": "Unary minus, ABS, SGN, address doubling, multiplication by 256, INC and DEC of a 16-bit memory cell compute the exact mod 65536 result for every value, including carries between bytes and -32768.", "quantifier": "all 16-bit values and all memory addresses", "why_tests_cant": "The operands range over all 16-bit values (2^32 pairs per operator) and the two sides are computed by different programs (C++ at compile time, 6502 code at run time).", "anchors": ["src/interp/{absneg,negax,sgn,ushl,shl8,inc,dec}.asm"]}
{"id": "C11", "title": "FOR / NEXT executes exactly the documented iterations", "statement": "For every start, limit and step the loop body is executed once for each value start, start+step, ... that is not past the limit (signed, direction given by the sign of the step), and the loop terminates whenever the next value does not wrap around; limit and step are evaluated once.", "quantifier": "all 16-bit start/limit/step triples", "why_tests_cant": "2^48 cases and an unbounded number of iterations.", "anchors": ["src/interp/for.asm: EXE_FOR, EXE_FOR_NEXT", "src/interp/for_exit.asm"]}
{"id": "C12", "title": "String assignment and concatenation never exceed 255 characters and copy exactly", "statement": "Assignment makes the destination equal to the source; =+ appends as many source characters as fit so that the length never exceeds 255 and the existing prefix is unchanged; no byte outside the 256-byte buffer is written.", "quantifier": "all source and destination strings of 0..255 bytes, all non overlapping addresses", "why_tests_cant": "256*256 length pairs with arbitrary content and address placement (page crossings).", "anchors": ["src/interp/copystr.asm: EXE_COPY_STR, EXE_CAT_STR"]}
{"id": "C13", "title": "String slicing", "statement": "s[start] and s[start,len] return exactly the documented substring for every string, start and length, including start 0, start past the end, and lengths that do not fit.", "quantifier": "all strings of 0..255 bytes, all start and length values", "why_tests_cant": "256*65536*65536 combinations with index clamping at several boundaries.", "anchors": ["src/interp/strindex.asm: EXE_STR_IDX"]}
{"id": "C14", "title": "String comparison is lexicographic order", "statement": "CMP_STR followed by the integer comparison against zero decides unsigned lexicographic order of the two strings (shorter prefix first) and equality, for all strings.", "quantifier": "all pairs of strings of 0..255 bytes", "why_tests_cant": "Unbounded content pairs.", "anchors": ["src/interp/cmpstr.asm: EXE_CMP_STR"]}
{"id": "C15", "title": "MOVE, -MOVE and MSET are the documented loops", "statement": "MOVE a,b,n and -MOVE a,b,n leave memory equal to the documented ascending / descending byte loop for every address and length including overlapping ranges and page crossings; MSET fills exactly n bytes.", "quantifier": "all source, destination addresses and lengths (unsigned 16 bit)", "why_tests_cant": "2^48 address/length combinations with overlap.", "anchors": ["src/interp/{move,nmove,mset}.asm"]}
{"id": "C16", "title": "A failed syntax alternative leaves no trace", "statement": "When the parser abandons an alternative, the code emitted, the input position and the listing text are exactly what they were when the alternative was started.", "quantifier": "all grammars, all inputs, all parser actions, all nesting depths", "why_tests_cant": "The grammar is data read from files at run time; the statement is about every table and every input.", "anchors": ["src/compiler/parser.cc: parse_table, parse_line", "src/compiler/parser.h: save, restore"]}
{"id": "C17", "title": "Parser recursion is bounded and the recursion level is balanced", "statement": "Whatever the grammar (even left recursive) and the input, parse_table never nests more than 201 calls (levels 0 to MAX_RECURSE_LEVEL = 200): the next one reports 'expression too complex'. On return, with success or failure, the recursion level is what it was at entry.", "quantifier": "all grammars and inputs", "why_tests_cant": "Left-recursive grammars and adversarial inputs are unbounded.", "anchors": ["src/compiler/parser.cc: parse_table", "src/compiler/parser.h: check_level, MAX_RECURSE_LEVEL"]}
{"id": "C18", "title": "Keyword matching and abbreviations", "statement": "A keyword in the grammar is accepted exactly when the input has the full keyword in any letter case, or a proper prefix of it followed by '.', where the first character left out is one that the grammar writes in lower case. For a keyword written as upper case characters followed by lower case ones, this means that the prefix has at least all the upper case characters.", "quantifier": "all keywords and all inputs", "why_tests_cant": "Every prefix of every keyword against every input text.", "anchors": ["src/compiler/parser.cc: parse_literal / match"]}
{"id": "C19", "title": "Integer literals", "statement": "A decimal or hexadecimal literal is accepted as a word exactly when its magnitude is at most 65535 (with a minus sign: 1 to 65535; decimal digits followed by a point are not an integer literal), whatever its number of digits, and the word in the program is its value modulo 65536; as a byte, when that word is at most 255. Longer or overflowing numbers are rejected instead of wrapping.", "quantifier": "all digit strings of any length", "why_tests_cant": "Digit strings are unbounded; wrap-around happens only for particular long inputs.", "anchors": ["src/compiler/parser-actions.cc: get_hex, get_dec, get_number, SMB_E_NUMBER_WORD, SMB_E_NUMBER_BYTE"]}
{"id": "C20", "title": "String literals decode to the written bytes, and the listing round-trips", "statement": "A string literal is accepted exactly when it follows the documented form (quotes, doubled quotes, $ with hexadecimal digits between quoted parts) and the constant in the program has exactly the written bytes. The expanded listing of a string constant, read again by the compiler, produces the same byte string, for every byte string and whatever the listing writes after it; the same for the short listing.", "quantifier": "all byte strings of length 0..255", "why_tests_cant": "All byte contents, with quote characters, control bytes and $ escapes in every adjacency.", "anchors": ["src/compiler/parser.h: add_text_str", "src/compiler/parser-actions.cc: SMB_E_CONST_STRING / get_const_string"]}
{"id": "C21", "title": "Emitted assembly encodes exactly the intended bytes", "statement": "The text written for every string constant, byte, word and token, read by the assembler, produces the bytes of the program; a string is its length followed by its bytes whatever characters it contains.", "quantifier": "all byte strings and all 16-bit values", "why_tests_cant": "Escaping bugs depend on adjacency of special characters.", "anchors": ["src/compiler/codew.h: escape, to_asm"]}
{"id": "C22", "title": "Control structures are properly nested or rejected", "statement": "If a program is accepted, every loop/IF/PROC opened was closed by its matching terminator in last-in-first-out order; otherwise an error is reported.", "quantifier": "all sequences of control statements of any length and depth", "why_tests_cant": "Sequences are unbounded.", "anchors": ["src/compiler/parser.h: push_loop, pop_loop, check_loops", "src/compiler/parser-actions.cc: SMB_E_PUSH_LT, SMB_E_POP_*, SMB_E_ELSEIF"]}
{"id": "C23", "title": "Every jump emitted for a control structure has exactly one target", "statement": "In an accepted program each label used by a jump generated for a loop, IF, EXIT or PROC is defined exactly once, and label names are never reused.", "quantifier": "all accepted sequences of control statements", "why_tests_cant": "Unbounded nesting of structures and EXITs.", "anchors": ["src/compiler/parser.h: new_label, push_loop, pop_loop", "src/compiler/parser-actions.cc: E_EXIT_LOOP, E_POP_*"]}
{"id": "C24", "title": "EXIT leaves the innermost enclosing loop or procedure", "statement": "EXIT jumps to the point just after the end of the innermost enclosing FOR, WHILE, REPEAT, DO or PROC, skipping IFs; EXIT outside any of them is an error.", "quantifier": "all nestings, all positions of EXIT", "why_tests_cant": "Unbounded nestings.", "anchors": ["src/compiler/parser-actions.cc: SMB_E_EXIT_LOOP", "src/compiler/looptype.*", "src/actions.asm: E_EXIT_LOOP"]}
{"id": "C25", "title": "The native (6502) compiler and the cross compiler resolve jumps to the same places", "statement": "With the optimizer disabled, the jump targets that the native compiler patches into the code are the positions at which the cross compiler defines the corresponding labels, for every accepted nesting of control structures.", "quantifier": "all accepted sequences of control statements and emitted code", "why_tests_cant": "Two different algorithms (back-patching with a fixed stack vs. symbolic labels) on unbounded inputs.", "anchors": ["src/actions.asm: E_PUSH_LT, E_POP_*, E_EXIT_LOOP, check_loop_exit, patch_codep", "src/compiler/parser-actions.cc: SMB_E_PUSH_LT, SMB_E_POP_*, SMB_E_EXIT_LOOP"]}
{"id": "C26", "title": "Distinct variables never share storage", "statement": "In the assembled program every variable occupies its own memory: 2 bytes (6 for floating point) at the address the code uses for it, no two variables overlap, and a variable's number never changes.", "quantifier": "all sequences of variable creations of any type", "why_tests_cant": "Unbounded sequences of declarations, interleaved types and failed parse attempts.", "anchors": ["src/compiler/parser-actions.cc: SMB_E_VAR_CREATE, SMB_E_VAR_SET_TYPE", "src/compiler/compile.cc: HEAP segment output", "src/interp/varaddr.asm"]}
{"id": "C27", "title": "A variable keeps its type", "statement": "Once a name has been given a type every later use in the program either uses it with that type or is rejected.", "quantifier": "all sequences of declarations and uses", "why_tests_cant": "Unbounded histories.", "anchors": ["src/compiler/parser-actions.cc: var_check, SMB_E_VAR_CREATE, SMB_E_VAR_SET_TYPE"]}
{"id": "C28", "title": "PROC parameter counts agree and undefined or duplicate procedures are rejected", "statement": "If compilation succeeds every EXEC of a procedure passes as many arguments as the PROC declares, whichever came first in the source, every used procedure is defined, and none is defined twice.", "quantifier": "all orders and numbers of PROC and EXEC statements", "why_tests_cant": "Unbounded histories with forward references.", "anchors": ["src/compiler/parser-actions.cc: SMB_E_LABEL_*, SMB_E_PROC_CHECK", "src/compiler/vartype.*: labelType", "src/compiler/compile.cc: check labels"]}
{"id": "C29", "title": "Final code assembly keeps every procedure exactly once", "statement": "The program written out is the main program terminated by an end instruction, followed by every procedure/data block exactly once, complete and in source order.", "quantifier": "all sets of procedures, all nesting of definition order", "why_tests_cant": "Unbounded lists and orders.", "anchors": ["src/compiler/parser.h: full_code, push_proc, pop_proc"]}
{"id": "C30", "title": "Token numbers in the output are consistent", "statement": "The output imports each token used by the program exactly once and nothing else, and whatever the order in which the linker puts the entries of the token table, the byte written for a token makes the interpreter run the routine of that token.", "quantifier": "all programs", "why_tests_cant": "All subsets of tokens.", "anchors": ["src/compiler/parser.h: used_tokens", "src/compiler/compile.cc: token output"]}
{"id": "C31", "title": "Source text is split into the right lines for all end-of-line conventions", "statement": "Reading a source file yields the same sequence of line contents whether lines end in LF, CR LF or ATASCII $9B, and no characters are lost or merged.", "quantifier": "all byte strings", "why_tests_cant": "Unbounded files with mixed terminators and missing final terminator.", "anchors": ["src/compiler/compile.cc: readLine"]}
{"id": "C32", "title": "Conditional sections of syntax files", "statement": "The preprocessor keeps exactly the lines that are outside of conditional sections or inside sections whose condition holds, for arbitrarily nested sections, and reports unbalanced ones.", "quantifier": "all input texts and all sets of definitions", "why_tests_cant": "Unbounded nesting.", "anchors": ["src/compiler/synt-preproc.cc: preproc::read_input"]}
{"id": "C33", "title": "Optimizing the grammar tables does not change what is parsed", "statement": "Merging emits, inlining single-use tables, tail calls and removal of empty tables leave, for every input, acceptance, emitted code and final position unchanged.", "quantifier": "all grammars, all inputs", "why_tests_cant": "All grammars is an unbounded domain.", "anchors": ["src/compiler/synt-optimize.cc: syntax_merge, syntax_optimize", "src/compiler/synt-sm.cc"]}
{"id": "C34", "title": "Every source line label in the debugging output is unique", "statement": "The labels generated for source lines are pairwise distinct whatever the line numbers and how often code is emitted for the same line.", "quantifier": "all sequences of line numbers", "why_tests_cant": "Unbounded histories; suffix numbers could collide.", "anchors": ["src/compiler/compile.cc: line label output"]}
{"id": "C35", "title": "Floating point literals are encoded in normalized Atari BCD", "statement": "For every decimal literal in range, the six bytes emitted are a normalized Atari BCD number equal to the literal rounded to 10 significant base-100-aligned digits. (To be delimited: rounding up to a power of 100.)", "quantifier": "all non-negative rational literal values in range", "why_tests_cant": "Infinitely many literals; failures are at isolated rounding boundaries.", "anchors": ["src/compiler/atarifp.cc: atari_fp::update, tobcd"]}
{"id": "C36", "title": "Floating point listing text re-reads to the same number", "statement": "The text printed for a floating point constant denotes exactly the value held in its BCD encoding, for every exponent and mantissa.", "quantifier": "all 10^10 mantissas and all exponents", "why_tests_cant": "10^12 values, with several formatting branches.", "anchors": ["src/compiler/atarifp.cc: atari_fp::to_string"]}
{"id": "C37", "title": "Integer to text to integer", "statement": "VAL(STR$(n)) = n for every 16-bit integer, and the text is the ordinary decimal representation.", "quantifier": "all 16-bit integers", "why_tests_cant": "Covers OS conversion contract plus sign handling; needs all values.", "anchors": ["src/interp/a5200/str.asm", "src/interp/a5200/val.asm", "src/interp/a800/val.asm", "src/interp/a800/streol.asm"]}
{"id": "C38", "title": "Variable name lookup", "statement": "Searching a name in the native compiler's packed name table finds exactly the entry with that name (case-insensitive), or reports that it does not exist, whatever the other names are, including names that are prefixes of each other.", "quantifier": "all lists of names and all searched names", "why_tests_cant": "Unbounded lists.", "anchors": ["src/vars.asm: list_search, name_new, var_search"]}
{"id": "C39", "title": "Memory allocation by the native compiler keeps areas disjoint", "statement": "Growing any of the compiler's memory areas moves the later areas without losing or overlapping bytes, or reports out of memory.", "quantifier": "all sequences of allocations and sizes", "why_tests_cant": "Unbounded histories.", "anchors": ["src/alloc.asm: alloc_prog, alloc_laddr, alloc_area_8, parser_alloc_init", "src/interp/nmove.asm: move_dwn", "src/memptr.asm"]}
{"id": "C40", "title": "Reported error position is the furthest position any alternative reached", "statement": "When a line is rejected the reported column is the furthest position at which any attempted alternative expected something (or the position of the last error that replaces all others), and the messages listed are exactly those expected at that position. It is never before the start nor after the end of the line.", "quantifier": "all grammars and inputs", "why_tests_cant": "Depends on every alternative tried.", "anchors": ["src/compiler/parser.h: error, save_pos", "src/compiler/parser.cc: parse_table, parse_line"]}
{"id": "C41", "title": "The optimizer never touches memory outside of the program it optimizes", "statement": "Optimizing any program whose instructions all have their operands and that ends in an END never reads or writes an element before the start or after the end of the code, and leaves every instruction with its operands.", "quantifier": "all well-formed programs, all rules, all passes, any number of rounds", "why_tests_cant": "An out of bounds access depends on which of the ~100 rules fire at which position of arbitrary programs, and usually does not crash a test run.", "anchors": ["src/compiler/peephole.cc: class peephole (mtok, mword, del, set_*, ins_*)"]}
{"id": "C42", "title": "No source text breaks the parser", "statement": "Whatever the source text, compiling it with the shipped grammar ends, and ends with a program or with an error reported to the user: no action takes an element from an empty code vector (undefined behaviour), none raises an internal error because the element taken is of the wrong kind, and pop_proc never finds another procedure than the one to close.", "quantifier": "all source texts, all contents of the files included", "why_tests_cant": "Source texts are unbounded, and the conditions depend on the combination of grammar data and C++ actions.", "anchors": ["src/compiler/parser-actions.cc: all actions that call remove_last / get_str", "src/compiler/parser.h: remove_last, pop_proc", "src/compiler/parser.cc: parse_table, parse_line", "src/compiler/compile.cc: parse_line, compile_file", "src/syntax/*.syn"]}
{"id": "C43", "title": "The 6502 runtime implements the virtual machine", "statement": "For every program placed in memory by the assembler and the linker, the 6502 code of the interpreter loop and of the routines of the tokens does what the semantics of the virtual machine (used for the optimizer properties C01-C06) says: it writes the same characters to the same channels in the same order, ends exactly when the program ends, with the same memory, and in no other way.", "quantifier": "all programs, all placements in memory, all initial memories, all runs (ending or not)", "why_tests_cant": "Each routine relies on what all the others leave in registers, in shared cells of page zero, in the integer stack and in shared buffers; a test only sees the combinations of instructions of one program with one placement.", "anchors": ["src/interpreter.asm: interpreter, interpreter_run, pushAX", "src/interp/*.asm: EXE_* routines", "src/deftok.inc"]}
{"id": "C44", "title": "The parser of the native compiler does what the syntax files say", "statement": "For every set of parsing tables written by the syntax tools, every line and every behaviour of the routines called by the tables, the 6502 code of the native parser accepts a statement, with some emitted code and final position, exactly when the meaning of the tables says so, rejects it exactly when they do, and in the other cases (nested too deep, code too long, error in a routine) ends the compilation with an error; it always ends. With the tables of the two native compilers, the meaning is that of the syntax files before the optimizer.", "quantifier": "all tables, all placements in memory, all lines, all routines that keep the stack and the pointer to the tables", "why_tests_cant": "The parser is one interpreter for any tables: backtracking, nesting, abbreviations, 256-byte limits and the sharing of the processor stack between saved states and return addresses combine in unboundedly many ways that the lines of a test suite do not reach.", "anchors": ["src/parse.asm: parse_start, ploop, pcall, pemit, pexit_ok, ploop_nextline, skip_line, emit_sub", "src/compiler/synt-emit-asm.cc", "src/actions.asm: E_EOL, E_REM", "src/syntax/*.syn"]}
{"id": "C45", "title": "The code of the native compiler for loops and labels keeps its stack, its list of addresses and the code as the algorithm of jumps says", "statement": "In the 6502 code of the native compiler, the routine of each action on loops, jumps and labels takes the memory that holds a state of the algorithm of jumps to the memory that holds the next state, emits and patches the same bytes, returns with the carry clear and changes nothing else; where the algorithm gives an error, or the line of code would be longer than 255 bytes, or there is no memory, it ends with an error instead. A label is used only with its type, and a new name is appended to the table without any change to the other areas.", "quantifier": "all states of the stack of loops, of the list of addresses and of the names, all placements in memory, all contents of the code", "why_tests_cant": "The routines use page-crossing pointers, flags that survive calls, a stack of loops with insertion in the middle, and areas that move when another grows; every length and address matters, and the paths with no memory or with a full line are seldom run.", "anchors": ["src/actions.asm: E_PUSH_LT, E_POP_*, E_EXIT_LOOP, E_ELSEIF, E_LABEL_DEF, E_LABEL, E_DO_EXEC, E_LABEL_CREATE, push_codep, pop_codep, check_loop_exit, patch_codep, add_laddr_list, laddr_search_start", "src/vars.asm: label_search, name_new", "src/alloc.asm: alloc_area_8"]}
{"id": "C46", "title": "The native compiler reads the constants of a program like the specification, and like the cross compiler", "statement": "In the 6502 code of the native compiler, a number or a byte in the program is accepted exactly when the text is a decimal or hexadecimal literal of at most 16 bits (8 bits for a byte), and a string exactly when it is a string literal with doubled quotes and `$` bytes; then exactly the literal is consumed and exactly the bytes of its value (for strings the length and the bytes) are emitted, or the compiler ends with an error if the line of code would be longer than 255 bytes. A text in capital letters has the same meaning in both compilers, except for `+5` and `-0` and for `$` values over 255 in strings, that only the native compiler accepts.", "quantifier": "all texts of lines, all positions in the line and in the code, all contents of memory, both native compilers", "why_tests_cant": "Literals of any length with any mixture of quotes, `$` and digits, followed by anything, and overflow at any digit and at any position of the code line; the two compilers were written separately in two languages.", "anchors": ["src/actions.asm: E_NUMBER_WORD, E_NUMBER_BYTE, read_hex, E_CONST_STRING, emit_AX", "src/parse.asm: parser_emit_byte, parser_inc_opos", "src/interp/val.asm: read_word", "src/compiler/parser-actions.cc: SMB_E_NUMBER_WORD, SMB_E_NUMBER_BYTE, SMB_E_CONST_STRING"]}
{"id": "C47", "title": "The code of the native compiler for variables keeps its tables, and the variables of a program keep their number, type and memory", "statement": "In the 6502 code of the native compiler, the routine of each action on variables (use of a variable of a type, creation, setting of the type, type of a label, saving a variable number on the stack and taking it back) does to the tables and to the code in memory exactly what its specification says, and nothing else: it reads exactly the name, it emits the number of the variable, it fails when the variable is missing, has another type or exists already, and the compiler ends with an error if the code of the statement is over 255 bytes or there is no memory. Hence in programs with less than 255 words of variables and names of less than 130 characters a variable is found with the type it was declared with and with the number it got, no later action changes them, and two names never share memory. The type of a label is given to the last label of the table, and a name with a dot after it is created as a variable.", "quantifier": "all tables of variables and labels, all contents of the code, all names and positions in the line, all sizes of memory, all stacks of variables", "why_tests_cant": "Tables of any size anywhere in memory, names at any position, and pages crossed at any place; the pointer to the last type is computed by changing its own high byte.", "anchors": ["src/actions.asm: E_VAR_SEARCH, E_VAR_WORD, E_VAR_CREATE, emit_varn, E_VAR_SET_TYPE, E_LABEL_SET_TYPE, E_PUSH_VAR, E_POP_VAR", "src/vars.asm: var_search, name_new, list_search, var_getlen", "src/memptr.asm"]}
{"id": "C48", "title": "RAND gives every number below its argument with the same probability", "statement": "EXE_RAND with argument n reads pairs of values of the hardware register RANDOM until one makes a number below n*2^k, and returns that number without its last k bits. The result is always from 0 to n-1, each of these results comes from the same number of values of 16 bits (2^k), at least half of the values end the search, the result depends only on the values read, and nothing but the result changes. RAND(0) is 0.", "quantifier": "all n from 1 to 32767 (and 0), all sequences of values of the register, of any length, all states of the machine", "why_tests_cant": "the values of the register are random and the loop has no bound; bias in one of 32767 arguments is not visible in samples", "anchors": ["src/interp/atari/rand.asm:36-62"]}
{"id": "C49", "title": "PLOT of the Atari 5200 changes exactly the bits of one pixel, and LOCATE reads them", "statement": "In a graphics mode with b bits for each pixel (1, 2 or 4), PLOT writes the low b bits of COLOR to the b bits of the pixel at the cursor, which are at bit 320*row+b*column of the screen, and changes no other bit of the screen, no other memory but eight cells of page zero, and leaves the interpreter as it was; the place is the start of the next line. If the row is above the top of the memory, it sets error 18 and writes nothing. LOCATE returns exactly the bits of the pixel, and after a PLOT at the same place it returns COLOR modulo 2^b.", "quantifier": "all modes, addresses of the screen, rows and columns below 512, colors, contents of memory", "why_tests_cant": "the masks are made by shifts from the column and the address by multiplications in 8 bits with carries; an error shows for some columns of some addresses only, and a write to a wrong place changes memory far from the pixel", "anchors": ["src/interp/a5200/drawto.asm: EXE_PLOT, get_pixel_addr, get_addr", "src/interp/a5200/locate.asm: EXE_LOCATE"]}
{"id": "C50", "title": "DRAWTO of the Atari 5200 ends and paints a connected line near the ideal one, that gets to the end but for the shortest lines", "statement": "DRAWTO ends for every pair of points. It paints exactly the pixels of a walk in which each pixel is a neighbor of the one before, is never farther from the end, and is at most half a pixel (plus 1/length on one side) from the ideal line. The walk ends at the cursor, except when the row changes by one and the column by 0 or 1, or by 2 to the left: there the last pixel is not painted, and its bits are as they were. Nothing else of the screen or of the memory changes, except for cells of page zero.", "quantifier": "all pairs of points with columns below 512 and rows inside of the memory, all modes, colors, addresses of the screen, contents of memory", "why_tests_cant": "there are more than 2^30 lines; the error term is of 16 bits and the tests for the end are only on equality, so an overshoot at one slope makes an endless loop", "anchors": ["src/interp/a5200/drawto.asm: EXE_DRAWTO"]}
{"id": "C51", "title": "TAB advances to a multiple of its argument and RTAB aligns a string to it", "statement": "PRINT TAB(n), for n from 1 to 255, writes at least one and at most n spaces, so that the column after them is a multiple of n, and changes nothing else of the interpreter. RTAB(n), for n from 1 to 129 and a string of at most n characters, writes spaces and then the string, so that the string ends at a column multiple of n, with at least one space. TAB holds while at most 129 spaces are needed; for more it writes only one space, and RTAB for a string longer than n (when column plus length is at most n+126) writes one space and the string, not aligned. For n=0 (and all multiples of 256) it never ends. The cell with the argument of RTAB is also used by the division, so that after a division in the expression to print, the argument is the quotient.", "quantifier": "all arguments, columns, strings, contents of memory and states of the interpreter", "why_tests_cant": "there are 2^16 pairs of argument and column and all the strings, and an error of one column or a missing space at a multiple is seen at some of them only; the endless loop can not be seen by a test", "anchors": ["src/interp/atari/print_tab.asm: EXE_PRINT_TAB, EXE_PRINT_RTAB", "src/syntax/basic.syn: PRINT_SEP", "manual.md: TAB and RTAB"]}
{"id": "C52", "title": "The integer power of floating point numbers is a product of as many copies of the number as the exponent says", "statement": "For all numbers x and exponents n from -32768 to 32767, x^n ends, keeps the memory and the integer stack, and its result is 1 for n=0, a product of n copies of x for n>0, and of -n copies of 1/x for n<0; or the error 3 with the number 1, if the multiplication of two of those products has an overflow. So with exact operations below a limit the result is exactly the power, and the error is given exactly if that is not below the limit; with operations of relative error at most u, the relative factor of the result is between (1-u)^(n-1) and (1+u)^(n-1). If the division 1/x fails, no error is set and the result is the power of what the division left.", "quantifier": "all operations of floating point, all numbers, all exponents of 16 bits, all states of the interpreter and contents of the registers after calls of the OS", "why_tests_cant": "a wrong bit in the loop of squares shows only for some of the 2^16 exponents, and the rounding hides an extra or missing factor near 1", "anchors": ["src/interp/atarifp/fp_ipow.asm: EXE_FP_IPOW", "src/syntax/float.syn: FP_E_EXPR_MORE"]}
{"id": "C53", "title": "The native compiler accepts a program only with all loops closed and all labels defined, and says which is missing", "statement": "At the end of the source, if all the labels in the list of addresses are defined and the stack of loops is empty, the native compiler writes the token END after the code, returns without error and changes nothing else but laddr_buf. If a label is not defined it writes exactly the message \"undef label\", else if a loop, procedure or IF is open exactly \"no end loop/proc/if\", and ends with the carry set, with the memory as it was. At the start it leaves the state of a program with no code, loops or labels, with line number 0; a line is read, and the line number goes up, if and only if there is text left. So a source without text compiles to END alone.", "quantifier": "all lists of labels and stacks of loops, all contents and places of memory, all line numbers", "why_tests_cant": "the comparison of the two pointers of 16 bits uses only the high byte of the difference, and the message is written from a packed table by offset; a wrong case needs a list of a given length at a given address", "anchors": ["src/parse.asm: parse_eof, lbl_chk_nxt, parser_error, parser_start, parse_line", "src/errors.asm"]}
{"id": "C54", "title": "Compiling does not overwrite or delete a file given as input", "statement": "For every command line, whatever the result of each step: no file of the command line is written or deleted by the compiler, the assembler, the linker or the removal of temporary files.", "quantifier": "all lists of arguments (files, options, names of results), all extensions of the target, all results of the steps", "why_tests_cant": "the names of temporary files, listings and results are made from the names of the inputs; a collision needs two names that agree up to the extension, and destroys the file of the user", "anchors": ["src/compiler/main.cc: main", "src/compiler/os.cc: add_extension, get_extension_lower"]}
{"id": "C55", "title": "Every step of a compilation reads what the user gave or a previous step made, and only those files are deleted", "statement": "For every command line: what the compiler, the assembler and the linker read is a file of the command line or was made by a step before; a file that is deleted was made before in the same run; a failure of the compiler means that its last step failed, with nothing deleted. After a run without failures every file of the command line was used by the tool of its type; without -c the linker got the object file of each file of the command line, in that order; without -c and -keep all files made by the compiler and the assembler are deleted. With -c as first argument nothing is deleted and only files of the command line are assembled or linked.", "quantifier": "all lists of arguments, all results of the steps", "why_tests_cant": "the lists of files of each step are built while the options are read, and options act on the files after them; there are endless orders of options and files", "anchors": ["src/compiler/main.cc: main"]}
{"id": "C56", "title": "A target file means its list of items, with the items of other files in the place of each include", "statement": "Reading a target ends with the target t if and only if the file has a list of items with known keys (with the items of the included files in the place of each include) and t is their meaning: for library, config and extension the value of the last item, for syntax and ca65 the words of all items in order. If the includes are not circular the reading ends.", "quantifier": "all contents of files, all depths of inclusion, all search functions", "why_tests_cant": "the files tested are the shipped ones, which all end with an end of line and have no blanks at the end of lines", "anchors": ["src/compiler/target.cc: target_file::read_file, sub", "src/compiler/os.cc: add_extension, path_absolute"]}
{"id": "C57", "title": "SQR gives the square root to the precision of the arithmetic", "statement": "For every positive normalized number X, and an arithmetic of the OS whose additions, products and quotients have a relative error of at most e (e <= 10^-7), SQR ends without an error with a number Y in FR0 and |Y - sqrt X| <= (3.1 e + 2*10^-11) sqrt X. SQR of zero is zero; SQR of a negative number gives error 3. The stacks do not change, and memory changes only in the cells $D4-$FF, PLYARG and FPSCR of the OS.", "quantifier": "all numbers of six bytes, all arithmetics with the given bound, all that the OS routines leave in registers", "why_tests_cant": "the first guess depends on the first byte of digits and on the parity of the exponent, and the error of four iterations is largest at the borders of the table; there are 10^12 numbers", "anchors": ["src/interp/atarifp/fp_sqrt.asm: EXE_FP_SQRT", "src/interp/atarifp/fp_const.asm: check_fp_err"]}
{"id": "C58", "title": "An expression of floating point leaves its value at the top of the stack of numbers", "statement": "For every expression of constants, variables, integers, + - * /, negation, ABS and SGN that needs no more places than are free, the run of its tokens in postfix order leaves in FR0 the value of the expression with the arithmetic of the OS (left operand first), below it the numbers that were in the stack, and the code of error unchanged, or 3 if an operation had an error; memory outside of the stack and of the cells of the OS does not change. An assignment stores the value and restores the stack; a comparison pushes a word with the sign of the difference; INT gives the integer with the sign, or error 3 above 32767. A ninth push is out of the stack.", "quantifier": "all expressions, all stacks and memories, all arithmetics, all that the OS routines and the integer tokens leave in registers", "why_tests_cant": "expressions have any shape and depth; the order of operands, the depth of the stack and the place of each byte must hold for all of them, and an error must survive all the following operations", "anchors": ["src/interp/atarifp/fp_push.asm: push_fr0", "src/interp/atarifp/fp_pop.asm: pop_fr1, pop_fr0", "src/interp/atarifp/fp_const.asm: EXE_FLOAT, EXE_FP_ADD, check_fp_err", "src/interp/atarifp/fp_int.asm: EXE_FP_INT", "src/interp/atarifp/fp_cmp.asm: EXE_FP_CMP", "src/syntax/float.syn: FP_EXPR"]}
{"id": "C59", "title": "GRAPHICS of the Atari 5200 makes a display list that shows the whole screen", "statement": "For every value given to GRAPHICS (only its low four bits count) and every content of memory, set_grmode ends with a display list that the display processor (program counter of 10 bits, address of data of 12 bits) shows as exactly the rows of the mode, each with the right mode and with its data just after the ones of the row before, and that then jumps to its own start. No row crosses a block of 4K. The screen is all zeros, SAVMSC, DINDEX, MEMTOP and the top bits of GPRIOR describe it, the cursor is at 0,0, and memory below the display list and from $4000 on does not change but for the cells of the graphics.", "quantifier": "all 256 values of the mode, all contents of memory and registers", "why_tests_cant": "the list must be right for each line of each mode; an error shows only as a wrong picture on the hardware, in the lines where the counter of 4K or of 1K wraps, and the rest of memory must be kept for any content", "anchors": ["src/interp/a5200/graphics.asm: set_grmode, dl_type, dl_mode, mem_adr_l, dl_adr_l, rows", "src/interp/clearmem.asm: mem_set_0"]}
{"id": "C60", "title": "Text on the screen of the Atari 5200 is written and read back at the cursor", "statement": "For every character other than the end of line, every row below 24, every column and every text mode, putc stores the screen code of the character (control characters after the capitals, lowercase as they are, inverse video in the top bit) at the start of the screen plus row times width plus column, and adds one to the column; an end of line goes to column 0 of the next row, or of the first after row 23. A text without ends of line is on the screen one code after the other. LOCATE gives back the character. Nothing else in memory changes but for two temporary cells.", "quantifier": "all 256 characters, all texts, all positions, all addresses of the screen, all contents of memory", "why_tests_cant": "the address is built with carries between shifts of a byte, the conversion depends on the carry that survives a php and plp; each has to be right for each row, column and character, in memory of any content", "anchors": ["src/interp/a5200/putchar.asm: putc, get_text_addr", "src/interp/a5200/locate.asm: locate_text"]}
{"id": "C61", "title": "INPUT of the Atari 5200 gives the text edited with the keys", "statement": "For every sequence of keys of the keypad, with 0 to 9, * and # adding a character and RESET deleting the last one, ended by START or PAUSE, INPUT returns the address of the line buffer, and the buffer has the length and the characters of the text edited with the keys, where characters past the limit (INPUT_WIDTH - 1, or 127) are dropped. The text is on the screen from the cursor, followed by the mark of the cursor, and the column moves by the length. No write goes out of the 129 bytes of the buffer, of the screen from the cursor, and of four cells.", "quantifier": "all sequences of keys of any length, from any of the four controllers, all values of INPUT_WIDTH, all places of the cursor and contents of memory", "why_tests_cant": "the sequences of keys are unbounded; the limit is found after the character is stored, and undone with the code of deletion, so the last byte of the buffer and the cells of the screen depend on each step", "anchors": ["src/interp/a5200/input.asm: EXE_INPUT_STR", "src/interp/a5200/getkey.asm: get_key"]}
{"id": "C62", "title": "I/O statements give the I/O system of the Atari 8-bit computers the request of the program", "statement": "XIO (and OPEN), BGET, BPUT, GET, CLOSE, GRAPHICS, DRAWTO and INPUT call CIOV with X on the control block of the channel of the statement, and in that block the command, the address, the length and the auxiliary bytes that the statement says; XIO has the first 127 characters of its name and an end of line in the buffer. No other memory changes, the stack of the processor is as before with the return on it, and the stack of integers loses the arguments. After the call the status is the code of error, the character of GET is the value, and the value of INPUT is the text read without its end of line, or all of it if there was an error.", "quantifier": "all channels, commands, addresses, lengths, names, contents of memory and stacks, all behaviours of the I/O system", "why_tests_cant": "the requests are built through bytes pushed in an order and popped by code shared between statements, with carry tricks in the middle; tests run against few devices, channels and lengths", "anchors": ["src/interp/a800/xio.asm: EXE_XIO", "src/interp/a800/bgetput.asm: EXE_BGET, EXE_BPUT", "src/interp/a800/graphics.asm: EXE_GRAPHICS, CIOV_CMD_A, EXE_CLOSE, EXE_DRAWTO, EXE_GET", "src/interp/a800/iochn.asm: EXE_IOCHN, IOCHN_16", "src/interp/a800/input.asm: EXE_INPUT_STR"]}
{"id": "C63", "title": "PMGRAPHICS puts the players and missiles in free memory, and PMADR is where the display processor reads them", "statement": "PMGRAPHICS with a value of 1 or 2 (modulo 4) sets the base of players and missiles at the last aligned block (8 or 4 pages) at or below the end of the free memory; if the block starts in a page before the end of the arrays it is an error of memory. The value of PMADR(p) with the variables left by the statement is the address at which the display processor reads player p (missiles for -1), and what it reads is above the arrays and below the end of the free memory. The other bits of the DMA and priority registers are kept, positions and sizes are cleared, and no other memory changes. With 0 everything is turned off. With 3 it is always an error of memory.", "quantifier": "all values of the argument, ends of free memory of at least one block, ends of the arrays, contents of registers and memory", "why_tests_cant": "the base comes from an addition of a mask modulo 256, and tables are indexed past their ends on purpose; a test sees one screen mode and one size of program", "anchors": ["src/interp/atari/pmgraphics.asm: EXE_PMGRAPHICS, mask_tab, pmg_dmactl_tab, pmgmode_tab", "src/syntax/pm.syn: PMADR"]}
{"id": "C64", "title": "TIME, %TIME and PAUSE are right with the interruptions of the clock between any two instructions", "statement": "When the clock of the system is incremented by interruptions between any two instructions of the routine (at least ten, or twelve for %TIME, instructions apart), TIME ends in at most nine instructions and its value is the lower 16 bits of the clock at some time during its execution; %TIME reads the 24 bits in the same way. PAUSE n ends just after the interruption number n + 1 counted from its first read of the clock, for any n from 0 to 65535, if interruptions do not stop. After TIMER the lower 16 bits are 0 if there is no interruption between its two stores; if the low byte wraps between them the time is 256. No other memory changes.", "quantifier": "all values of the clock, all sequences of interruption times with the given distance, all lengths of the pause, all states", "why_tests_cant": "the wrong values need an interruption at one of two instructions in the one scan of each 256 in which the low byte wraps", "anchors": ["src/interp/atari/time.asm: EXE_TIME", "src/interp/atarifp/fp_time.asm: EXE_FP_TIME", "src/interp/atari/pause.asm: EXE_PAUSE", "src/syntax/basic.syn: TIMER"]}
{"id": "C65", "title": "The Atari 5200 gives the programs the state of the controllers and each key of the keypads once", "statement": "The interruption of the vertical blank sets STICK of the four controllers to the value of the Atari 8-bit computers for their analog positions, copies the triggers, and for the keypad that is selected stores its second button, gives the program its key (with the number of the keypad) exactly if it is a key and not the one the keypad had the last time that it was selected, and selects the next keypad with no key; no other memory changes. With the interruption of the keypad, any sequence of keys pressed follows that rule.", "quantifier": "all positions of the controllers, all keys, all states of memory, all sequences of pressed keys (any length)", "why_tests_cant": "there is no test for the hardware of the 5200; the rule needs keys pressed, held and released in each of the four keypads, scanned in turn", "anchors": ["src/a5200cart.asm: vbi_deferred, kb_continue"]}
{"id": "C66", "title": "USR passes its arguments on the stack of the processor, and the editor's search of lines finds the next line", "statement": "USR_ADDR keeps the address of the routine and pushes a return to the interpreter; each USR_PARAM pushes its value. COUNT_LINES called with the arguments p and e gives the address after the first end of line at or after p and before e, or e if there is none (the BASIC loop in the comment of editor.bas), changes no memory but three cells of page zero, and goes back to the interpreter with the stack of the processor as it was before USR.", "quantifier": "all texts, all addresses (with wrap at 64K), all states", "why_tests_cant": "the order of the bytes on the stack and the test of the end in the middle of the loop matter only for texts that end or cross a page at the right place", "anchors": ["src/interp/usr.asm: EXE_USR_ADDR, EXE_USR_PARAM, EXE_USR_CALL", "src/countlines.asm: COUNT_LINES", "src/editor.bas: CountLines"]}
{"id": "C67", "title": "Compiling from the editor leaves the editor as it was, with the BREAK key and the interpreter restored", "statement": "After the parser returns to COMPILE_BUFFER: with an error the value is $FEFE and the BREAK vector is unchanged; with a relocation the value is 0, NEWPTR is the program, the header holds the program address plus the relocation, the page of the variables is the one after, and the BREAK vector, the jump of the interpreter and saved_cpu_stack are the ones of the editor; with no relocation the program is run with the same header and with BREAK going to a handler that keeps the old vector, and whatever the program does, if it returns with the stack of the processor as it was, the editor continues with its own sptr, cptr, variable page and saved_cpu_stack, with BREAK as saved and the jump restored. While the vector is being changed there is a state where its two bytes are of different handlers. COMPILE_BUFFER of the command line compiler gives the same values and header, and changes no other cell.", "quantifier": "all states, all programs and results of the parser and of the program that is run", "why_tests_cant": "the result must hold for any state left by the program (also ended by BREAK) and for any carry between the bytes of the addresses; the window of the BREAK vector is a few instructions long", "anchors": ["src/compile.asm: COMPILE_BUFFER, break_irq", "src/cmdmenu.asm: COMPILE_BUFFER"]}
{"id": "C68", "title": "The start of a cartridge copies the interpreter and asks for the copy of the data", "statement": "For any size below 128 the start of a cartridge copies the interpreter from the ROM to its place in page zero, with exactly one byte more than its size, and changes no other memory; then move_dwn is called with the address of the data in the ROM, its place in RAM and its length.", "quantifier": "all contents of ROM and RAM, all sizes of the interpreter below 128", "why_tests_cant": "the loop depends on the size that the linker gives, and the additional byte is only seen if something uses the cell after the interpreter before it is initialised", "anchors": ["src/cartridge.asm: cartridge_start", "src/a5200cart.asm: copy_interpreter"]}
{"id": "C69", "title": "PUT, GETKEY, POSITION and SOUND_OFF talk to the system of the Atari 8-bit computers as it expects", "statement": "putc enters the handler of the current channel with the character in A, the channel in X and the mode of the channel in ICAX1Z, with the address of the handler over the return in the stack; when it returns, its status is the error of the program and Y is the one of the caller. GETKEY does the same with the handler of the keyboard and mode 12, and its value is the key, from 0 to 255. POSITION sets the 16 bits of the column and the row and removes one value. SOUND_OFF sets to 0 the eight registers of the voices. No other memory changes.", "quantifier": "all states, all channels, all behaviours of the handlers that keep tmp3+1 and the stack", "why_tests_cant": "the handlers are entered through addresses built in the stack, that can be any, and the claims are about all that must not change", "anchors": ["src/interp/a800/putchar.asm: putc, putc_direct", "src/interp/a800/getkey.asm: EXE_GETKEY, getkey", "src/interp/atari/position.asm: EXE_POSITION", "src/interp/atari/soundoff.asm: SOUND_OFF"]}
{"id": "C70", "title": "SIN and COS choose the quadrant of any argument, and the index of floating point arrays is multiplied by 6", "statement": "SIN starts in quadrant 0, or 2 for a negative number, and COS in 1; after the division by a right angle (of the mode DEG or RAD) the quadrant is increased by the integer part of the quotient modulo 4, for any number of up to 10 decimal digits, the digits of the integer part are cleared and the others kept; odd quadrants use 1 minus the fraction, and the second half of the circle changes the sign of a result that is not 0. MUL6 gives 6 times its argument modulo 65536 if it is below 32768, and 2 more than that from 32768.", "quantifier": "all states, all decimal mantissas, all exponents of an integer part below 10^10, all 16 bit indexes", "why_tests_cant": "the quadrant is computed with binary arithmetic over decimal digits with five positions of the decimal point and many digits; the error of MUL6 needs an index from 32768", "anchors": ["src/interp/atarifp/fp_sincos.asm: EXE_FP_SIN, EXE_FP_COS, SINCOS", "src/interp/atarifp/mul6.asm: EXE_MUL6"]}
