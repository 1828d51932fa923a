# Formal model of dmsc/fastbasic in Lean 4: design

This file says, for every property in `properties.jsonl`, what part of `/repo` is modelled, how the
property is proved, and what is trusted. It was written before the proofs and is kept current.

## 0. Reading guide

* `lean/Verif/*` holds the models (definitions citing file and lines in `/repo`) and helper lemmas.
* `lean/Verif/Props/*` holds the property theorems (`C01_…`, `C02_…`), each with a small independent
  specification and a concrete example that meets the hypotheses.
* `MANIFEST.json` maps property ids to theorem names. A suffix `_partial` means that the theorem
  proves less than the English property; the missing part is named beside the theorem.
* Where the code *violates* the property, there is a theorem whose name contains `_refuted` (or
  `_bug`) that exhibits a concrete witness, and a `_partial` theorem for the part that does hold.
* `seeded/LOG.jsonl` records attempts to break the model with realistic bugs.

## 1. Trusted base

**Logic.** The Lean 4.33.0 kernel and the three standard axioms. Of the theorems in `MANIFEST.json`:

* `propext` only: `C32_plain`, `C33_unique`, `C33_blanks_refuted`, `C33_missing_refuted`, `C33_modes_refuted`;
* `propext` and `Quot.sound`: `C02_le_32637_refuted`, `C06_print_chars_partial`, `C12_assign`, `C18_abbreviation`, `C26_address`,
  `C33_atari`, `C38_case`;
* `propext`, `Quot.sound` and `Classical.choice`: all the others.

No `sorry`, no added axioms, no `native_decide`, no `bv_decide`. Closed examples and statements about the shipped grammar are
evaluated by the kernel (`decide +kernel`).

**Reading.** The correspondence between `/repo` and the definitions in `lean/Verif` is by reading; each definition cites the lines it
models and says what it leaves out. `Parse/GrammarFp.lean` and `Parse/Grammar5200.lean` (parsing tables of two targets) and
`Syn/NativeFp.lean` and `Syn/NativeInt.lean` (those of the two native compilers) were
written by `tools/gen_grammar.py` from the `.syn` files of `/repo`, `Syn/NativeFpOpt.lean` and `Syn/NativeIntOpt.lean` by `tools/gen_opt.txt` (these are only the
results of the model of the optimizer, and the theorems check them), and `tools/gen_frame.py` wrote the repetitive lemmas of
`Parse/Frame.lean`. A mistake in the first tool would make the theorems about "the shipped grammar" be about another grammar.

**Stated contracts.** These are specifications written from documentation, not from code in `/repo`:

* how `ca65` reads the text of a `.byte`, `.word` or label line, with the character map of the target `atari` (`Out/Asm.lean`, C21);
* the order in which the linker lays out segments, and the table of jumps it makes from the segment `JUMPTAB` (`Linked`, C30), and the
  segment `HEAP` (C26);
* `std::map` iterates in the order of keys, `std::sort` gives some sorted permutation;
* the Atari OS routines `SKBLANK` and `INTLBUF` as in the published listing (C37); `IFP`, `FASC`, CIO are not modelled;
* the OS routines `FMOVE`, `FMUL`, `FDIV`, `FST0R`, `FLD1R` work on `FR0`, `FR1` and the number at `PLYARG`, set the carry on an error, change the registers in any way and no other memory of the model (C52);
* the same routines and `FADD`, `FLD0R` on numbers of six bytes in the memory change the registers and the cells `$DA`-`$FF` in any way; the number at `$DF6C` of the ROM is 0.5; sums, products and quotients of positive numbers have a bounded relative error (C57, where an arithmetic with the bound 10^-8 is given);
* `FSUB`, `FLD0P`, `FPI` and `IFP` in the same way, with any functions on the six bytes as the arithmetic; between two tokens of floating point, the tokens of integers do not change the memory nor the code of error (C58);
* the I/O system of the ROM (`CIOV`) returns with the stack as it was (C62); what the theorems say after the call is for any state in which it returns;
* the display processor ANTIC follows a display list as in the relation `Antic` (C59): one byte for each line, three when it loads the address, 10 and 12 bits for its two counters; a store to its register `DMACTL` is a store to memory;
* a C++ `double` is an exact decimal (C35, C36): the rounding of binary floating point is not modelled.

**Not modelled at all**: the vendored `cc65/` tools, the Atari OS and hardware, the editor (`editor.bas`), the makefiles, the simulator of
the test suite, graphics (but for `GRAPHICS`, `PLOT`, `DRAWTO`, `LOCATE` and the text of the Atari 5200, and `PMGRAPHICS`), sound, the I/O system (but for the requests that the statements make, C62) and floating point routines of the runtime (but for the integer power, C52, the square root, C57, and the stack of numbers with its arithmetic, C58). Of the native parser (`parse.asm`) the interpreter of tables,
the start, the loop of lines, the end of the program and the messages are modelled; growing of the program between statements (except the areas of memory, C39) is not.

## 2. Models

1. **Bytecode and optimizer** (`src/compiler/codew.h`, `peephole.cc`): `Code`, `Peephole`, `Eval`, `Lock`, `Window`, `Safety`. `Codew` is an
   inductive type with the nine kinds of `codew.h`. Every matcher and editing primitive of class `peephole` (`mtok`, `mword`, `del`, `ins_w`,
   `copy`, …) is a function on code lists; every rule is the same sequence of primitive edits; the passes are recursive functions with
   the same index discipline (`i--; continue`, `continue`, fall-through). Line numbers, which no rule reads, are dropped.
   The optimizer has a parameter `Fix`: `Fix.actual` is the code as it is, `Fix.fixed` has the wrong constants repaired.
2. **Virtual machine** (`src/interpreter.asm`, `src/interp/*.asm`): `VM`, `Sim`, `SemLemmas`, `Simulation`, `Good`, `Rules*`, `Passes`, `Global`. A
   small-step semantics on code suffixes. Undefined behaviour is a distinct outcome: the accumulator and the store-address register become
   *undefined* after statement-ending instructions, and reading an undefined value, a non-boolean condition, a missing operand or an empty
   stack is *stuck*. Instructions that the optimizer does not know are an arbitrary (monotone) parameter of the semantics.
   Simplifications: unbounded evaluation and return stacks; addresses of string literals and data labels are a fixed parameter
   (moving code does not change them); string literals are immutable; PRINT_COLOR and IOCHN are registers that are only reached through
   their own instructions. After `PUSH` the accumulator is unspecified (`pushAX` returns with `A = X`).
3. **6502** (`src/interp/*.asm`, and parts of the native compiler): `Rt/*`. A step semantics for the 6502 instructions used
   (`Rt/M6502`), and the runtime routines transcribed instruction by instruction: arithmetic, comparisons, `FOR`, strings, memory
   blocks, conversion of numbers, variable access, dispatch; from the native compiler `alloc.asm`, `vars.asm`, and the conversion of a line to
   capitals. Zero-page cells are named locations, disjoint from program memory; the page-zero addresses of the pointers of the native compiler are
   arbitrary. `$2C` used to skip two bytes is written as a jump. Subroutine calls keep a stack of places. No interrupts, no cycle counts,
   binary mode. The stack of integers is not checked for overflow.
   `Rt/Core`, `CoreOps`, `Print`, `Keep`, `Image`, `ExtSpec`, `Refine`, `RefineExt`, `RefineSem`, `Sim` and `Check` connect this model with the virtual machine (C43): the
   routines of constants, variables, memory, jumps, calls and output; what the instructions that the virtual machine leaves open are, for
   loops, absolute value and sign, blocks of memory, and assignment, concatenation, comparison and slices of strings (`ExtSpec`); the bytes of a program in memory (`Image`); the relation of representation
   (`Rep`); one instruction of the virtual machine is one instruction of the interpreter (`sim_step`). Simplifications, besides the above:
   the memory of programs is disjoint from page zero, from the integer stack and from the stack of the processor (a program that POKEs there
   is outside of the model), the stack of the processor has no limit, the break key is not pressed, the code is that with self modification.
   `putc` (CIO) writes the character in `A` to channel `IOCHN` and changes the registers, flags and `IOERROR` in any way.
   `Rt/Rand` has `RAND` (C48), and `Rt/Graph`, `Rt/Plot` and `Rt/Draw` have the graphics of the Atari 5200 (`a5200/drawto.asm`, `a5200/locate.asm`; C49, C50): the cells of page zero of the graphics and the
   two tables of the modes are in the memory, `PLOT` in text modes (that is `PUT`) is not modelled, and the theorems are for columns below 512 and for screens below `$4000`.
   `Rt/Tab` has `TAB` and `RTAB` of `PRINT` (`atari/print_tab.asm`; C51): the column of the cursor is the low byte of `COLCRS` as it is at the start.
   `Rt/Ipow` has the integer power of floating point numbers (`atarifp/fp_ipow.asm`; C52), over any type of numbers and operations.
   `Rt/Float` has numbers of six bytes and the routines of the OS for them, and `Rt/Sqrt` the square root (`atarifp/fp_sqrt.asm`; C57); the table of the first guess is at any address above `$600`.
   `Rt/FpStack` and `Rt/FpTok` have the stack of numbers and the tokens of constants, variables, arithmetic, sign, comparison and conversion (`fp_push.asm`, `fp_pop.asm`, `fp_const.asm`, `fp_load.asm`, `fp_store.asm`, `fp_sub.asm`, `fp_mul.asm`,
   `fp_div.asm`, `fp_abs.asm`, `fp_sgn.asm`, `fp_intfp.asm`, `fp_int.asm`, `fp_cmp.asm`; C58). `PMGRAPHICS` (`atari/pmgraphics.asm`, with the registers of the Atari 8-bit computers; C63): its tables and variables are at fixed places. `TIME`, `PAUSE`, the loop of `%TIME` and the stores of `TIMER` (C64), executed with interruptions of the clock before any step (`trun`, also before the steps over labels, that take no time in the processor); of the interruption only the increment of the three bytes of the clock is modelled. The interruptions of the vertical blank and of the keypad of the Atari 5200 (`a5200cart.asm`, `vbi_deferred` and `kb_continue`; C65), without the save and restore of registers; the rest of `a5200cart.asm` (the start) is not modelled. `USR` (`usr.asm`) with the routine `COUNT_LINES` (`countlines.asm`; C66): the indirect jump is to that routine (a second `USR` in an argument changes the address, as the comment in `usr.asm` says; that is not modelled). `fptr` is at the fixed cell `$B0` (the linker may choose another). `GRAPHICS` of the Atari 5200 (`a5200/graphics.asm`, all but the three lines of `EXE_GRAPHICS`) with `mem_set_0` (C59); its tables are in ROM at fixed places. The output of text and `LOCATE` on text screens of the Atari 5200 (`a5200/putchar.asm`, `locate_text`; C60). `INPUT` of the Atari 5200 (`a5200/input.asm`, `get_key` of `a5200/getkey.asm`; C61): the interrupt of the keyboard is the relation `Typed`, that stores a key in `CH` while the code waits for it; the buffer, `CH`, `INPUT_WIDTH` and the table are at fixed places. `Rt/Cio` has the statements of I/O of the Atari 8-bit computers (`a800/xio.asm`, `bgetput.asm`, `iochn.asm`, `graphics.asm`, `input.asm`; C62) up to the call of `CIOV`, which is the end of the model, and from its return; `COLOR` and the text `S:` are at fixed places. `COMPILE_BUFFER` and `break_irq` (`compile.asm`, `cmdmenu.asm`; C67) up to each call of the parser, `putc` and the interpreter, and from its return; its variables are at fixed places. The copies at the start of the cartridges (`cartridge.asm`, `a5200cart.asm:143-165`; C68), with fixed addresses, up to the call of `move_dwn`. `putc`, `GETKEY`, `POSITION` and `SOUND_OFF` of the Atari 8-bit computers (`a800/putchar.asm`, `a800/getkey.asm`, `atari/position.asm`, `atari/soundoff.asm`; C69) up to the entry of the handlers of the OS and from their return. The instruction `putc` of the rest of the model is this routine with a handler that keeps the memory; it leaves out that `putc` writes `tmp3+1`, that no routine of the model with a `putc` uses. `SIN`, `COS` (`fp_sincos.asm`) and `MUL6` (`mul6.asm`; C70): the routines of the OS and the evaluation of the polynomial are calls where the model ends, and starts again from any state; constants are at fixed places.
4. **Parser** (`src/compiler/parser.{h,cc}`, `parser-actions.cc`): `Parse/State`, `Actions`, `Engine`, `Compile`. The table-driven PEG engine as
   a total function of its recursion-level budget; all the actions used by the shipped grammars; reading of source lines, the
   expanded and short listings. `Parse/Discipline`, `Sound`, `AnnFp` are a checker of parsing tables and its soundness;
   `Lift`, `Moves`, `Calls`, `Order`, `Nest`, `Unique`, `Labels`, `Params`, `Vars`, `Items`, `Mono` are facts that hold of any compilation.
5. **Output** (`codew.h: to_asm/escape`, `parser.h: full_code/used_tokens`, `compile.cc`): `Out/*`; the floating point encoder
   (`atarifp.cc`): `Parse/Fp`, `Parse/FpRead`; the syntax tools (`synt-preproc`, `synt-optimize.cc`): `Syn/*`. The engine of C33 leaves out the
   maximal position `bmax`, the texts of errors and the limits of the stack.
6. **Native compiler**: memory areas and names are in model 3; loop stack with back patching (`src/actions.asm`) in `Native/*`. There addresses
   are natural numbers, the limit of 256 bytes in a line and the type of labels in `E_LABEL` are left out.
7. **Native parser** (`parse.asm:153-173,261-455`): `Eng/*`. The code is in the 6502 model 3 (`Eng/Code`), the bytes of the tables are those that
   `synt-emit-asm.cc` writes (`Eng/Enc`), and the meaning of the tables is the parser of tables of C33 (`Syn/Tables`). The stack of the processor is
   counted in bytes, so the limit of nesting is that of the code. `E_EOL` and `E_REM` (`actions.asm:141-165`) are also code (`Eng/Eol`); the other routines that the tables call are
   a relation `X` with the contract `Acts`: they do some given action, keep the stack and the pointer to the tables. The position of errors (`bmax`) is left out.
8. **Actions on jumps as code** (`actions.asm:121-139,439-861`): `Eng/J*`, in the 6502 model 3, with the allocation and the search of names of the same model. `JRep` and `NamesAt` say how
   the memory holds the state of model 6: code, stack of loops at `$400`, list of addresses, table of names. Here the line of code has its limit of 256 bytes, the memory has an end and
   labels have types. The pointer `prog_ptr` is both a cell of page zero (for the addressing modes) and two bytes of memory (for `alloc.asm`); `JRep` keeps them equal. The
   messages of errors are an exit.
9. **Constants as code** (`actions.asm:164-300,607-612`, `parse.asm:161-173`): `Eng/K*`, in the 6502 model 3, with `read_word` and `SKBLANK` of the same model (as for C37). `KV` is the state
   without the temporary cells. The line and the 256 bytes of code from `prog_ptr` are disjoint. `E_NUMBER_FP` (conversion by the ROM) is left out.
10. **Actions on variables as code** (`actions.asm:312-378,414-422,623-639`): `Eng/V*`, in the 6502 model 3, before the code of 8. `VRep` says how the memory holds the program, the buffer of the
   statement, both tables, the list of addresses and the stack of variables at `$480`. The addressing mode `(var_ptr),y` reads its pointer from the bytes that `alloc.asm` moves.
11. **Start and end of the compiler as code** (`parse.asm:118-151,163-217`, `errors.asm`): `Eng/Eof`, in the 6502 model 3, with the memory relation of 8. The loop that clears page zero is unrolled (it clears one
   byte more than the variables, the low byte of `name`, which is harmless); `EXE_END` is the end of the model.
12. **Driver of the cross compiler** (`src/compiler/main.cc`, `os.cc`, `target.cc`): `Drv/Main`, `Drv/Target`. The loop over the arguments is a
   function with one case for each test of the code, in the same order; the calls of the compiler, of `ca65`, of `ld65` and of `unlink` are
   events, and the result of each one is arbitrary and can depend on all that was done before. Variant for Linux. Simplified: the number of `-ls:` (`std::stoi`) is a
   parameter, all failures give 1, file names are compared as texts (no links, no equal names with different paths), the
   library and the configuration of the linker are left out. `read_file` has the content of the files as a parameter; its recursion has a bound on the depth, which the theorems quantify.

## 3. Per property plan

(see `properties.jsonl` for the statements)

| id | model | method |
|----|-------|--------|
| C01 | 1,2,3 | fold function = VM operation for all operands; refutation for MOD 0 by witness |
| C02 | 1,2 | all x,k by integer arithmetic; refutation at k = 32767 and k = 32637 |
| C03 | 1,2 | local soundness of each rule + simulation through code suffixes; hypotheses: no PRINT COLOR |
| C04 | 1 | invariants over all passes |
| C05 | 1 | measure for the rule loop; refutation: a program on which a pass cycles for ever; every round lowers the weight of the code, or keeps it and lowers a second measure, or only changes targets of jumps, and with a rank of the labels (which exists unless a label leads back to itself) the latter lowers the sum of the ranks of the names used |
| C06 | 1,2 | rule soundness under a correctly tracked colour; refutations by witness programs |
| C07–C10 | 3 | loop invariants over the 6502 semantics |
| C11 | 2,3 | VM trace of FOR/NEXT by induction on the number of iterations |
| C12–C15 | 3 | loop invariants on memory |
| C16, C17, C40 | 4 | induction on the engine |
| C18 | 4 | matcher = declarative specification |
| C19, C20 | 4 | digit folds, round trip |
| C21 | 5 | round trip through a reader of `.byte` operands |
| C22–C24 | 4 | invariant over sequences of actions |
| C25 | 4,6 | refinement between the two loop-stack algorithms |
| C26–C28 | 4,5 | invariants over histories |
| C29, C30, C34 | 5 | list lemmas |
| C31, C32 | 5 | induction on input |
| C33 | 4 | semantic equivalence of table transformations |
| C35, C36 | 5 | rational arithmetic / digits |
| C37 | 3 | digit lemmas; the OS conversion is a stated contract |
| C38, C39 | 6 | refinement to maps / disjointness invariant |
| C41 | 1 | index bounds of every window access of the passes |
| C42 | 4 | checker of tables: no action finds its input missing |
| C43 | 2,3 | simulation: relation of representation kept by every routine and by the loop; determinism of the machine |
| C44 | 3,5,7 | simulation: each code of the tables, then induction on the depth of nesting; determinism for the converse |
| C45 | 3,6,8 | each routine: symbolic execution of its blocks, induction over the stack of loops or the list of addresses, and a frame |
| C46 | 3,4,9 | loop invariants over digits and over the text of a string; induction on literals for the agreement with C19 and C20 |
| C47 | 3,6,10 | each routine: symbolic execution and C38; change of one byte in contiguous areas, and a frame; induction over the table |
| C48 | 3 | loop invariants of the two shifts, induction over the rejected values; counting by a bijection; determinism |
| C49 | 3 | symbolic execution for each mode; bits of the screen as a stream |
| C50 | 3 | invariant of the error term of the loop, induction on the steps that are left, with C49 for each pixel |
| C51 | 3 | induction on the spaces and on the subtractions of the argument; the endless loop by an invariant |
| C52 | 3 | induction on the bits of the exponent that are left; the specification is "a product of n copies" in any order of the multiplications, and exactness, error and rounding are proved from it |
| C53 | 3,8,11 | induction on the list of addresses that is left, with the memory relation of C45; induction on the message |
| C54 | 12 | invariant of the loop over the arguments (which names the lists can have), names by their stems; witnesses for each condition |
| C55 | 12 | the same invariant, with the order of the lists; the run is a prefix of the plan |
| C56 | 12 | induction on the depth of inclusion and on the lines; one pass specification of lines and words |
| C57 | 3 | the code does `Y = (X/Y + Y)/2` four times; the first guess is within 0.68 and 1.5 of the root for all first bytes; Newton's method with errors over the reals |
| C58 | 3 | each token on an abstract stack (top in `FR0`, a list below it); induction over expressions with the number of places that they need |
| C59 | 3 | what was written so far as a list of bytes (`Wr`), induction over the lines; an inductive relation for what the display processor shows, followed along the list |
| C60 | 3 | the product row by width in stages with the carry; the conversions by cases over the byte; induction over the text |
| C61 | 3 | an invariant at the wait for a key (text, buffer, screen, column), induction over the keys |
| C62 | 3 | straight execution to the call of the OS; the copy of the name as in C37 |
| C63 | 3 | straight execution; the loop of the registers by induction; the base by cases on the byte |
| C64 | 3 | execution with a schedule of interruptions (`trun`): `TIME` by cases on the place of the only interruption; `PAUSE` by induction on the steps to the next interruption and on the number of them |
| C65 | 3 | execution by cases on the controller and the keypad; refinement of a small machine of keypads, by induction on the scans |
| C66 | 3 | induction on the distance to the end of the text |
| C67 | 3 | execution of the parts between calls; any state at each return |
| C68 | 3 | induction on the size of the interpreter |
| C69 | 3 | execution up to the handlers of the OS and from their return |
| C70 | 3 | execution by cases on the position of the decimal point; arithmetic modulo 4 of decimal numbers |

## 4. Findings

Each of these is a theorem named `…_refuted` (or is in the comment of one), about the model of the code as it is. None of them was run on the real program.

1. `peephole.cc:1230` compares with 32637 instead of 32767: `A<=32767` is compiled to `A<-32768` (C02, C03).
2. Constant folding of `x MOD 0` gives `x`, the runtime gives the low byte of `|x|` with the sign of `x` (C01).
3. The optimizer does not terminate on procedures that tail-call each other in a cycle (C05).
4. PRINT merging with `COLOR`: `CHR$ + PRINT → PUT` drops the colour; an element is skipped after deleting an empty string;
   the tracked colour goes stale; "unknown colour" is the same value as `COLOR(-1)` (C06).
5. `-MOVE` with 65281 bytes or more copies only the first `length - 65280` bytes: the carry of the length into the page counter
   is lost in `nmove.asm` (C15).
6. An alternative of the grammar that is abandoned after an action opened or closed a procedure, loop or conditional leaves that
   effect behind. `ENDPROCESS=5` inside a `PROC` truncates the code of the wrong procedure (C16); `PROCA=5` / `ENDPROC` is accepted, `ELIF=3`
   inside an `IF` leaves a label undefined, `WHILE=5` is rejected for an open loop, `EXIT` can refer to a loop that does not exist (C22, C23, C24). In the
   native compiler `A=1` / `IFA$="XX"` / `ENDIF` writes an address over the text `XX` (C25).
7. The short listing of two strings printed one after the other (`?"a" "b"`) reads as one string with a quote (C20).
8. A procedure that is used but not defined is left to the assembler; `EXEC A` followed by `DATA A()=…` is accepted and calls the data (C28).
9. In the reader of source lines, a comment started by a dot after `THEN` that has a quote joins the line with the next (C31).
10. In the syntax preprocessor a section with a true condition inside of a false one ends the skipping, and unbalanced sections are
    not reported (C32).
11. `syntax_optimize`: deletion of an empty table also deletes the skipping of blanks; tables without lines fail before and
    succeed after (`IO_CHAN0` of `atari-5200` relies on it); `tail_call` of a table into itself is undefined behaviour;
    `syntp` ignores the result (C33).
12. Floating point literals rounded up to a power of 100 have an invalid digit (`9999999999.9` gives `$44 $A0 …`), and `1E98` is accepted and
    encoded as 9.999999999E99 (C35).
13. Atari 5200: `VAL` of one digit sets error 18, `VAL("-5")` gives 5, `VAL("-")` gives 0 without an error (C37).
14. `CHR$` returns the address of one buffer of two bytes, so a later `CHR$` changes the result of the former: `CHR$(x)=CHR$(y)` is true for all
    `x` and `y` (C43). The manual warns about this for `STR$` and for slices, not for `CHR$`.
15. `name_new` copies only the last character of names of 130 or more; the number of names wraps at 256 without a check (C38).
16. The native compiler accepts `+5` and `-0`, and `$` values over 255 in strings (`"A"$1234` has the byte `$34`); the cross compiler does not (C46).
17. In the native compiler, the type of `DATA FOO()` is given to the last label of the table, that is another one if `FOO` was used before and another label after it; and a name
    followed by a dot is created as a variable although `vars.asm:187` says that it is rejected (C47; both only in lines or programs that have another error).
18. Atari 5200: `DRAWTO` does not paint the last pixel of the lines of one row up or down and 0 or 1 columns to any side, or 2 columns to the left: `PLOT 10,10: DRAWTO 10,11` paints only the first
    pixel, as the test for the last column is done after the row was changed and goes to the end without painting (C50). All the other lines are complete.
19. The argument of `RTAB` is in `tmp3`, that the division (and the multiplication and comparison of strings) changes when the expression to print is evaluated after the argument is stored: `PRINT RTAB(10) A/B`
    aligns to multiples of the quotient (C51). The manual says that a variable or a string must follow, but the grammar accepts any expression. A string longer than the argument is not aligned, to
    more than 129 columns only one space is written, and `TAB(0)` never ends (C51).
20. `x ^ n` for a negative `n` ignores the error of the division `1/x`: `0 ^ -1` sets no error, and the result is made from what the division left in `FR0` (C52).
21. `fastbasic` makes the names of its temporary files, listings and results from the names of the inputs without a test: `fastbasic game.bas game.asm` overwrites and then deletes `game.asm`;
    `fastbasic irq.asm irq.o` overwrites and deletes `irq.o`; `-o game.xex main.bas game.asm` overwrites and deletes `game.asm`; `-l:lst game.lst` and `-g game.lst` overwrite the source; two sources
    `game.bas` and `game.fb` are compiled to the same file (C54). The extension is searched in the whole path: `fastbasic ../game` writes `..asm` (C54_path_refuted).
22. `-c` only acts on the files after it: `fastbasic main.bas -c` links the program, and leaves the temporary files (C55_late_option_refuted).
23. Target files: a last line without end of line is ignored without an error; blanks at the end of a line (the CR of DOS files) are part of the name of the library, configuration or extension; a file that
    includes itself makes the compiler call itself without end (C56).
24. The stack of numbers has eight places and no check: the ninth push (as in `A-(A-(A-…))` with nine operands) stores bytes at `$5CF`-`$5F7`, in the buffers of the OS, one of them in `FPSCR`, that `SQR` uses (C58_ninth_refuted).
25. `INT(-32768.0)` gives error 3 (C58_int_min_refuted), and `-X` for X = 0 gives a number with the sign bit only, whose `SQR` gives error 3 (C57_other).
26. A comparison ignores the errors of `FSUB`, as a comment in `fp_cmp.asm:41` says: the result of `1E97 > -9.9E97` is what the OS leaves in `FR0`.
27. In the Atari 5200, rows are counted up to 24 in all the text modes (C60_eol): in modes 2 and 13, that have 12, the rows 12 to 23 are from `$4000` on, in the ROM, and what is printed there is lost. Columns have no limit (C60_text): a long text continues in the cells of the next row, that the next line overwrites.
28. In the Atari 5200, the longest text of `INPUT` has `INPUT_WIDTH` − 1 characters (C61): the one that reaches `INPUT_WIDTH` is deleted at once. An `INPUT_WIDTH` of 0, or above 128, means 127. The `bpl key` after the deletion is a jump only while the column is below 128; past it the code goes on to `ok` and stores what is in `A`: that is why C61 asks for the column plus the limit to be below 128. The table `trans` has 15 entries, and the key is cut to 4 bits: a key of code 15 would read the byte after the table.
29. `BPUT` and `BGET` with a length of 0 give CIO a request of length 0 (C62), with the command in `A`: for CIO that is one character in `A`, so `BPUT #1,adr,0` writes a byte of value 11 instead of nothing. The channel is multiplied by 16 in one byte: channel 16 is channel 0.
30. The memory of the players (C63) is checked against the arrays only when `PMGRAPHICS` runs: `MEMTOP` is not lowered, so a later `DIM` (`clearmem.asm:107`) may take the same memory without error. `PMADR` after `PMGRAPHICS 0` has no meaning: the size is read from the table before (`$0C`).
31. `TIMER` stores 0 first in the middle byte of the clock and then in the low byte (`basic.syn:532`): if the low byte wraps between the two stores, the middle byte is 1 and the time after `TIMER` is 256 (`C64_timer_race`). The opposite order is right: after a store in the low byte the next wrap is 256 scans away.
32. `COMPILE_BUFFER` changes the BREAK vector one byte at a time with interruptions enabled (`compile.asm:88-103`; `restore_break` is the same): a BREAK between the two turns goes to an address with the low byte of one handler and the high byte of the other (`C67_race`).
33. The start of the cartridges copies one byte more than the size of the interpreter (`cartridge.asm:53-58`, `a5200cart.asm:144-149`): the loop starts at the size and includes 0 (`C68_extra`). Harmless if nothing uses the next cell of page zero before its initialisation.
34. `MUL6`, documented as unsigned, adds 2 to the product if its argument is 32768 or more (`mul6.asm:56-57`): the `ADC` takes the carry of the `ROL` of the high byte (`C70_mul6`). Such an index is out of any array of floating point numbers.

Smaller things seen while reading, not stated as theorems: `E_REM` skips one character without looking at it, so an empty comment at the end of a line passes the
end of the line and stops at an end of line left in the buffer by another line, or at its own after going around the buffer (harmless: in both cases the
line ends there, this is in `natRem` of C44); the test for 155 in `add_s_str` can never be true; `dhex` in `synt-sm`
is wrong; `get_number` rejects `-0`; `SUB SUB → ADD SUB` needs one more place of the stack; the native compiler patches the references of
a label that is defined twice before it reports the error; strings of more than 255 bytes are left to the assembler; the variables must fit in
512 bytes and only the linker checks it (`clearmem.asm:76`); `parser_start` clears one byte more than `zp_clear_end - zp_clear_start` (`parse.asm:198-202`).
