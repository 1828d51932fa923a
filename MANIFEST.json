{
 "claims": [
  {
   "property": "C01",
   "status": "partial",
   "theorems": [
    "FB.C01_fold_binary_partial",
    "FB.C01_fold_unary",
    "FB.C01_mod_zero_exact",
    "FB.C01_fold_mod_zero_refuted"
   ],
   "note": "All folded operators and all operands, except MOD with divisor 0, where the claim is false of the code: the folded value is x, the runtime gives +-(|x| and 255); both proved."
  },
  {
   "property": "C02",
   "status": "partial",
   "theorems": [
    "FB.C02_le_constant_partial",
    "FB.C02_ge_constant",
    "FB.C02_le_constant_fixed",
    "FB.C02_le_32767_refuted",
    "FB.C02_le_32637_refuted"
   ],
   "note": "All x and k except k = 32767 and 32637 in x<=k, where the claim is false of the code (peephole.cc:1230 tests 32637 instead of 32767); proved for all k with the constant repaired."
  },
  {
   "property": "C03",
   "status": "partial",
   "theorems": [
    "FB.C03_optimizer_preserves_behaviour_partial",
    "FB.C03_fixed_optimizer_preserves_behaviour_partial",
    "FB.C03_optimizer_refuted"
   ],
   "note": "False of the code as it is (IF A<=32767 THEN PUT 65 prints nothing when optimized). Proved for all programs without PRINT COLOR for the optimizer with the two constants repaired, hence for the actual one whenever both give the same code."
  },
  {
   "property": "C04",
   "status": "proved",
   "theorems": [
    "FB.C04_optimizer_keeps_jump_targets"
   ],
   "note": "The actual optimizer, all well-formed programs including PRINT COLOR."
  },
  {
   "property": "C05",
   "status": "partial",
   "theorems": [
    "FB.C05_every_round_terminates_partial",
    "FB.C05_termination_refuted",
    "FB.C05_ends_without_cycles_partial",
    "FB.C05_ends_partial"
   ],
   "note": "False of the code: three procedures tail-calling each other in a cycle make the optimizer loop for ever (proved). Every single round terminates (proved). The rounds end on every well-formed program, unless from some round on the code before every round has a cycle of jumps, a label that leads over other labels back to itself (proved): nothing else keeps the optimizer from ending."
  },
  {
   "property": "C06",
   "status": "partial",
   "theorems": [
    "FB.C06_join_print_partial",
    "FB.C06_print_chars_partial",
    "FB.C06_color_refuted"
   ],
   "note": "Proved for print_chars and the join rules when the tracked colour is the real one (in particular without PRINT COLOR). False of the code otherwise: four witness programs (COLOR(128) CHR$(A); COLOR and empty string; IF 1 THEN PRINT COLOR; COLOR(A) then COLOR(-1))."
  },
  {
   "property": "C07",
   "status": "proved",
   "theorems": [
    "FB.C07_mul",
    "FB.C07_vm"
   ],
   "note": "mul.asm instruction by instruction, all operands."
  },
  {
   "property": "C08",
   "status": "proved",
   "theorems": [
    "FB.C08_div",
    "FB.C08_div_exact",
    "FB.C08_mod",
    "FB.C08_div_mod",
    "FB.C08_div_zero",
    "FB.C08_mod_zero",
    "FB.C08_vm"
   ],
   "note": "div.asm and divmod.asm instruction by instruction, all operands."
  },
  {
   "property": "C09",
   "status": "proved",
   "theorems": [
    "FB.C09_comparisons",
    "FB.C09_logic",
    "FB.C09_vm"
   ],
   "note": "The comparison code of for.asm, comp0.asm and the logical operators, all operands."
  },
  {
   "property": "C10",
   "status": "proved",
   "theorems": [
    "FB.C10_unary",
    "FB.C10_binary",
    "FB.C10_inc_dec",
    "FB.C10_vm"
   ],
   "note": "All operands and addresses."
  },
  {
   "property": "C11",
   "status": "proved",
   "theorems": [
    "FB.C11_for_loop",
    "FB.C11_for_count",
    "FB.C11_for_step_zero"
   ],
   "note": "EXE_FOR and EXE_FOR_NEXT on the 6502 model, any loop body that keeps the stack, any start, limit and step."
  },
  {
   "property": "C12",
   "status": "proved",
   "theorems": [
    "FB.C12_assign",
    "FB.C12_append",
    "FB.C12_assign_new",
    "FB.C12_append_new",
    "FB.C12_no_memory"
   ],
   "note": "copystr.asm and the allocation in clearmem.asm, instruction by instruction; source equal to the destination or disjoint from its buffer."
  },
  {
   "property": "C13",
   "status": "proved",
   "theorems": [
    "FB.C13_slice"
   ],
   "note": "strindex.asm, all strings, positions and counts."
  },
  {
   "property": "C14",
   "status": "proved",
   "theorems": [
    "FB.C14_compare"
   ],
   "note": "cmpstr.asm followed by each integer comparison."
  },
  {
   "property": "C15",
   "status": "partial",
   "theorems": [
    "FB.C15_move",
    "FB.C15_nmove_partial",
    "FB.C15_nmove_refuted",
    "FB.C15_mset"
   ],
   "note": "All addresses and lengths, except -MOVE with 65281 bytes or more, where the claim is false of the code (only length-65280 bytes are copied)."
  },
  {
   "property": "C16",
   "status": "partial",
   "theorems": [
    "FB.Parse.C16_alternative_partial",
    "FB.Parse.C16_table_partial",
    "FB.Parse.C16_shipped_grammar_partial",
    "FB.Parse.C16_refuted"
   ],
   "note": "False as stated: C16_refuted gives a state of a real program in which restore truncates the code of the wrong procedure. Proved, for every grammar that passes the checker, for alternatives that do not open or close a procedure; in the shipped grammar for 86 of 94 tables."
  },
  {
   "property": "C17",
   "status": "proved",
   "theorems": [
    "FB.Parse.C17_level_balanced",
    "FB.Parse.C17_never_out_of_fuel",
    "FB.Parse.C17_depth_bound",
    "FB.Parse.C17_level_limit",
    "FB.Parse.C17_parser"
   ],
   "note": "For every grammar and every set of actions that keep the level; the real actions do (C17_parser). At most 201 nested tables (levels 0 to 200)."
  },
  {
   "property": "C18",
   "status": "proved",
   "theorems": [
    "FB.Parse.C18_keyword",
    "FB.Parse.C18_rejected",
    "FB.Parse.C18_abbreviation",
    "FB.Parse.C18_real_keywords"
   ],
   "note": "For every literal of any grammar and every input. The form \"all upper case characters, then a dot\" holds for all keywords of the shipped grammar but seven that mix cases (listed in C18_real_keywords)."
  },
  {
   "property": "C19",
   "status": "proved",
   "theorems": [
    "FB.Parse.C19_word",
    "FB.Parse.C19_byte"
   ],
   "note": "For all texts and all states of the parser. The specification (positional notation over the digits) is separate from the program's loops."
  },
  {
   "property": "C20",
   "status": "partial",
   "theorems": [
    "FB.Parse.C20_literal",
    "FB.Parse.C20_listing",
    "FB.Parse.C20_follows",
    "FB.Parse.C20_short_partial",
    "FB.Parse.C20_short_refuted"
   ],
   "note": "Literals: exactly the texts of an inductive grammar are accepted, for texts of any length, and the constant has the bytes of the literal. Expanded listing: proved for all byte strings and all texts added after them (except a lone $, which only follows names). Short listing: refuted for the shipped grammar (two strings in a PRINT); proved for each literal by itself."
  },
  {
   "property": "C21",
   "status": "proved",
   "theorems": [
    "FB.Out.C21_encoding",
    "FB.Out.C21_program"
   ],
   "note": "C21_encoding: every item that can be written is printed as a line that the ca65 reading rules turn back into exactly the bytes the runtime expects. C21_program: for every source text, every item generated with the shipped grammar can be written, so the whole program is (strings over 255 bytes give, as in the specification, a range error of the assembler)."
  },
  {
   "property": "C22",
   "status": "partial",
   "theorems": [
    "FB.Parse.C22_nested_partial",
    "FB.Parse.C22_endproc_refuted",
    "FB.Parse.C22_if_refuted",
    "FB.Parse.C22_while_refuted"
   ],
   "note": "Proved for all accepted programs, of any length and depth, where no abandoned alternative of the grammar opened or closed a structure: the structures opened and closed by the actions of the program form a well nested word, each closed by its own terminator. The unrestricted statement is refuted with the shipped grammar (PROCA=5 / ENDPROC and ELIF=3 are accepted, WHILE=5 is rejected)."
  },
  {
   "property": "C23",
   "status": "partial",
   "theorems": [
    "FB.Parse.C23_at_most_once_partial",
    "FB.Parse.C23_fresh",
    "FB.Parse.C23_undefined_refuted"
   ],
   "note": "At most one definition of each label in the final code of every accepted program, and new labels are never used before. That a label which is used is also defined is refuted (ELIF=3 inside an IF)."
  },
  {
   "property": "C24",
   "status": "partial",
   "theorems": [
    "FB.Parse.C24_exit",
    "FB.Parse.C24_target_partial",
    "FB.Parse.C24_outside_refuted"
   ],
   "note": "EXIT: exact characterization of the action (innermost loop or procedure, or failure), and for accepted programs where no abandoned alternative opened or closed a structure, the target label is defined last by the matching terminator. Refuted without the restriction (EXIT outside of everything accepted after PROCA=5)."
  },
  {
   "property": "C25",
   "status": "partial",
   "theorems": [
    "FB.C25_partial",
    "FB.C25_abandoned_refuted"
   ],
   "note": "Both compilers run side by side over the same codes and actions (J.Step); when the native one accepts, its memory is the code of the cross compiler with each label replaced by its address. Missing: text abandoned after an action opened a structure (the claim is then false: C25_abandoned_refuted), the grammar of the native compiler (what it does before each action is the predicate guard), the type of labels in E_LABEL and the limit of 256 bytes in a line."
  },
  {
   "property": "C26",
   "status": "proved",
   "theorems": [
    "FB.Out.C26_storage",
    "FB.Out.C26_address"
   ],
   "note": "Whole chain: map of variables, listing of the variables, layout of the segment HEAP, byte of each use, address computed by EXE_VAR_ADDR. For programs whose variables fit in 512 bytes (the linker rejects the others, clearmem.asm:76)."
  },
  {
   "property": "C27",
   "status": "proved",
   "theorems": [
    "FB.Parse.C27_type",
    "FB.Parse.C27_same"
   ],
   "note": "Every successful var_check at any moment of the compilation of an accepted program (also in abandoned alternatives) has the final type of the name."
  },
  {
   "property": "C28",
   "status": "partial",
   "theorems": [
    "FB.Parse.C28_arguments_partial",
    "FB.Parse.C28_same_arguments_partial",
    "FB.Parse.C28_defined_once_partial",
    "FB.Parse.C28_undefined_refuted",
    "FB.Parse.C28_exec_data_refuted"
   ],
   "note": "EXEC/PROC statements of the shipped grammar with one name agree in the number of arguments; each name is one PROC statement only. Missing: that a procedure used is defined (refuted: left to the assembler) and that it is not data (refuted)."
  },
  {
   "property": "C29",
   "status": "proved",
   "theorems": [
    "FB.Parse.C29_full_code",
    "FB.Parse.C29_items"
   ],
   "note": "full_code joins main (ended by END) and every non-empty block exactly once, complete, sorted by first line; same multiset of items as all blocks. Shipped grammar, any source. std::sort modelled as any sorted permutation, so blocks that start in the same line may come in any order."
  },
  {
   "property": "C30",
   "status": "proved",
   "theorems": [
    "FB.Out.C30_imports",
    "FB.Out.C30_token"
   ],
   "note": "Imports are exactly the used tokens, once each; assembler encoding of a token (C21) + linker table (any order of modules) + 6502 dispatch code reach the routine of the token with cptr advanced, A and X kept and Y the stack pointer."
  },
  {
   "property": "C31",
   "status": "proved",
   "theorems": [
    "FB.Parse.C31_line",
    "FB.Parse.C31_last_line",
    "FB.Parse.C31_same_lines",
    "FB.Parse.C31_lossless",
    "FB.Parse.C31_compiled",
    "FB.Parse.C31_then_comment"
   ],
   "note": "Line contents are described by an independent grammar (characters, strings, comments). For all files made of such lines, any mix of LF, CR LF and 9B gives the same lines; for all byte strings nothing is lost, added or moved apart from the CR of CR LF at the end of a line; the compiler compiles exactly these lines in order. A quote inside a dot comment after THEN joins lines (C31_then_comment)."
  },
  {
   "property": "C32",
   "status": "partial",
   "theorems": [
    "FB.Syn.C32_sections_partial",
    "FB.Syn.C32_plain",
    "FB.Syn.C32_nested_refuted",
    "FB.Syn.C32_unbalanced_refuted"
   ],
   "note": "read_input keeps exactly the right characters for documents with any nesting in which no section with a true condition is inside of one that is not kept; for the others the claim is refuted (a nested true section ends the outer one early), and unbalanced sections are not reported (refuted)."
  },
  {
   "property": "C33",
   "status": "partial",
   "theorems": [
    "FB.C33_unique",
    "FB.C33_merge",
    "FB.C33_clean",
    "FB.C33_optimize",
    "FB.C33_cross",
    "FB.C33_atari",
    "FB.C33_5200",
    "FB.C33_native_fp",
    "FB.C33_native_int",
    "FB.C33_blanks_refuted",
    "FB.C33_missing_refuted",
    "FB.C33_modes_refuted"
   ],
   "note": "Merge of tables, joining of emits and (under a check on the tables, passed by all targets) the deletion of empty tables proved for all grammars, texts, states and actions; also for the tables of the two native compilers, from the syntax files to the result of the optimizer (C33_native_fp, C33_native_int). The unconditional claim is false: a deleted empty table no longer skips blanks (C33_blanks_refuted), a table without lines changes from failure to success (C33_missing_refuted, target atari-5200 has one) and the two modes can disagree (C33_modes_refuted). Error messages and recursion limits are covered only for the cross compiler without empty tables (C33_cross, C33_atari)."
  },
  {
   "property": "C34",
   "status": "proved",
   "theorems": [
    "FB.Out.C34_unique",
    "FB.Out.C34_lines"
   ],
   "note": "Labels distinct for any code; and the last label before an item is one for its line."
  },
  {
   "property": "C35",
   "status": "partial",
   "theorems": [
    "FB.Parse.C35_encoded_partial",
    "FB.Parse.C35_literal_partial",
    "FB.Parse.C35_underflow",
    "FB.Parse.C35_too_big",
    "FB.Parse.C35_roundup_refuted",
    "FB.Parse.C35_limit_refuted"
   ],
   "note": "Literals from 1E-99 to below 1E98, as text anywhere in the source: the bytes emitted are normalized BCD, nearest with ties to even. Excludes numbers rounded up to a power of 100, where the claim is refuted (invalid digit A), and 1E98 itself (refuted, encoded as 9.999999999E99). The double of the source is taken as the exact decimal."
  },
  {
   "property": "C36",
   "status": "proved",
   "theorems": [
    "FB.Parse.C36_text",
    "FB.Parse.C36_reread",
    "FB.Parse.C36_zero"
   ],
   "note": "For every normalized encoding from 1E-99 with exponent byte up to $71 the text denotes exactly the value; below 1E98 reading the text back emits the same six bytes."
  },
  {
   "property": "C37",
   "status": "partial",
   "theorems": [
    "FB.Rt.C37_str",
    "FB.Rt.C37_val",
    "FB.Rt.C37_val_error",
    "FB.Rt.C37_round_partial",
    "FB.Rt.C37_digit_refuted"
   ],
   "note": "STR$ of the Atari 5200 is proved for all 16-bit integers (C37_str), VAL of the Atari 8-bit computers for all decimal texts (C37_val) with its errors (C37_val_error), and the round trip in the 5200 for two or more digits (C37_round_partial). False in the 5200 for numbers of one digit: error 18 and the sign is lost (C37_digit_refuted). STR$ of the 8-bit computers is done by the ROM (IFP, FASC), not in the repository, and is not modelled."
  },
  {
   "property": "C38",
   "status": "partial",
   "theorems": [
    "FB.C38_variable",
    "FB.C38_label",
    "FB.C38_new",
    "FB.C38_new_refuted",
    "FB.C38_create_variable",
    "FB.C38_create_existing",
    "FB.C38_create_label",
    "FB.C38_no_name",
    "FB.C38_count_refuted",
    "FB.C38_line",
    "FB.C38_case"
   ],
   "note": "Search of variables and labels, creation of names and the conversion of a line to capitals proved on the 6502 code for all tables and names. Missing: names of 130 or more characters (C38_new_refuted: name_new copies only the last character), more than 255 entries (C38_count_refuted: the count is one byte), and texts in which the name is followed directly by an inverse-video name character (hypothesis NameEnds). E_VAR_SET_TYPE and the other actions on variables are in C47."
  },
  {
   "property": "C39",
   "status": "proved",
   "theorems": [
    "FB.C39_grow",
    "FB.C39_full",
    "FB.C39_history",
    "FB.C39_history_full",
    "FB.C39_line",
    "FB.C39_laddr",
    "FB.C39_init"
   ],
   "note": "6502 model of alloc.asm; all histories of allocations and stores. Hypotheses: areas above $300, MEMTOP at most $FF00 (an Atari has it below $C000), move_ins holds DEY as the runtime leaves it."
  },
  {
   "property": "C40",
   "status": "proved",
   "theorems": [
    "FB.Parse.C40_report",
    "FB.Parse.C40_position_in_line"
   ],
   "note": "With the real actions and any grammar."
  },
  {
   "property": "C41",
   "status": "proved",
   "theorems": [
    "FB.C41_optimizer_stays_in_bounds"
   ],
   "note": "The actual optimizer, all well-formed programs."
  },
  {
   "property": "C42",
   "status": "proved",
   "theorems": [
    "FB.Parse.C42_statement",
    "FB.Parse.C42_no_internal_error"
   ],
   "note": "For every source text, with the shipped grammar (atari-fp.tgt) and any environment (files, floating point conversion)."
  },
  {
   "property": "C43",
   "status": "partial",
   "theorems": [
    "FB.Rt.C43_runtime_implements_vm_partial",
    "FB.Rt.C43_runtime_follows_vm_partial",
    "FB.Rt.C43_optimized_program_partial",
    "FB.Rt.C43_chr_compares_equal"
   ],
   "note": "Proved for every program with the tokens that the optimizer knows, except GET and GETKEY, and ABS, SGN, DPEEK, POP, FOR, FOR_NEXT, FOR_EXIT, MOVE, NMOVE, MSET, COPY_STR, CAT_STR, CMP_STR and slices (Std: what these do is in ExtSpec), that does not read input or hardware registers, does not overwrite itself, the table of tokens, PRINT_COLOR, array_ptr or the buffer of CHR$, copies between strings that are the same or do not overlap, keeps at most 40 values in the stack, and does not call CHR$ while another result of it is in the stack. The last condition is needed: C43_chr_compares_equal. Missing: the other tokens (input, files, graphics, floating point, DIM, numbers to strings). C43_optimized_program_partial joins it with C03."
  },
  {
   "property": "C44",
   "status": "proved",
   "theorems": [
    "FB.Eng.C44_parses",
    "FB.Eng.C44_depth",
    "FB.Eng.C44_ends",
    "FB.Eng.C44_accepts",
    "FB.Eng.C44_rejects",
    "FB.Eng.C44_values",
    "FB.Eng.C44_tables_fp",
    "FB.Eng.C44_tables_int",
    "FB.Eng.C44_native_fp",
    "FB.Eng.C44_native_int"
   ],
   "note": "Proved for all tables, lines, placements in memory and routines. The routines called by the tables, except E_EOL and E_REM, are given by their behaviour (Acts); what the main loop does between statements and the text and position of error messages are outside of the claim."
  },
  {
   "property": "C45",
   "status": "proved",
   "theorems": [
    "FB.Eng.C45_action",
    "FB.Eng.C45_label",
    "FB.Eng.C45_create",
    "FB.Eng.C45_no_name"
   ],
   "note": "All the actions on jumps of actions.asm:439-861, as code. E_PUSH_VAR and E_POP_VAR are not in the claim. A name has at most 129 characters (C38) and there are less than 255 labels; the text of the line is below the areas and above page 3; actions that take back a byte are called with a byte in the line. The address of prog_ptr is also a named cell, kept equal by the invariant."
  },
  {
   "property": "C46",
   "status": "proved",
   "theorems": [
    "FB.Eng.C46_word",
    "FB.Eng.C46_byte",
    "FB.Eng.C46_string",
    "FB.Eng.C46_int_literal",
    "FB.Eng.C46_same_word",
    "FB.Eng.C46_number_refuted",
    "FB.Eng.C46_string_literal",
    "FB.Eng.C46_string_cross",
    "FB.Eng.C46_same_string",
    "FB.Eng.C46_string_refuted"
   ],
   "note": "Literals: nativeInt (numbers) and NatLit (strings). The agreement with the cross compiler has the exceptions +5, -0 and string values over 255, which are in the refuted theorems; small letters outside of quotes are excluded because lines are turned to capitals before (C38). Floating point literals of the native compiler are not modelled."
  },
  {
   "property": "C47",
   "status": "proved",
   "theorems": [
    "FB.Eng.C47_action",
    "FB.Eng.C47_kept",
    "FB.Eng.C47_declared",
    "FB.Eng.C47_apart",
    "FB.Eng.C47_dot_refuted",
    "FB.Eng.C47_label_type_refuted"
   ],
   "note": "Names are as in C38 (not followed directly by an inverse-video name character, at most 129 characters), and less than 255 words of variables: the other cases are refuted in C38. The two refuted theorems are about what comments of the code say; the statement says what the code does."
  },
  {
   "property": "C48",
   "status": "proved",
   "theorems": [
    "FB.Rt.C48_shift",
    "FB.Rt.C48_rand",
    "FB.Rt.C48_uniform",
    "FB.Rt.C48_half",
    "FB.Rt.C48_functional",
    "FB.Rt.C48_zero"
   ],
   "note": "Runtime code of RAND for all arguments from 0 to 32767 and all sequences of values of RANDOM. Arguments from 32768 (negative numbers) lose their top bit in the shift and are outside the claim. The two reads of the register are steps that take the next value of a list."
  },
  {
   "property": "C49",
   "status": "proved",
   "theorems": [
    "FB.Rt.C49_plot",
    "FB.Rt.C49_error",
    "FB.Rt.C49_locate",
    "FB.Rt.C49_round"
   ],
   "note": "PLOT and LOCATE of the Atari 5200 for graphics modes; screen below $4000, columns below 512."
  },
  {
   "property": "C50",
   "status": "proved",
   "theorems": [
    "FB.Rt.C50_drawto",
    "FB.Rt.C50_last",
    "FB.Rt.C50_lost"
   ],
   "note": "DRAWTO of the Atari 5200; the property names the lines that are not complete (finding 18), and C50_lost proves that their last pixel is not painted."
  },
  {
   "property": "C51",
   "status": "proved",
   "theorems": [
    "FB.Rt.C51_tab",
    "FB.Rt.C51_far",
    "FB.Rt.C51_rtab",
    "FB.Rt.C51_long",
    "FB.Rt.C51_zero",
    "FB.Rt.C51_div"
   ],
   "note": "all arguments, columns, strings and states; C51_far, C51_long, C51_zero and C51_div are the cases where the manual does not hold"
  },
  {
   "property": "C52",
   "status": "proved",
   "theorems": [
    "FB.Rt.C52_power",
    "FB.Rt.C52_inverse",
    "FB.Rt.C52_exact",
    "FB.Rt.C52_round",
    "FB.Rt.C52_range",
    "FB.Rt.C52_lost"
   ],
   "note": "all operations, numbers and exponents; C52_lost is the error of the division that is not given"
  },
  {
   "property": "C53",
   "status": "proved",
   "theorems": [
    "FB.Eng.C53_accepts",
    "FB.Eng.C53_label",
    "FB.Eng.C53_loop",
    "FB.Eng.C53_start",
    "FB.Eng.C53_line",
    "FB.Eng.C53_empty"
   ],
   "note": "all states of the memory relation of C45; messages from the modelled table of errors.asm"
  },
  {
   "property": "C54",
   "status": "partial",
   "theorems": [
    "FB.Drv.C54_inputs_kept_partial",
    "FB.Drv.C54_same_name_refuted",
    "FB.Drv.C54_object_refuted",
    "FB.Drv.C54_output_refuted",
    "FB.Drv.C54_listing_refuted",
    "FB.Drv.C54_asm_listing_refuted",
    "FB.Drv.C54_two_sources_refuted",
    "FB.Drv.C54_path_refuted"
   ],
   "note": "Proved for all command lines in which the names do not collide (Apart: names of assembler and object files differ, without the extension, from the others and from the results; no file is the result; no file ends with the extension of the programs or of the listings in use). False in general: one witness for each condition. File names are compared as texts."
  },
  {
   "property": "C55",
   "status": "proved",
   "theorems": [
    "FB.Drv.C55_reads",
    "FB.Drv.C55_removes",
    "FB.Drv.C55_fails",
    "FB.Drv.C55_all_used",
    "FB.Drv.C55_linked",
    "FB.Drv.C55_clean",
    "FB.Drv.C55_compile_only",
    "FB.Drv.C55_late_option_refuted"
   ],
   "note": "All parts for all command lines and results of the steps. The option -c after a file does not have the effect of the help text (C55_late_option_refuted)."
  },
  {
   "property": "C56",
   "status": "partial",
   "theorems": [
    "FB.Drv.C56_target_partial",
    "FB.Drv.C56_ends",
    "FB.Drv.C56_last_line_refuted",
    "FB.Drv.C56_blanks_refuted",
    "FB.Drv.C56_cycle_refuted"
   ],
   "note": "Proved for all files that are empty or end with an end of line (C56_target_partial, C56_ends). False otherwise: the last line is ignored (C56_last_line_refuted). Values keep the blanks at the end of the line (C56_blanks_refuted), and circular includes never end (C56_cycle_refuted)."
  },
  {
   "property": "C57",
   "status": "proved",
   "theorems": [
    "FB.Rt.C57_root",
    "FB.Rt.C57_other"
   ],
   "note": "Over any arithmetic on six bytes with the given bound of the error; an arithmetic with the bound 10^-8 is shown to exist. The bytes of the ROM at $DF6C are a hypothesis."
  },
  {
   "property": "C58",
   "status": "proved",
   "theorems": [
    "FB.Rt.C58_value",
    "FB.Rt.C58_runs",
    "FB.Rt.C58_assign",
    "FB.Rt.C58_compare",
    "FB.Rt.C58_integer",
    "FB.Rt.C58_ninth_refuted",
    "FB.Rt.C58_int_min_refuted"
   ],
   "note": "The arithmetic of the OS is any functions on six bytes. The tokens LOG, EXP, trigonometry, VAL, STR and RND are not in the expressions."
  },
  {
   "property": "C59",
   "status": "proved",
   "theorems": [
    "FB.Rt.C59_graphics",
    "FB.Rt.C59_shown_unique",
    "FB.Rt.C59_lines_whole"
   ],
   "note": "The display processor is the inductive relation Antic (specification); C59_shown_unique shows that it is deterministic. The tables in ROM are a hypothesis (GmRom), met by gmExRom. The cells are at fixed addresses."
  },
  {
   "property": "C60",
   "status": "proved",
   "theorems": [
    "FB.Rt.C60_putc",
    "FB.Rt.C60_eol",
    "FB.Rt.C60_locate",
    "FB.Rt.C60_text"
   ],
   "note": "Rows below 24, as the cursor is kept by the code; the cell is not in page zero."
  },
  {
   "property": "C61",
   "status": "proved",
   "theorems": [
    "FB.Rt.C61_input"
   ],
   "note": "Keys 0 to 14, as the table; the column of the cursor plus the limit of characters below 128; the row on the screen."
  },
  {
   "property": "C62",
   "status": "proved",
   "theorems": [
    "FB.Rt.C62_xio",
    "FB.Rt.C62_bget",
    "FB.Rt.C62_bput",
    "FB.Rt.C62_graphics",
    "FB.Rt.C62_close",
    "FB.Rt.C62_drawto",
    "FB.Rt.C62_get",
    "FB.Rt.C62_channel",
    "FB.Rt.C62_return",
    "FB.Rt.C62_input",
    "FB.Rt.C62_text"
   ],
   "note": "The interpreter enters the statements with Y on the top of the stack of integers (BGET, BPUT); the name of XIO does not start inside of the first 128 bytes of the buffer. CIOV itself is in the ROM."
  },
  {
   "property": "C63",
   "status": "proved",
   "theorems": [
    "FB.Rt.C63_off",
    "FB.Rt.C63_on",
    "FB.Rt.C63_three"
   ],
   "note": "PMGRAPHICS in all its modes; the hardware is the specification anticPm (ANTIC ignores the low bits of the page). The addresses of the 5200 are others, the code is the same."
  },
  {
   "property": "C64",
   "status": "proved",
   "theorems": [
    "FB.Rt.C64_time",
    "FB.Rt.C64_fptime",
    "FB.Rt.C64_pause",
    "FB.Rt.C64_timer",
    "FB.Rt.C64_timer_race"
   ],
   "note": "The 16-bit value is that of the clock at a time in the execution. Of %TIME only the loop of reads (the conversion is in the ROM). TIMER as its loads and stores; the race of finding 31 is C64_timer_race."
  },
  {
   "property": "C65",
   "status": "proved",
   "theorems": [
    "FB.Rt.C65_vbi",
    "FB.Rt.C65_kb",
    "FB.Rt.C65_scan",
    "FB.Rt.C65_scans"
   ],
   "note": "The interruptions run one at a time, as in the processor. The registers written only (PRIOR, CONSOL, SKCTL, IRQEN) are cells of memory."
  },
  {
   "property": "C66",
   "status": "proved",
   "theorems": [
    "FB.Rt.C66_addr",
    "FB.Rt.C66_param",
    "FB.Rt.C66_call",
    "FB.Rt.C66_usr",
    "FB.Rt.nextLine_unique"
   ],
   "note": "The indirect jump of USR_CALL is to the routine called, COUNT_LINES; other routines are not modelled. C66_usr puts the tokens together, with any code between them that keeps the stack of the processor."
  },
  {
   "property": "C67",
   "status": "proved",
   "theorems": [
    "FB.Rt.C67_start",
    "FB.Rt.C67_parse",
    "FB.Rt.C67_error",
    "FB.Rt.C67_saved",
    "FB.Rt.C67_run",
    "FB.Rt.C67_call",
    "FB.Rt.C67_back",
    "FB.Rt.C67_break",
    "FB.Rt.C67_race",
    "FB.Rt.C67_menu_start",
    "FB.Rt.C67_menu"
   ],
   "note": "COMPILE_BUFFER between its calls, and break_irq; the parser, putc and interpreter_run are only assumed to return with the stack of the processor as it was. C67_race is finding 32."
  },
  {
   "property": "C68",
   "status": "proved",
   "theorems": [
    "FB.Rt.C68_loop",
    "FB.Rt.C68_start",
    "FB.Rt.C68_extra"
   ],
   "note": "The loop is for all sizes below 128; the addresses of the linker are fixed. move_dwn itself is not part of this claim. C68_extra is finding 33."
  },
  {
   "property": "C69",
   "status": "proved",
   "theorems": [
    "FB.Rt.C69_putc",
    "FB.Rt.C69_putc_back",
    "FB.Rt.C69_put",
    "FB.Rt.C69_getkey",
    "FB.Rt.C69_getkey_back",
    "FB.Rt.C69_position",
    "FB.Rt.C69_sound_off"
   ],
   "note": "The handlers of the OS are only assumed to return with tmp3+1 and the stack as they were; the model ends at the rts that enters them."
  },
  {
   "property": "C70",
   "status": "proved",
   "theorems": [
    "FB.Rt.C70_mul6",
    "FB.Rt.C70_sin",
    "FB.Rt.C70_cos",
    "FB.Rt.C70_quadrant",
    "FB.Rt.C70_error",
    "FB.Rt.C70_mirror",
    "FB.Rt.C70_sign"
   ],
   "note": "The parts of SIN and COS between the calls of the routines of the OS and of the polynomial, from any state at each return; what those routines compute is not part of the claim. C70_mul6 has finding 34."
  }
 ]
}
