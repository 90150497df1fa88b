{
 "claims": [
  {
   "property": "C01",
   "status": "proved",
   "theorems": [
    "Verif.C01_lookup_total"
   ],
   "note": "Table lookups are total for every instruction, mode and switch setting."
  },
  {
   "property": "C02",
   "status": "partial",
   "theorems": [
    "Verif.C02_unambiguous_6502",
    "Verif.C02_unambiguous_65C02_partial",
    "Verif.C02_ambiguous_65C02"
   ],
   "note": "Proved for the 6502 table; for the 65C02 only without the undocumented rows (ambiguity witness given)."
  },
  {
   "property": "C03",
   "status": "partial",
   "theorems": [
    "Verif.C03_illegal_needs_switch_6502",
    "Verif.C03_switch_keeps_documented",
    "Verif.C03_switch_enables",
    "Verif.C03_false_65C02"
   ],
   "note": "Holds for the 6502; the 65C02 accepts undocumented opcodes without the switch (witness)."
  },
  {
   "property": "C04",
   "status": "partial",
   "theorems": [
    "Verif.C04_length_6502",
    "Verif.C04_length_65C02_partial",
    "Verif.C04_false_65C02",
    "Verif.C04_false_bbr"
   ],
   "note": "Proved for all 6502 opcodes; 65C02 except (zp) and BBR/BBS, with witnesses."
  },
  {
   "property": "C05",
   "status": "proved",
   "theorems": [
    "Verif.C05_byte",
    "Verif.C05_word",
    "Verif.C05_injective"
   ],
   "note": "All ints; output closed or header pending are covered separately."
  },
  {
   "property": "C06",
   "status": "partial",
   "theorems": [
    "Verif.C06_emit",
    "Verif.C06_reject",
    "Verif.C06_directive_false"
   ],
   "note": "Exact behaviour of the write functions for every int; at directive level .byte 256..65535 is undefined behaviour in the listing (witness)."
  },
  {
   "property": "C07",
   "status": "partial",
   "theorems": [
    "Verif.C07_branch_reaches_target_partial",
    "Verif.C07_false_128"
   ],
   "note": "All documented branches of both CPUs except bbr/bbs, displacements -127..127; -128 is turned into a long branch (C08) and +128 is proved to be encoded wrongly."
  },
  {
   "property": "C08",
   "status": "partial",
   "theorems": [
    "Verif.C08_long_branch_partial",
    "Verif.C08_false_overflow",
    "Verif.C08_false_bra",
    "Verif.C08_false_star"
   ],
   "note": "All invertible branches (bcc bcs beq bmi bne bpl) of both CPUs, all flag states, all out-of-range targets whose expression does not use *; executed with a separate 6502 stepper. Proved false for bvc/bvs and bra (all states) and for targets written with *."
  },
  {
   "property": "C09",
   "status": "partial",
   "theorems": [
    "Verif.C09_false",
    "Verif.C09_short_partial",
    "Verif.C09_loop_false"
   ],
   "note": "Negation: a macro with an out-of-range bne called twice. Partial: branches that stay in range, any number of expansions of one node."
  },
  {
   "property": "C10",
   "status": "partial",
   "theorems": [
    "Verif.C10_operand_value_partial",
    "Verif.C10_operand_value_65C02_partial",
    "Verif.C10_false_large",
    "Verif.C10_false_negative",
    "Verif.C10_false_branch_form"
   ],
   "note": "All documented non-branch instructions, all operand expressions, values 0..65535, both directions (encodable is encoded, otherwise error). Larger and negative values are truncated silently (witnesses)."
  },
  {
   "property": "C11",
   "status": "partial",
   "theorems": [
    "Verif.C11_data_partial",
    "Verif.C11_false_short_circuit",
    "Verif.C11_false_negative_str",
    "Verif.C11_instruction_partial",
    "Verif.C11_implied_partial",
    "Verif.C11_long_branch"
   ],
   "note": "Instructions with and without operand and .byte/.word/.str lists of any length, from any state; branches in the short and the long form. Two forms of data items violate the claim (witnesses)."
  },
  {
   "property": "C12",
   "status": "partial",
   "theorems": [
    "Verif.C12_blocks_partial",
    "Verif.C12_star_partial",
    "Verif.C12_accepted_partial",
    "Verif.C12_image_partial"
   ],
   "note": "All flat programs after one .org or *=: instructions, data, fills, .load, assignments, global and local labels, any length; every byte of every line at its offset. One theorem assumes that the symbols have their final values; another, for whole assemblies, derives it, for one or several input files with settings and assignments before .org or *=, from acceptance by the assembler, given that every statement has an encoding for the symbol values. Branches out of range are covered (bvc, bvs and bra, which are assembled wrongly, are not), and included files; macros are covered under C58. A further theorem covers programs that also contain blocks with conditionals, loops and variables."
  },
  {
   "property": "C13",
   "status": "partial",
   "theorems": [
    "Verif.C13_org_partial",
    "Verif.C13_assemble_partial",
    "Verif.C13_stale_false",
    "Verif.C13_item",
    "Verif.C13_pass_partial",
    "Verif.C13_raw_partial"
   ],
   "note": "All programs, for whole passes: the output starts with at most one header written from the origin in force at the first emission; for programs that start with .org e and contain no other .org and no *= it is the value of e, in the pass and in the assembly. Missing: the tie between the header and the last *= executed. Violated for code before .org (C13_stale_false)."
  },
  {
   "property": "C14",
   "status": "partial",
   "theorems": [
    "Verif.C14_gap_stops_partial",
    "Verif.C14_false_c64"
   ],
   "note": "All gaps larger than the header (so every gap in raw format) end with an error at the next emission; gaps of 1 and 2 bytes in C64 format are proved to pass unnoticed."
  },
  {
   "property": "C15",
   "status": "partial",
   "theorems": [
    "Verif.C15_fill_partial",
    "Verif.C15_fill_rejects",
    "Verif.C15_false_zero",
    "Verif.C15_false_c64"
   ],
   "note": "All byte values and counts, both formats; count 0 outside the final pass and a fill as the very first C64 emission are counterexamples."
  },
  {
   "property": "C16",
   "status": "proved",
   "theorems": [
    "Verif.C16_load",
    "Verif.C16_missing_file"
   ],
   "note": "All file contents, all passes, both formats, header due or not; the origin must be known and the file must exist (otherwise undefined behaviour, witness)."
  },
  {
   "property": "C17",
   "status": "proved",
   "theorems": [
    "Verif.C17_expand",
    "Verif.C17_pass",
    "Verif.C17_assemble"
   ],
   "note": "All programs, all passes, by an effect framework over the whole interpreter."
  },
  {
   "property": "C18",
   "status": "proved",
   "theorems": [
    "Verif.C18_case_insensitive",
    "Verif.C18_equivalence"
   ],
   "note": "All byte strings."
  },
  {
   "property": "C19",
   "status": "proved",
   "theorems": [
    "Verif.C19_dictionary_is_finite_map"
   ],
   "note": "Refinement to a finite map over arbitrary histories."
  },
  {
   "property": "C20",
   "status": "partial",
   "theorems": [
    "Verif.C20_most_recent_partial",
    "Verif.C20_false_after_growth"
   ],
   "note": "Holds while the dictionary does not grow; growth reverses the order (witness)."
  },
  {
   "property": "C21",
   "status": "proved",
   "theorems": [
    "Verif.C21_stack_is_lifo",
    "Verif.C21_empty_undefined"
   ],
   "note": "Refinement to lists; pop/top of an empty stack is undefined behaviour."
  },
  {
   "property": "C22",
   "status": "partial",
   "theorems": [
    "Verif.C22_reject",
    "Verif.C22_store",
    "Verif.C22_statement_false"
   ],
   "note": "set_symbol_value exactly, for every table and value; at statement level a rejected assignment still marks the symbol defined (witness)."
  },
  {
   "property": "C23",
   "status": "partial",
   "theorems": [
    "Verif.C23_assign",
    "Verif.C23_equal_false",
    "Verif.C23_found",
    "Verif.C23_not_found",
    "Verif.C23_private"
   ],
   "note": "All symbol tables, sections and names; C23_assign covers assignments: in a section, an assignment to a name that only the global scope has creates the symbol of the section and leaves the global one. C23_equal_false: no symbol is created when the assigned value is the one the global symbol has already."
  },
  {
   "property": "C24",
   "status": "proved",
   "theorems": [
    "Verif.C24_enter",
    "Verif.C24_leave",
    "Verif.C24_nested",
    "Verif.C24_dotted_false"
   ],
   "note": "All well-nested texts with undotted names, with arbitrary neutral statements in between; a dotted name is a counterexample."
  },
  {
   "property": "C25",
   "status": "partial",
   "theorems": [
    "Verif.C25_minus",
    "Verif.C25_plus",
    "Verif.C25_minus_none_partial",
    "Verif.C25_no_label",
    "Verif.C25_other_file_false",
    "Verif.C25_past_end_false",
    "Verif.C25_insert_sorted",
    "Verif.C25_define_minus",
    "Verif.C25_define_plus",
    "Verif.C25_value"
   ],
   "note": "All sorted tables, any depth; the definition of a label keeps the tables sorted. With too few labels the reference reads past the table or finds a label of another file (witnesses)."
  },
  {
   "property": "C26",
   "status": "proved",
   "theorems": [
    "Verif.C26_expand",
    "Verif.C26_pass",
    "Verif.C26_errors",
    "Verif.C26_assemble"
   ],
   "note": "All programs, all passes."
  },
  {
   "property": "C27",
   "status": "proved",
   "theorems": [
    "Verif.C27_passes_bounded",
    "Verif.C27_pass19_rejected"
   ],
   "note": "Driver level, for an arbitrary pass function: at most 19 passes plus the final one; a program that becomes clean exactly in pass 19 is rejected (proved)."
  },
  {
   "property": "C28",
   "status": "proved",
   "theorems": [
    "Verif.C28_final_after_clean",
    "Verif.C28_failure_leaves_output"
   ],
   "note": "Driver level, for an arbitrary pass function."
  },
  {
   "property": "C29",
   "status": "partial",
   "theorems": [
    "Verif.C29_success_partial",
    "Verif.C29_false_driver"
   ],
   "note": "Errors of the final pass do not change the status (witness at driver level)."
  },
  {
   "property": "C30",
   "status": "proved",
   "theorems": [
    "Verif.C30_assemble"
   ],
   "note": "All programs, all passes of an assembly that starts with an empty heap."
  },
  {
   "property": "C31",
   "status": "partial",
   "theorems": [
    "Verif.C31_params_partial",
    "Verif.C31_stack",
    "Verif.C31_beyond_false"
   ],
   "note": "For every macro body and nesting: parameters 1..n, n being the largest argument count so far. Parameters that exist only because a macro text mentions them are not restored (witness)."
  },
  {
   "property": "C32",
   "status": "partial",
   "theorems": [
    "Verif.C32_bind_partial",
    "Verif.C32_swap_false"
   ],
   "note": "All argument lists in which no argument mentions a parameter bound by an earlier argument of the same call; the swap inner \\2,\\1 is a witness of the violation."
  },
  {
   "property": "C33",
   "status": "proved",
   "theorems": [
    "Verif.C33_for",
    "Verif.C33_loop"
   ],
   "note": "All bounds and steps, upwards and downwards, all bodies of the structured statements that do not assign the variable (a syntactic condition), through the parser actions and the interpreter; and for the loop in expand_operator_for_node with an arbitrary body."
  },
  {
   "property": "C34",
   "status": "proved",
   "theorems": [
    "Verif.C34_while",
    "Verif.C34_repeat",
    "Verif.C34_for",
    "Verif.C34_while_stmt",
    "Verif.C34_diverges"
   ],
   "note": "All four loop kinds with arbitrary conditions and bodies that come back and advance the location counter; the .while statement with any structured body; a loop whose body changes nothing never ends (for every fuel)."
  },
  {
   "property": "C35",
   "status": "partial",
   "theorems": [
    "Verif.C35_to255_false",
    "Verif.C35_downto0_false",
    "Verif.C35_loop_partial"
   ],
   "note": "Whole statement (assembly and execution of the emitted code, also with the long way back) for all bounds except a<255 to 255 and a>0 downto 0, where it is false (witnesses). The body is one of the structured statements of Spec.Runs with at least one byte; nested register loops are not covered."
  },
  {
   "property": "C36",
   "status": "partial",
   "theorems": [
    "Verif.C36_text_emitted",
    "Verif.C36_escapes_decoded",
    "Verif.C36_no_escape_identity",
    "Verif.C36_output_fits",
    "Verif.C36_safe_partial",
    "Verif.C36_unsafe",
    "Verif.C36_octal_rejected"
   ],
   "note": "All escape sequences; a trailing backslash reads past the terminator (witness), octal escapes are rejected. A NUL escape ends the text."
  },
  {
   "property": "C37",
   "status": "partial",
   "theorems": [
    "Verif.C37_ifdef_selects_partial",
    "Verif.C37_skipped_text",
    "Verif.C37_false_nested",
    "Verif.C37_false_nested_else",
    "Verif.C37_text_nested_false",
    "Verif.C37_guard_false"
   ],
   "note": "Proved for blocks whose nested conditionals are all taken or plain; nested skipped blocks and nested .else are witnesses against the full claim. On characters: C53_scan covers conditional blocks, C37_text_nested_false is the swallowing for all texts, C37_guard_false shows that names defined later change the selection between passes."
  },
  {
   "property": "C38",
   "status": "partial",
   "theorems": [
    "Verif.C38_define_value_partial",
    "Verif.C38_false_decimal"
   ],
   "note": "Decimal values of three or more digits define 0 (proved for all of them)."
  },
  {
   "property": "C39",
   "status": "proved",
   "theorems": [
    "Verif.C39_line_ends_normalised",
    "Verif.C39_unix_identity",
    "Verif.C39_any_input",
    "Verif.C39_idempotent"
   ],
   "note": "All byte sequences."
  },
  {
   "property": "C40",
   "status": "proved",
   "theorems": [
    "Verif.C40_value",
    "Verif.C40_again",
    "Verif.C40_bytes",
    "Verif.C40_overflow"
   ],
   "note": "All expression trees: value, errors and symbol table of expand_node against a separate evaluator; re-evaluation gives the same value; low/high bytes and overflow stated separately."
  },
  {
   "property": "C41",
   "status": "partial",
   "theorems": [
    "Verif.C41_data_partial",
    "Verif.C41_false_pad",
    "Verif.C41_fill_partial",
    "Verif.C41_load",
    "Verif.C41_listing_bytes",
    "Verif.C41_listing_implied",
    "Verif.C41_long_branch"
   ],
   "note": "All instructions (branches in both forms), data directives, fills and binary files: the printed columns are the emitted bytes and the addresses. Not covered: a fill as the first emission in C64 format. Fails for the pad byte after a text of odd length divisible by three (witness)."
  },
  {
   "property": "C42",
   "status": "partial",
   "theorems": [
    "Verif.C42_expand",
    "Verif.C42_rest_partial",
    "Verif.C42_truncate_partial",
    "Verif.C42_flag_false"
   ],
   "note": "All programs that do not mark macro names after .end; with a .macro after .end the flag of an existing symbol changes (witness)."
  },
  {
   "property": "C43",
   "status": "proved",
   "theorems": [
    "Verif.C43_opens_first_match",
    "Verif.C43_no_overrun",
    "Verif.C43_opened_exists"
   ],
   "note": "All search paths and file systems (a file system is a predicate on names)."
  },
  {
   "property": "C44",
   "status": "partial",
   "theorems": [
    "Verif.C44_plus_false",
    "Verif.C44_minus_false",
    "Verif.C44_stable_partial"
   ],
   "note": "All programs, every line: in a pass that ends with change counter 0 each reference sees the final value of its symbol. The assembler does not check the counter after the final pass, and missing anonymous labels are not reported (witnesses)."
  },
  {
   "property": "C45",
   "status": "partial",
   "theorems": [
    "Verif.C45_init_partial",
    "Verif.C45_declaration_partial",
    "Verif.C45_list_partial",
    "Verif.C45_symbol_false",
    "Verif.C45_self_false"
   ],
   "note": "Every initialiser that is not a bare symbol and does not mention the variable, for new and existing names. C45_list_partial: a list of declarations does to the symbols what the single declarations do in turn, for names that are new or variables already. Both exceptions are violations with witnesses. Missing: names with a dot."
  },
  {
   "property": "C46",
   "status": "proved",
   "theorems": [
    "Verif.C46_literals",
    "Verif.C46_overflow_wraps"
   ],
   "note": "All numerals that fit an int."
  },
  {
   "property": "C47",
   "status": "proved",
   "theorems": [
    "Verif.C47_short",
    "Verif.C47_implied",
    "Verif.C47_stable_size"
   ],
   "note": "All instructions and operand forms, both processors, in any two states with the same symbol values; branches in short and long form (at the same address)."
  },
  {
   "property": "C48",
   "status": "proved",
   "theorems": [
    "Verif.C48_resolved",
    "Verif.C48_count"
   ],
   "note": "All programs."
  },
  {
   "property": "C49",
   "status": "partial",
   "theorems": [
    "Verif.C49_encoding_sound_6502",
    "Verif.C49_encoding_complete_6502",
    "Verif.C49_encoding_sound_65C02_partial",
    "Verif.C49_false_65C02"
   ],
   "note": "Sound and complete against an independent decoder for the 6502; 65C02 partial with witness."
  },
  {
   "property": "C50",
   "status": "proved",
   "theorems": [
    "Verif.C50_blocks"
   ],
   "note": "All blocks of these statements at top level, for variables that exist already and have no local names, outside sections; with macro calls (runs_expand) as in C58."
  },
  {
   "property": "C51",
   "status": "partial",
   "theorems": [
    "Verif.C51_settings",
    "Verif.C51_twice",
    "Verif.C51_help",
    "Verif.C51_define_partial",
    "Verif.C51_false_out_of_range"
   ],
   "note": "All argument vectors: exactly which are accepted and with which settings; repeated options and help. Definitions: all identifiers and 16-bit values; a larger value is reported but the symbol becomes 0 (witness)."
  },
  {
   "property": "C52",
   "status": "proved",
   "theorems": [
    "Verif.C52_parse",
    "Verif.C52_unambiguous",
    "Verif.C52_every",
    "Verif.C52_no_minus_name",
    "Verif.C52_unlike_c"
   ],
   "note": "Exactly the texts of the written grammar, with the tree they stand for; unambiguous; every tree can be written. The shift/reduce decisions are those prescribed by the precedence declarations; bison tables are not modelled."
  },
  {
   "property": "C53",
   "status": "proved",
   "theorems": [
    "Verif.C53_longest_match",
    "Verif.C53_always_matches",
    "Verif.C53_progress",
    "Verif.C53_line_number",
    "Verif.C53_scan",
    "Verif.C53_one_reading",
    "Verif.C53_signs_join",
    "Verif.C53_after_comment"
   ],
   "note": "Rule choice, progress and line numbers for all texts; tokens for all texts of the written lexical grammar (everything but .warn, .debug_\u2026, 0b numbers, quoted escapes, `*.equ` and carriage returns), with the set of macro names fixed while scanning. Conditional blocks are covered except where the scanner does not follow the blocks (a skipped block without .else, or a skipped .else, inside another block: C37)."
  },
  {
   "property": "C54",
   "status": "proved",
   "theorems": [
    "Verif.C54_program",
    "Verif.C54_top",
    "Verif.C54_one_reading",
    "Verif.C54_unambiguous",
    "Verif.C54_indirect",
    "Verif.C54_grouping",
    "Verif.C54_no_paren_x",
    "Verif.C54_address_operand",
    "Verif.C54_no_label_in_block"
   ],
   "note": "All of pasm.y except .inc; iff between the parser and the written grammar. Bison is replaced by a parser that takes the decisions its rules leave."
  },
  {
   "property": "C55",
   "status": "partial",
   "theorems": [
    "Verif.C55_assembly",
    "Verif.C55_pass",
    "Verif.C55_image_partial",
    "Verif.C55_one_reading",
    "Verif.C55_while_in_do"
   ],
   "note": "All texts of the two written grammars without macro definitions and calls (settings .6502, .65c02, .illegal, .c64 included); one or several files; .ifdef and .ifndef may ask for names that are in the table from the start. C55_image_partial: from the characters of one or several files to the bytes for flat programs, as in C12."
  },
  {
   "property": "C56",
   "status": "partial",
   "theorems": [
    "Verif.C56_call",
    "Verif.C56_apart_partial",
    "Verif.C56_restore",
    "Verif.C56_definition_false"
   ],
   "note": "All calls of macros that have an entry in the macro dictionary (made by every definition), for two calls of which the second starts after the first has ended; names without a colon. Labels defined in the text of a macro are named at parse time (witness of the violation)."
  },
  {
   "property": "C57",
   "status": "partial",
   "theorems": [
    "Verif.C57_table",
    "Verif.C57_print",
    "Verif.C57_rows",
    "Verif.C57_in_order",
    "Verif.C57_read_all",
    "Verif.C57_read_lines",
    "Verif.C57_long_line_false",
    "Verif.C57_split_line_false",
    "Verif.C57_case_false",
    "Verif.C57_empty_false",
    "Verif.C57_last_line_false",
    "Verif.C57_print_statement"
   ],
   "note": "The table of entries is the argument; the interpreter model builds the entries of instructions, data and .print on/off, but not the empty ones at the ends of files and skipped blocks; any number of files, any order of entries, .print included; file names distinct up to case, rows that fit the 2048 character buffer. Violations with witnesses: long lines, names differing in case, empty table, last line without line feed."
  },
  {
   "property": "C58",
   "status": "partial",
   "theorems": [
    "Verif.C58_text",
    "Verif.C58_program_partial"
   ],
   "note": "The rules of Spec.MacroSource and Spec.Runs; blocks with calls and texts of macros use no local names and define no labels, outside sections; no more arguments than in some call of the passes before; symbols have their final values (as in the last pass) and the parameters exist. Text replacement for macros that call no macros: nested calls with missing arguments see the parameters of their caller, and arguments that mention parameters are the violation of C32."
  },
  {
   "property": "C59",
   "status": "partial",
   "theorems": [
    "Verif.C59_print",
    "Verif.C59_number",
    "Verif.C59_large_false"
   ],
   "note": "All item lists whose items are texts and expressions with values (undefined names are reported by the evaluation, C06). Violation: numbers beyond 16 bits are cut."
  },
  {
   "property": "C60",
   "status": "partial",
   "theorems": [
    "Verif.C60_printable",
    "Verif.C60_instruction_partial",
    "Verif.C60_implied",
    "Verif.C60_long_branch",
    "Verif.C60_data_partial",
    "Verif.C60_false_indirect",
    "Verif.C60_false_backslash",
    "Verif.C60_false_newline",
    "Verif.C60_source",
    "Verif.C60_program_partial"
   ],
   "note": "Instructions with operands from 0 to $FFFF, implied and accumulator instructions, both rows of long branches, data with texts without backslash, quote and line feed. C60_source: rows that read back, behind .org, are a program whose output file has the bytes of the rows; C60_program_partial: the listing of an accepted program without blocks (fills, binary and included files are covered), made into a source file, assembles to the same output file. Violations: jmp (abs,x), backslash and line feed in texts."
  },
  {
   "property": "C61",
   "status": "partial",
   "theorems": [
    "Verif.C61_assembly_partial",
    "Verif.C61_pass_partial",
    "Verif.C61_image_partial",
    "Verif.C61_inc_effect",
    "Verif.C61_false_block",
    "Verif.C61_false_newline",
    "Verif.C61_false_anonymous",
    "Verif.C61_false_short_name"
   ],
   "note": "Texts without macros and .end, .inc outside of blocks on a line without label; for files that begin with .org or *=, after empty lines, settings and assignments, also from the texts to the bytes of the output. Violations: .inc in blocks, files without a final line feed, anonymous labels behind .inc, names of one character."
  },
  {
   "property": "C62",
   "status": "partial",
   "theorems": [
    "Verif.C62_listed",
    "Verif.C62_aligned",
    "Verif.C62_unresolved_partial",
    "Verif.C62_unresolved_false",
    "Verif.C62_changed"
   ],
   "note": "All tables with 16-bit values (a larger value is shown with more digits) and names without blanks; qsort is any function that permutes and sorts. times_accessed and is_local are part of the table that is the argument, the interpreter model does not carry them. Violation: the list of unresolved symbols shows macros that are not counted."
  },
  {
   "property": "C63",
   "status": "partial",
   "theorems": [
    "Verif.C63_message_partial",
    "Verif.C63_statement_shown",
    "Verif.C63_count",
    "Verif.C63_parameter_partial",
    "Verif.C63_parameter_false",
    "Verif.C63_message_false"
   ],
   "note": "All files whose lines have fewer than 2047 characters, all line numbers (yylineno is an argument); parameters of fewer than 1990 characters. Violations with witnesses: longer lines, longer parameters."
  },
  {
   "property": "C64",
   "status": "partial",
   "theorems": [
    "Verif.C64_visible",
    "Verif.C64_help",
    "Verif.C64_success",
    "Verif.C64_start_partial",
    "Verif.C64_image_partial",
    "Verif.C64_false_source"
   ],
   "note": "From words and files to bytes for input files, one or several, that begin with .org or *=, after empty lines, settings and assignments, and are without blocks, macros and later settings (as C61_image_partial), an output file that has no contents before, definitions of identifiers by 16-bit values. C64_success and C64_visible hold for all command lines and disks. Violation with witness: output or log file equal to the source."
  },
  {
   "property": "C65",
   "status": "partial",
   "theorems": [
    "Verif.C65_rows_partial",
    "Verif.C65_dispatch_partial",
    "Verif.C65_expand_partial",
    "Verif.C65_hash_false",
    "Verif.C65_hash_small",
    "Verif.C65_overread_false",
    "Verif.C65_rows_read"
   ],
   "note": "All trees and states, every hash function that has values. Violations: hash_pointer_function is undefined for 8-byte pointers (it gives a value for 4-byte ones), and the last row of each table is read beyond its end."
  },
  {
   "property": "C66",
   "status": "partial",
   "theorems": [
    "Verif.NodeList.C66_free_partial",
    "Verif.NodeList.C66_passes_partial",
    "Verif.NodeList.C66_leak_false",
    "Verif.NodeList.C66_remove_false"
   ],
   "note": "All sequences of allocations and passes. Violations: five kinds of blocks are never freed; remove_parse_node by itself leaves a dangling current_node (only free_parse_tree calls it, where this is harmless)."
  },
  {
   "property": "C67",
   "status": "partial",
   "theorems": [
    "Verif.Memory.C67_exact_partial",
    "Verif.Memory.C67_free_moved_false",
    "Verif.Memory.C67_contents_false",
    "Verif.Memory.C67_kept_false"
   ],
   "note": "All sequences in which realloc does not move a block; addresses are those a C library may return, dictionary entries lie outside the blocks of the program. When a block moves the claim is false for every address (witnesses for errors, count and contents)."
  },
  {
   "property": "C68",
   "status": "partial",
   "theorems": [
    "Verif.C68_accepted_partial",
    "Verif.C68_text_partial",
    "Verif.C68_local_false",
    "Verif.C68_division_false",
    "Verif.C68_below_false"
   ],
   "note": "All programs whose lines are assignments, labels (alone or beside a statement), instructions, data, fills and binary files, each global name defined once; a name is used below its line, or on it or before it in bytes, words and operands of instructions whose size does not depend on the value; from statements and from characters. Missing: other uses before the definition (with logical operators, in divisions by other than a number, in fills, where the short form would be chosen, in branches that are too far), local and anonymous labels, sections, macros and blocks. Violations: a local label used on the line of a global label; a division by a loop variable or by a name defined below."
  }
 ]
}