# Design

Subject: the Pasm 6502/65C02 assembler (`/repo/CMakePasm/source`, plus `/repo/CMakePasm/eolconvert`).
The code is read as text only; nothing of it is compiled or executed here.

## 1. Approach

* The C++ is modelled function by function as total, computable Lean 4 functions.  Every definition
  carries a comment with the file and the lines it models and lists what is simplified.
* Model files (`Verif/Model/*`) follow the source files.  Specifications (`Verif/Spec/*`) are written
  without model helpers: an instruction-length decoder, a small 6502 interpreter, a LIFO list, a
  finite map, arithmetic on `Int`, and so on.  Helper lemmas are in `Verif/Lemmas/*`, the property
  theorems in `Verif/Props/*`.
* Undefined behaviour of C++ (signed overflow, bad shifts, dereferencing null/dangling pointers,
  out-of-bounds indices, failed `assert`, use after free) is a separate outcome `ub`.  `exit()` is a
  separate outcome `exit`.  The recursive interpreter takes fuel; running out of it is a third
  separate outcome (`timeout`) which never satisfies a theorem's conclusion by accident: theorems are
  stated for `ok` outcomes, and termination is stated as "there is a fuel value for which the outcome
  is not `timeout`".
* C `int`: expression arithmetic is 32-bit two's complement with overflow = UB (`Verif/Model/CInt`).
  Bookkeeping counters (location counter, bytes written, error count) are unbounded `Int`.

### Interpreter core

`expand_node` and its ~45 handlers are modelled over an explicit state `St` containing all the global
variables, a heap of parse nodes (pointers are indices; nodes are mutated in place as in the C++, and
all nodes of a pass become dangling when the pass ends), and the symbol table (append-only list of
symbols, pointers are indices, lookup finds the most recent entry whose full name matches up to case).
Handlers take the recursive call as a parameter and `expandNode` ties the knot with fuel.
The parser is modelled from its semantic actions: a source program is a list of statements (the
result of the bison grammar), and the model performs the actions in the order bison reduces.

## 2. Trusted base

* The Lean 4.33 kernel.  Theorems use at most the axioms `propext`, `Classical.choice`, `Quot.sound`.
* The reading of the C++ by which the model was written (nothing mechanical connects model and code).
* The table-driven matching code flex generates and bison's LALR tables are not modelled; the patterns of pasm.l are,
  with flex's documented choice of rule (longest match, first rule), and so are the grammar rules of pasm.y, as a parser that takes the decisions the rules leave (C52, C54).
  In `Model/Text` a syntax error is noticed at the end of the file, not at the offending token; the assembly fails in either case.
* Not modelled: memory exhaustion (`MALLOC` returning null); I/O errors of
  `fwrite`; `print_node` (debug dump);
  `changed_sym_stack` (only used for a console message); `-v`/log output.
* Locale: `tolower`, `toupper`, `isprint` are the C-locale ASCII functions.
* Evaluation order: where C++ leaves the order of `expand_node(a) op expand_node(b)` unspecified the
  model evaluates left to right.
* Symbol dictionary in the interpreter is the abstract map, not the hash table; the hash table is
  modelled and related to a map separately (C19, C20).  The stale-pointer effect of dictionary growth
  (values are copied, old pointers kept in parse nodes) is therefore not visible in the interpreter.

## 3. Per property: what is modelled and how it is proved

| id | model | proof |
|----|-------|-------|
| C01 | `get_op_code`, both tables as data | case split on bounds, `decide +kernel` over the whole tables |
| C02 | same | `decide +kernel` over all pairs; counterexample for 65C02 with undocumented rows |
| C03 | same | decide over table for 6502; negation witness for 65C02 |
| C04 | same + `get_op_code_byte_count`; spec: length decoder from the opcode byte's bit fields | decide over whole table; negation witnesses for 65C02 `(zp)` and BBR/BBS |
| C05 | `write_byte`, `write_word` | algebra over `Int`/`BitVec 32` |
| C06 | `write_data_node` | case analysis, unbounded in the value |
| C07 | branch part of `write_opcode_node` | algebra; negation witness for +128; `_partial` for -127..127 |
| C08 | long-branch part of `expand_op_code_node`; spec: flags-only 6502 stepper | all invertible branches, all flags; negation for bvc/bvs/bra |
| C09 | same, two expansions of one node | negation by running the model on a macro called twice; `_partial`: any number of expansions of one in-range branch node, induction |
| C10 | `opcode_node` + `expand_op_code_node` | case analysis over modes; negation for > 16 bits |
| C11 | `expand_op_code_node`, expression list, `generate_output` | symbolic execution per statement kind |
| C12 | same, sequences of statements and blocks | induction over the program with the invariant pc = origin + bytes; blocks by C50; `C12_accepted_partial`, for whole assemblies: in the last resolving pass a label or assignment that disagrees with the symbol table raises the change or error counter, which never decreases, so acceptance implies `Spec.Layout`, and the forward theorem applies to the final pass; several input files behave as one with all their statements as long as no error is counted (`files_flatten`, Lemmas/Files), the lines before `.org` or `*=` (empty lines, settings, assignments) are run first (Lemmas/Head); lines include branches out of range (`Spec.Far`, from C08) and `.inc` (`Spec.Opens`) |
| C13 | `write_header`, `generate_output` | invariant by induction over emitted statements; for programs that start with `.org e` the effects of the rest (`keepsOrigin`, `OrgDone`: a second `.org` node has no effect) leave the origin alone, so the header is the value of `e` (`C13_org_partial`, `C13_assemble_partial`); programs with `*=` are missing; code before `.org` gets the origin of the pass before (`C13_stale_false`) |
| C14 | `.ds` + `generate_output` | negation witness (C64), positive theorem for plain binary |
| C15 | `.fill` loop | induction on the count; negation witnesses |
| C16 | `.load` loop | induction on file length |
| C17 | whole interpreter | effect relation `Step`; induction on fuel |
| C18 | `hash_function`, `stricmp` | induction on strings |
| C19, C20 | `dictionary.cc` | refinement to an association list, induction over operation histories; negation witness for duplicates + growth |
| C21 | `stacks.cc` | refinement to lists |
| C22 | `set_symbol_value` | case analysis |
| C23 | `look_up_symbol`, `add_symbol`, `expand_operator_equ_node` | over arbitrary symbol tables; `C23_assign` for an assignment statement in a section |
| C24 | section handlers | induction on nesting; negation witness for dotted names |
| C25 | plus/minus tables | list lemmas on sorted tables; negation witness |
| C26 | whole interpreter | effect relation `Step` |
| C27, C28, C29 | `assemble` driver over an arbitrary pass function, then instantiated with the interpreter | induction on passes; negation witness by running the model |
| C30 | whole interpreter and all parser actions, all programs | a typing of the node heap (`Lemmas/Heap`: every node is a name, an expression, an instruction, a statement, an argument list or a `.var` list, and children have fitting types) that the parser establishes and the interpreter keeps; under it the elements of `.var` lists are the only symbols reset without being counted |
| C31 | macro call handler, parameter stack, whole interpreter as body | every function of the interpreter leaves the parameter stack balanced unless it reports an error (`Bal`, structural induction with fuel); restore lemma; negation witness |
| C32 | macro call handler, argument list from the tree to the symbol table | symbolic execution, induction on the argument list; negation witness |
| C33, C34 | loop handlers, and whole statements through C50 | induction on iteration count/remaining address space; divergence for all fuel |
| C35 | `expand_operator_for_reg_node` with the instructions it builds and its short and long way back; spec: 6502 stepper, list of the register values at the start of the body (`Spec/RegLoop`) | assembly of the loop by running the handler symbolically, execution by induction on the remaining rounds; negation witnesses for `to 255` and `downto 0` |
| C36 | `sanitize_string`, `string_node` | induction on the string; the emitted bytes of a quoted text |
| C37 | `IF_DEF` machine; on characters: the rules of the start condition `IF_DEF` (`Spec.Source` has the conditional blocks) | induction on block structure; negation witnesses; on characters see C53, for passes see `C55_pass` |
| C38 | `-d` argument decoding | per notation; negation witness |
| C39 | `replace_eol` | induction on the byte list |
| C40 | expression handlers | structural induction on expressions |
| C41 | `generate_list_node` (the whole text of the rows, addresses and bytes in fixed columns), instructions, data, `.fill` and `.load` | symbolic execution; induction on the text, the item list, the count and the file; witness for the pad byte |
| C42 | whole interpreter | direct from `expand_node` |
| C43 | `open_file` | induction on the search path |
| C44 | whole interpreter | two negations by running the model; `_partial` (all programs): the heap typing of C30 for the part of the pass after any line boundary |
| C45 | `.var` with any list of declarations, from parsing to the symbol table | symbolic execution over the frame of the symbol table (`addSymbol_new`, `look_old`); lists by induction over the nested list nodes, with trees carried from one table to the next (`Carry`), against the same declarations as separate statements; two negation witnesses |
| C46 | `strtol` part of the lexer actions | induction on digits |
| C47 | `opcode_node`/`expand_op_code_node`, branches in both forms | symbolic execution of the statement in two states |
| C49 | opcode tables; spec: decoder from the documented bit fields | decide over whole tables, both directions; witness for the 65C02 |
| C50 | parser actions and handlers of conditionals, loops, assignments, `.var`; spec: big-step relation `Spec.Runs` | building the tree (`parses_build`) and expanding it (`runs_expand`) by induction on the statement and on the derivation, with the trees in the heap kept up to resolved symbols |
| C51 | `parse_arguments` (every option, `-d` through the symbol functions); spec: `Spec.CmdLine`, command lines as lists of arguments and how they are written | induction over the words in both directions; the accumulated settings against `Spec.given` by induction from the right; definitions as updates of a finite map |
| C52 | the grammar rules of `expr` and `subexpr` as the shift and reduce decisions of the precedence declarations; spec: `Spec.WrittenAs`, how expressions are written | completeness by induction on the writing with the pending frames as invariant; soundness by induction on the tokens with the tokens behind the stack as invariant |
| C53 | all patterns and actions of pasm.l: derivatives of regular expressions, longest match, the scanner state (`last_token`, `do_count`, `in_macro_definition`, `ifdef_stack`, start condition, `yylineno`); spec: `Spec.Matches`, `Spec.Chosen`, and the written lexical grammar `Spec.Source` | derivatives sound and complete for `Matches`; longest match by induction; which rule wins: fixed words by running the derivatives of the whole rule table (decided once per word, letter case by invariance under folding), classes by induction; the whole text by induction on `Source` |
| C54 | the grammar rules of `program`, `stmt` and below as a parser that decides by the next token (`Model/Statements`); spec: `Spec.LineText`, `Spec.StmtText`, `Spec.ProgText`, how statements, blocks and programs are written | completeness by induction on the writing, with fuel bounded by the number of tokens; soundness by induction on the fuel of the five mutually recursive parsers; unambiguity follows from both |
| C55 | scanner, parser and interpreter taking turns, `parse_pass` and `assemble` on texts (`Model/Text`); spec: `Spec.FileText` (a `Spec.Source` whose tokens are the tokens of the statements) | the scanner's run over a written text is the same for all symbol tables without macro names; macro names never appear when no `.macro` is executed (effect framework, `Lemmas/NoMacro`); each pass agrees with the pass on statements, and agreement of passes lifts to whole assemblies (`Lemmas/Simulate`) |
| C56 | `expand_macro_expansion_node`, `expand_macro_id_node`, the macro dictionary and the naming of local symbols | the counters never decrease (effect framework, `DictLe`); hexadecimal numbers and call labels are injective up to letter case; that no expansion changes the label of local names is proved for every handler of the interpreter (`Lemmas/LastLabel`) |
| C57 | `generate_list_file`, `get_file_line`, `read_file_lines` (Model/ListFile) over a table of entries and the characters of the source files | the cache of files with its `displayed` marks is described by a function of file and line (`cacheOf`, `Shown`); rows by induction over the table; `C57_in_order` computes the whole text for a table in line order; `C57_print_statement`: a `.print on` or `.print off` statement adds, in the final pass, the entries of the written table |
| C58 | `macro_expand_node`, `expand_operator_macro_definition_node`, `expand_macro_id_node`, `expand_macro_expansion_node`, the parameter stack; spec: `Spec.Runs.call` (a call binds the parameters and runs the text) and `Spec.MacroSource` (programs with definitions) | one relation between heap and program text for all macros defined so far (`Calls`, `MacroAt`); calls by induction on the derivation of `Runs`, so any nesting; `C58_text` by induction on the derivation, replacing names by numbers (`runs_subst`) |
| C59 | `expand_operator_print_node`, `expand_operator_print_all_node` and the printing branch of `expand_operator_expression_list_node`; spec: `Spec.shownItems` | induction over the list of items; numbers by the injectivity of the digits |
| C60 | `generate_list_node`, `add_list` (the last column), the scanner and the parser of C52/C55; spec: `Spec.FileText`, `ReadsBack` | the column is a `FileText` of one statement (C55 gives what it is read as); the statement is run in an arbitrary state by the lemmas of C07, C08, C11; induction over the rows of data; three witnesses; `C60_printable`: rows consist of printable characters; `C60_source` (`Spec.listingText`: `.org` and the last columns of all rows as one file, through scanner, parser and two passes) and `C60_program_partial` (the listing of a program of C12 is a source file with the same output file): every statement is laid out with its rows (`Rowed` beside `Built`), the rows of a statement read back, concatenation of rows by induction over the program; fills and binary files give rows of data, included files empty rows; not covered: blocks |
| C61 | `open_include_file`, `expand_operator_include_node`, `<<EOF>>` of pasm.l (`readSrc`, `runSrc`, `assembleSrc`: the scanner with its stack of suspended files); spec: `Spec.SrcText` (statements of included files behind the `.inc` line) | the text from any place on behaves as a continuation (`Behaves`); induction on the text, the continuation of an included file is the rest of the including one; statements leave the files alone and the expansion going (`SrcInv`, from the steps of C20); then the agreement of passes as in C55; `C61_image_partial` composes this with `C12_accepted_partial`; four witnesses |
| C62 | `dump_symbols`, `dump_unresolved_symbols`, `dump_changed_symbols`, `symbol_compare`, `qsort` (any function that permutes and sorts; overflow of the comparison is a distinct outcome); spec: `Spec.readSymbols` (words in turn), `Spec.listed` | the text of each cell is read back; induction over the cells with the column as state gives the whole text and its lines; one witness |
| C63 | `yymessage`, `yyerror`, `error`, `warn`, `error2`, the table of texts, `fgets`/`feof`/`fseek` on a file with position and end-of-file flag; spec: `Spec.edLines`, `Spec.linesBetween`, `Spec.message` | invariant of the read position (`AtLine`: at the beginning of line j + 1 or at the end) through both loops; the table by `decide`; two witnesses |
| C64 | `main`, with `parse_arguments`, `open_file`, `assemble`, `parse_pass` of the other models; the disk is a list of paths with contents, emptied when a file is opened for writing; spec: `Spec.CmdLine`, `Spec.SourcesText`, `Spec.Draft`/`Layout` | what is visible through the search path is a finite list (names are ends of paths); the passes of `main` agree with those on texts as long as the list of files is kept (`TPr` of the scanner loop); settings are kept by programs without settings (`Pr.runTop`); then composition of C51, C43, C61 and C12; one witness |
| C65 | the tables of `init_expander` and their dictionaries with pointer keys (Model/PtrDict, Model/Dispatch; the hash function is a parameter), `hash_pointer_function` with its shifts, the copies of `create_op_table_dictionary`; spec: the case distinction `expandKind` of the interpreter model | the dictionary with pointer keys is a finite map as in C22, growth included; then case by case over node types and operators; induction on the fuel for whole trees; the two violations hold for every key and every table |
| C66 | `allocate_node`, `remove_parse_node`, `free_parse_node`, `free_parse_tree` on a doubly linked list of cells with a log of freed blocks; access to a freed cell is undefined (Model/NodeList) | invariant `Chain`: the cells from k on are live and linked in order, all before k are freed; induction over allocations, over the freeing loop and over the passes |
| C67 | `pasm_malloc`, `pasm_realloc`, `pasm_free` over the dictionary with pointer keys (Model/Memory); the blocks of the C library with their contents, addresses are arguments, `size_t` wraps; spec: `Spec.Heap` (blocks in use with contents) | invariant: every block has its entry with its size, a block is in use exactly if its entry was not deleted; dictionaries with at most one record per key under insertion (with growth), assignment and deletion (Lemmas/Memory); induction over the calls; violations for all addresses |
| C68 | the whole assembler, from statements (`assembleProg`) and from characters (`assembleText`); spec: `Spec.Straight`, an assembly without passes that keeps a table of names (Spec/Straight) | invariant of the first pass: the symbol table is the table of names so far, all symbols settled (`Holds`, `Settled`, Lemmas/Straight); a new name by assignment or label extends both; a statement all of whose names are known is built and expanded as in C12; the second pass finds every name with its final value, so the program is laid out as in C12 and nothing changes; two or three passes.  a label beside a statement is entered between building and expanding it, which the lemmas of C12 allow (`Built`: any longer symbol table in which the names of the statement mean the same).  a name not yet defined may stand in the operand of an instruction whose size does not depend on its value, and in bytes and words: the first pass enters it as an uninitialised symbol, which counts as 0 in the expression (`open_eval`, Lemmas/Open), and keeps the longest form (`openMode`, Lemmas/Forward) or the size of the data (`dataNode_open`, Lemmas/OpenData); its definition then fills the same slot (`Partly`: the symbol table between the names so far and all names), and the second pass finds the value; the label on the line of the instruction itself gets its value between building and expanding (`open_effective`).  Missing: other uses before the definition (with logical operators, in divisions by other than a number, in fills, where the short form would be chosen, in branches that are too far); three programs that are rejected |
| C48 | `unresolved_symbol_count` + driver | list reasoning |

## 4. Findings (places where the code does not do what users rely on)

Numbered for reference; each is (to be) backed by a theorem with a concrete witness.

1. Branch range check is -127..128 instead of -128..127 (`genoutput.cc:227`, `expand.cc:922`,
   `node.cc:1754`): displacement +128 is emitted as $80 = -128 (`C07_false_128`).
2. Long-branch rewriting does not invert `bvc`, `bvs`, `bra` (`expand.cc:925-953`), so the rewritten
   code does the opposite.  The instruction field (and, in the final pass, the operand) of the node
   is overwritten and not restored, so a second expansion of the same statement is wrong
   (`C08_false_overflow`, `C08_false_bra`, `C09_false`).
3. Growing a dictionary reverses its chains: duplicates are afterwards found oldest first
   (`C20_false_after_growth`).
4. `generate_list_node` uses its buffer after freeing it for data items with a non-zero high byte and
   item size below 2 (`node.cc:1684-1689`): `.byte 300` and every `.str $1234` run into undefined
   behaviour.
5. Errors of the final pass do not change the exit status (`pass.cc:251-302`).  A program that becomes
   stable exactly in pass 19 is rejected with "maximum number of passes exceeded" (`C29_false_driver`,
   `C27_pass19_rejected`).
6. C64 header bytes are counted as program bytes (`genoutput.cc:277`): after `.ds 1` or `.ds 2` later
   bytes land at the wrong offset without an error.  `.fill` as the first output of a C64 image emits
   two bytes too few (`C14_false_c64`, `C15_false_c64`).  Without `.org`, instructions emit nothing at all, and data exits.
7. `.fill v,0` advances the location counter by 1 in all passes but the last (`C15_false_zero`).
8. Operands above 16 bits are truncated silently (`lda #$12345`, `lda $12345`; `C10_false_large`).
9. 65C02: `(zp)` operands are emitted as three bytes, BBRn/BBSn as two; undocumented 6502 opcodes are
   accepted in 65C02 mode without -i.
10. `.for .regx = a to 255` never runs the body for 255 (`C35_to255_false`); `downto 0` branches on a stale carry
    (`C35_downto0_false`).
11. `.for` with step 0, or counting past 0 or 65535 with an ordinary symbol, does not terminate when
    the body emits nothing.
12. `find_plus_symbol` bounds check uses `||`; `+++` can read past the table (`C25_past_end_false`).
13. `sanitize_string` runs past the terminator on a trailing backslash; octal escapes accepted by the
    lexer are errors.
14. `.section a.b` is not undone by one `.ends` (`C24_dotted_false`).
15. `-d sym 100` defines 0 (`C38_false_decimal`).
16. A skipped `.ifdef` nested in an active one swallows the remainder of the outer block (`C37_false_nested`).
17. Macro arguments are assigned one after the other (`m \2,\1` does not swap; `C32_swap_false`).
18. `.var x = y` turns `y` into a variable with value 0 (`C45_symbol_false`).
19. Forward `+` references are not part of the convergence test; code can be emitted with stale targets
    (`C44_plus_false`).
20. `A = 5` exits with "Out of memory" (`add_symbol` returns null for the name `A`).
21. A macro used before its definition in a later pass dereferences freed parse nodes.
22. `hash_pointer` shifts by a negative/too large amount; `pasm_free` removes the wrong key (`C65_hash_false`, `C67_kept_false`).
23. `eolconvert` treats a lone CR like CR LF.
24. `x = 5` inside a section does not create `sec.x` when a global `x` already has the value 5
    (`C23_equal_false`).
25. `.for` over an ordinary symbol changes its value in every pass, so such a program never becomes stable.
26. Include-path entries without a trailing separator are concatenated with the file name; `\x00` ends a string.
27. A macro with arguments that is first called inside a section stores its parameter under `sec.\1`; the
    next macro call does not find `\1` and exits.
28. A branch mnemonic without operand is accepted; the final pass reads a missing operand.
29. The macro table copies 8 bytes out of a 4-byte allocation; the first caller gets an orphan counter.
30. An unterminated false `.ifdef` carries over to the next file and the next pass.
31. The character literal `'\'` yields 39.
32. The listing of `.word "abc"` (odd length, multiple of three) repeats the first line for the pad byte (`C41_false_pad`).
33. `.byte 1 || foo`: the short-circuited right operand is never resolved, so `has_uninitialized_symbol`
    stays true and the item is silently not emitted although the location counter advances (`C11_false_short_circuit`).
34. `.str` with values -65534..-65281 writes two bytes but advances the location counter by one
    (`C11_false_negative_str`).
35. After `.end` the lexer still marks an existing symbol as macro name when it meets `.macro foo` (`C42_flag_false`).
36. `origin` is not reset between passes, so emission before `.org` writes a C64 header with the origin of
    the previous pass (`C13_stale_false`).  The gap between the code before `.org` and its address is not filled: the output file
    has the bytes of both one after the other.
37. A rejected assignment (`x = 70000`) reports an error but still marks the symbol as defined with its old
    value (`expand.cc:1744-1745`; theorem `C22_statement_false`).
38. The operand of an instruction is looked up before the label on the same line is entered (`pasm.y:71-76`,
    `node.cc:197`), so in `foo bne @x` the local name `@x` belongs to the label before `foo`.  When the
    line is expanded it belongs to `foo`, as it should, and the right code is emitted, but the first look-up has entered the other name as an
    unresolved symbol: the program is rejected after 19 passes (`C68_local_false`).
39. The operand form of a branch is ignored: `bne #5` and `bne (x),y` are accepted (`C10_false_branch_form`).
40. The target of a long branch is evaluated again at the address of the inserted `jmp`, so `bne *+512` jumps two
    bytes too far (`C08_false_star`).
41. A branch to a local label `@x` whose value is still 0 is treated as a branch to itself
    (expand.cc:871-873); C08 excludes it.
42. Operands of instructions are evaluated once while the statement is parsed, before the enclosing loop has run
    (`node.cc:197`), so `lda #100/i` inside `.for i = 1 to 3` reports a division by zero for the value `i` had before
    (`C68_division_false`); a division by a name defined below is reported in pass 1, which ends the assembly (`C68_below_false`).
43. `.var x = e` stores 0 in `x` before `e` is evaluated, so `.var x = x+1` gives 1 (`C45_self_false`).
44. A macro parameter beyond the largest number of arguments used so far (it exists because a macro mentions it) is not saved,
    so a nested call with more arguments changes it for good (`C31_beyond_false`).
45. A reference to a `-` or `+` label that does not exist is assembled with operand 0 and no message (`C44_minus_false`);
    the number of changed symbols is not looked at after the final pass, so labels that move in the final pass leave
    stale operands behind (`C44_plus_false`).
46. `-d name value` with a value above `$FFFF` prints "Value out of range", but assembly goes on with the symbol defined
    as 0, and the error count is cleared by the first pass (`C51_false_out_of_range`).
47. The listing of `.word "ABC"` (odd length divisible by three) repeats the line of the last three characters with the
    pad byte attached (`C41_false_pad`): the column buffer is not reset after a full line (node.cc:1623-1629).
48. The operator levels differ from those of C and are not documented: `1<<2==4` is `1<<(2==4)`, `a==1 && b==2` is
    `((a==1)&&b)==2`, `not a && b` is `not (a&&b)`; `-name` is a syntax error (`C52_unlike_c`, `C52_no_minus_name`).
49. The pattern for anonymous labels is `[\+|\-]+`, so signs standing together become one symbol: `a+-1`, `a--1` and `a|-1`
    are syntax errors (`C53_signs_join`).
50. A name that follows `/* … */` at the start of a line is not a label (`C53_after_comment`), and a `+` or `-` in the first
    line of a file is not one either, because `last_token` is then not a newline.
51. The program counter alone is not an operand: `jmp *` is a syntax error, because the rule for address operands is `expr`, and
    `*` is a `subexpr`; `jmp *+0` is accepted (`C54_address_operand`).  `lda (a),x` is a syntax error (`C54_no_paren_x`), and no
    line inside `.if`, loops or macros may have a label in front of an instruction (`C54_no_label_in_block`).
52. `.while` is read as the end of a `.do` loop whenever one is open (pasm.l counts `.do`), so a `.while` loop cannot stand
    inside a `.do` loop (`C55_while_in_do`, with a program that assembles with `.repeat` and fails with `.do`).
53. A local label defined in the text of a macro is named by the label in force when the macro is *read* (`label_node`, node.cc:194-203),
    a reference to it by the label of the *call*.  As soon as any label stands before the macro, the two differ: the reference is never
    resolved, every call gives the same symbol another value, and no pass converges (`C56_definition_false`).
54. A source line of 2003 characters or more beside an entry overflows `internal_buffer` (`C57_long_line_false`); one of 2048 or more is
    read as two lines, so all later outputs stand beside wrong lines (`C57_split_line_false`).
55. The list file keeps one text for file names that differ only in case (`C57_case_false`), uses a null pointer when there is no entry
    (`C57_empty_false`), and lets the next row begin in the same line when the last source line has no line feed (`C57_last_line_false`).
56. `.ifdef` and `.ifndef` ask the symbol table, which is kept from pass to pass (pasm.l:188-220, sym.cc).  A name defined below the
    block, or inside it, is undefined in pass 1 and defined afterwards.  An include guard (`.ifndef b`, `b = 1`, code, `.endif`)
    therefore loses its code from pass 2 on: the program assembles with status 0 and the code is missing (`C37_guard_false`).
57. A section that assigns to a name the value which the global symbol of that name has already gets no symbol of its own
    (`expand_operator_equ_node`, expand.cc:1725-1747; `C23_equal_false`).  When the value differs, `C23_assign` shows that it does.
58. `.print` and `.printall` show only the last 16 bits of a number, without a message (expand.cc:1285-1296, `C59_large_false`).
59. The listing shows `jmp ($1234,x)` of the 65C02 as `jmp $1234,x` (node.cc:1832-1838, `C60_false_indirect`).
60. A backslash in a text is listed as `'\'`; as source this is the byte of a quote, without a message
    (`C60_false_backslash`).
61. A line feed in the last row of a text is written into the listing as it is and breaks the row
    (`C60_false_newline`); full rows show it as `$0A`.
62. `.inc` inside a block (`.if`, loops, macros) only marks the file as next input when the whole block is expanded: the
    included lines come after the block, of several files the last one first (expand.cc:340-346, file.cc:189-214,
    `C61_false_block`).
63. If the last line of an included file has no line feed, the next line of the including file is taken as its continuation
    (`C61_false_newline`: ` .byte 3` followed by `,4` is accepted).
64. At the end of an included file `last_token` is cleared (pasm.l:430), so a line that starts with an anonymous label
    directly behind the `.inc` line is a syntax error (`C61_false_anonymous`); an empty line between them helps.
65. A file whose name has one character cannot be included or loaded: `"a"` is scanned as a number (`C61_false_short_name`).
66. Included files are never closed (file.cc:198, pasm.l:435: `yypop_buffer_state` frees the buffer, not the file): one
    handle is lost for each `.inc` and pass.  Noted by reading, not modelled.

67. `dump_unresolved_symbols` (sym.cc:752) also lists macro parameters without argument (and names of macros not yet defined), which
    `unresolved_symbol_count` (sym.cc:801) does not count: the list under "1 unresolved symbols" shows more than one
    (`C62_unresolved_false`).

68. The context lines of messages are numbered by calls of `fgets` (error.cc:127-138): behind a line of 2047 or more characters
    all numbers are too high (`C63_message_false`).  Behind the last line feed one more number is shown, without a line.
69. The header of a message says "near line" `yylineno + 1` (error.cc:123): for every error found while a statement is expanded
    this is the line behind the statement (the line feed has been read); the context still contains it (`C63_statement_shown`).
70. `error2` with a parameter that does not fit calls `error` and then reports the old content of the buffer as a second
    error (error.cc:106-110, `C63_parameter_false`).
71. A missing include file is reported without file and line: `yyin` is already null when the message is written
    (file.cc:197-206, error.cc:119).  The case without a file of `C63_count`.
72. If the output file is one of the source files, the source is emptied before the final pass reads it; the output is empty and
    the status is 0 (pass.cc:236-244, `C64_false_source`).  With `-log` the same happens before the first pass (pass.cc:179-187).
73. `hash_pointer_function` (hash.cc:27-43) shifts an `int` by up to 56 bits: undefined for every 8-byte pointer, so at every
    node that is expanded (`C65_hash_false`; the string hash is not affected).
74. `create_op_table_dictionary` passes `sizeof(op_table)` as the data size but the address of the second member as the data:
    each row is copied from 8 bytes behind its beginning, the last one from beyond the table (`C65_overread_false`).
75. `free_parse_node` never frees names of labels, names with `@`, `+`, `-` or `.`, `str.allocated`, `macro.name`, and the operand
    array of an instruction with the operand `A` (`number_of_ops` is 0 by then): the memory grows with every pass (`C66_leak_false`).
76. `remove_parse_node` does not update `current_node`; removing the newest node and allocating another writes to freed memory
    (`C66_remove_false`).  Only `free_parse_tree` calls it, so no program is affected.
77. Debug builds: `pasm_realloc` (memory.cc:68-106) leaves the entry of a moved block under the old address.  Freeing the block
    reports error_free_unknown_pointer (the assembly fails), resizing it again yields a new block without the contents
    (the tables of anonymous labels and the stacks grow by `REALLOC`) at the second move (`C67_free_moved_false`, `C67_contents_false`).
78. Debug builds: `pasm_free` (memory.cc:109-146) calls `dict_delete` with the entry instead of the key and never calls `free`:
    no memory is given back and no entry is removed (`C67_kept_false`).

## 5. Model/code disagreements found while proving

(kept up to date)
