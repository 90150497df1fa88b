{"id": "C01", "title": "Opcode lookup is total and byte-valued", "statement": "For every integer instruction number, every integer addressing-mode number, both CPU modes and both settings of the illegal-opcode switch, the opcode lookup returns either -1 or a value in 0..255, never touches memory outside the tables, and returns -1 for every out-of-range instruction or mode number.", "quantifier": "all integers for instruction and mode (not only enumerators), both CPUs, both illegal settings", "why_tests_cant": "The instruction and mode arguments are plain ints; tests sample a few pairs and cannot cover all integers or show absence of out-of-bounds reads.", "anchors": ["CMakePasm/source/opcodes.cc:get_op_code", "CMakePasm/source/opcodes.cc:ops6502", "CMakePasm/source/opcodes.cc:ops65c02"]}
{"id": "C02", "title": "The encoding is unambiguous", "statement": "If two (instruction, addressing mode) pairs that the assembler accepts for one CPU are encoded with the same opcode byte, they are the same instruction, so the emitted byte determines the mnemonic. (Holds for the 6502, with and without illegal opcodes except for the documented SBC alias usbc and anc/anc2; for the 65C02 it holds for the documented instructions only.)", "quantifier": "all pairs of instruction/mode combinations of each CPU table", "why_tests_cant": "It is a statement about all pairs of table entries; the tests check individual entries against a literal.", "anchors": ["CMakePasm/source/opcodes.cc:get_op_code", "CMakePasm/source/opcodes.cc:ops6502", "CMakePasm/source/opcodes.cc:ops65c02"]}
{"id": "C03", "title": "Illegal opcodes need the -i switch", "statement": "When illegal opcodes are not enabled, no undocumented instruction can be encoded, whatever the CPU mode; enabling the switch never changes the encoding of a documented instruction.", "quantifier": "all undocumented instructions, all modes, both CPU modes", "why_tests_cant": "Needs the whole cross product of instruction, mode, CPU and switch, including the combination (65C02, switch off) no test exercises.", "anchors": ["CMakePasm/source/opcodes.cc:get_op_code", "CMakePasm/source/parseargs.cc:parse_arguments"]}
{"id": "C04", "title": "Instruction length agrees with the processor", "statement": "For every encodable (instruction, mode) pair the number of bytes the assembler emits (one opcode byte plus the operand bytes of the mode) equals the length the processor itself uses when it decodes that opcode byte, so that the following instruction is fetched from where the assembler placed it.", "quantifier": "all encodable pairs of each CPU", "why_tests_cant": "The processor's length decoding is an independent function of the opcode byte; tests compare only sample encodings to literals and never against a decoder.", "anchors": ["CMakePasm/source/genoutput.cc:get_op_code_byte_count", "CMakePasm/source/opcodes.cc:ops6502", "CMakePasm/source/opcodes.cc:ops65c02", "CMakePasm/source/genoutput.cc:write_opcode_node"]}
{"id": "C05", "title": "Words are emitted little-endian and losslessly modulo 65536", "statement": "Emitting a word appends exactly two bytes, low byte first, that a little-endian reader decodes back to the value modulo 65536; emitting a byte appends exactly one byte equal to the value modulo 256. Negative ints behave as two's complement.", "quantifier": "all 32-bit ints", "why_tests_cant": "Quantifies over 2^32 values.", "anchors": ["CMakePasm/source/genoutput.cc:write_byte", "CMakePasm/source/genoutput.cc:write_word"]}
{"id": "C06", "title": "Data directives emit the value or report an error", "statement": "For .byte and .word items the assembler emits exactly the one or two bytes of the value when it lies in the accepted range (-254..255 for bytes, -65534..65535 for words), and otherwise reports exactly one error and emits nothing; it never truncates a data item silently, and what was emitted reads back as the source value modulo 256 (bytes) or 65536 (words).", "quantifier": "all 32-bit values, both item sizes", "why_tests_cant": "Boundary behaviour on both the positive and negative side over the whole int range.", "anchors": ["CMakePasm/source/genoutput.cc:write_data_node", "CMakePasm/source/expand.cc:expand_data_node"]}
{"id": "C07", "title": "A relative branch that is encoded reaches its target", "statement": "Whenever a branch instruction is emitted in its two-byte form at address A for a target T, the processor, sign-extending the emitted displacement and adding it to A+2, arrives at T. (The code accepts displacements -127..128; +128 is emitted as 0x80 and lands 256 bytes too low.)", "quantifier": "all branch instructions, all addresses A, all targets T", "why_tests_cant": "Quantifies over all displacements; only a test that hits exactly +128 sees the defect.", "anchors": ["CMakePasm/source/genoutput.cc:write_opcode_node", "CMakePasm/source/expand.cc:expand_op_code_node"]}
{"id": "C08", "title": "Automatic long branches keep the meaning of the branch", "statement": "When a conditional branch is out of range and is rewritten into an inverted short branch over a jmp, executing the emitted bytes from any processor state transfers control to the original target exactly when the original condition holds and to the following instruction otherwise.", "quantifier": "all branch instructions, all flag states, all out-of-range targets", "why_tests_cant": "A statement about execution of emitted code for all flag values; tests compare bytes for a few mnemonics (bvc, bvs and bra are not inverted and therefore wrong).", "anchors": ["CMakePasm/source/expand.cc:expand_op_code_node", "CMakePasm/source/genoutput.cc:write_opcode_node"]}
{"id": "C09", "title": "Long-branch rewriting is repeatable", "statement": "Assembling the same source branch statement several times (in a macro body or a loop) produces for each expansion the code it would have produced on its own: rewriting one expansion into a long branch does not influence the next.", "quantifier": "all branch statements, all numbers of expansions", "why_tests_cant": "Needs two or more expansions of one statement with particular distances; tests expand each statement once.", "anchors": ["CMakePasm/source/expand.cc:expand_op_code_node", "CMakePasm/source/expand.cc:expand_macro_expansion_node", "CMakePasm/source/expand.cc:expand_operator_repeat_node"]}
{"id": "C10", "title": "Operand size selection preserves the operand value", "statement": "For an instruction with a resolved operand value v, the emitted operand bytes decode to v: zero-page encodings are used only for 0<=v<=255, two-byte encodings for 0<=v<=65535, and every v that does not fit the chosen encoding is reported as an error.", "quantifier": "all instructions, addressing modes and 32-bit operand values", "why_tests_cant": "All operand values and all encodings; silent truncation happens only for values above 16 bits, which tests do not use.", "anchors": ["CMakePasm/source/expand.cc:expand_op_code_node", "CMakePasm/source/node.cc:opcode_node", "CMakePasm/source/genoutput.cc:write_opcode_node"]}
{"id": "C11", "title": "The program counter advances by the number of bytes emitted", "statement": "Assembling one instruction, .byte/.word item or string in the final pass advances the location counter by exactly the number of bytes appended to the output (not counting the two-byte C64 header), whenever no error is reported.", "quantifier": "all statements of these kinds, all states of the assembler with an output file and a known origin", "why_tests_cant": "Output and location counter are maintained by separate code; equality must hold for every operand, mode, item size and string length.", "anchors": ["CMakePasm/source/expand.cc:expand_op_code_node", "CMakePasm/source/expand.cc:expand_operator_expression_list_node", "CMakePasm/source/genoutput.cc:generate_output"]}
{"id": "C12", "title": "The image is laid out by address", "statement": "In a program whose bytes all come from instructions, data items, strings and fills following a single .org, the byte assembled for address A is found in the output at offset A - origin (plus 2 in C64 format), after every statement and for every program of this form.", "quantifier": "all programs built from these statements, of any length", "why_tests_cant": "An invariant over unboundedly long programs.", "anchors": ["CMakePasm/source/genoutput.cc:generate_output", "CMakePasm/source/expand.cc:expand_node"]}
{"id": "C13", "title": "C64 output starts with the load address, once", "statement": "In C64 format the first two bytes of the output are the address of the first byte behind them, in little-endian order, and no other header bytes are ever written; in plain binary format no header is written. (Violated when something is emitted before .org: the header then is the origin left over from the pass before.)", "quantifier": "all sequences of emitted statements", "why_tests_cant": "Must hold for whatever the first emitting statement is and for any number of later ones.", "anchors": ["CMakePasm/source/genoutput.cc:write_header", "CMakePasm/source/genoutput.cc:generate_output"]}
{"id": "C14", "title": "Reserved space cannot shift later code", "statement": "If space is reserved with .ds between two emitted items, the assembler either keeps the image consistent with the addresses or stops with an error. (False in C64 format: gaps of one or two bytes pass the check unnoticed because header bytes are counted as program bytes.)", "quantifier": "all gap sizes, both output formats, all positions", "why_tests_cant": "Only gaps of one or two bytes in one of the formats fail.", "anchors": ["CMakePasm/source/genoutput.cc:generate_output", "CMakePasm/source/expand.cc:expand_operator_ds_node"]}
{"id": "C15", "title": ".fill emits the requested number of bytes", "statement": ".fill v,n in the final pass appends exactly n bytes each equal to v modulo 256 and advances the location counter by n; in the other passes it advances the location counter by the same n. (False for n = 0, and in C64 format when .fill is the first emitting statement.)", "quantifier": "all fill values, all counts, both formats, header written or not", "why_tests_cant": "The count loop consumes two bytes at a time and uses the emitted byte count including a possible header; needs induction over n.", "anchors": ["CMakePasm/source/expand.cc:expand_operator_fill_node", "CMakePasm/source/genoutput.cc:generate_output"]}
{"id": "C16", "title": ".load copies the file verbatim", "statement": "Loading a binary file in the final pass appends exactly the bytes of the file, in order, to the output and advances the location counter by the file length; in other passes the location counter advances by the same amount.", "quantifier": "all file contents of any length (even and odd)", "why_tests_cant": "Induction over the file length with a two-bytes-at-a-time loop and a stale position variable.", "anchors": ["CMakePasm/source/expand.cc:expand_operator_load_node", "CMakePasm/source/genoutput.cc:generate_output"]}
{"id": "C17", "title": "Only the final pass writes output", "statement": "Before the final pass no statement, macro, loop or directive whatsoever appends a byte to the output, writes a header or changes the count of bytes written.", "quantifier": "all syntax trees and all assembler states with the final-pass flag off", "why_tests_cant": "Quantifies over every program.", "anchors": ["CMakePasm/source/expand.cc:expand_node", "CMakePasm/source/genoutput.cc:generate_output", "CMakePasm/source/pass.cc:assemble"]}
{"id": "C18", "title": "Symbol names are case-insensitive, consistently", "statement": "Two names equal up to letter case have the same hash and compare equal, so a symbol can be found under every capitalisation; the comparison is an equivalence relation and coincides with equality of lower-cased names.", "quantifier": "all pairs of strings", "why_tests_cant": "All strings; hash mixes per-position case folding.", "anchors": ["CMakePasm/source/hash.cc:hash_function", "CMakePasm/source/memory.cc:stricmp"]}
{"id": "C19", "title": "The dictionary is a faithful finite map", "statement": "After any sequence of insertions of pairwise different keys, deletions and searches, searching a key returns the value inserted under it if it is present and null otherwise, independently of growth and collisions; the element count equals the number of stored keys.", "quantifier": "all operation sequences (any length, so any number of table growths), all keys up to case", "why_tests_cant": "Unbounded operation histories and table growth.", "anchors": ["CMakePasm/source/dictionary.cc:dict_insert", "CMakePasm/source/dictionary.cc:dict_search", "CMakePasm/source/dictionary.cc:dict_delete", "CMakePasm/source/dictionary.cc:grow"]}
{"id": "C20", "title": "Search returns the most recently inserted value", "statement": "As documented, searching returns the most recently inserted value for a key even when the same key was inserted several times, and deleting removes the most recent one. (False after the table grows: growing reverses each chain.)", "quantifier": "all insertion histories with repeated keys", "why_tests_cant": "Visible only when a growth happens between or after duplicate insertions (922 elements or more).", "anchors": ["CMakePasm/source/dictionary.cc:dict_insert", "CMakePasm/source/dictionary.cc:dict_search", "CMakePasm/source/dictionary.cc:grow"]}
{"id": "C21", "title": "Stacks are last-in first-out", "statement": "For every sequence of push, pop, top, index and clear operations the stack behaves like a list with LIFO discipline, independent of the capacity growth; pop and top on an empty stack are the only undefined uses.", "quantifier": "all operation sequences", "why_tests_cant": "Unbounded histories across capacity growth.", "anchors": ["CMakePasm/source/stacks.cc:push", "CMakePasm/source/stacks.cc:pop", "CMakePasm/source/stacks.cc:top", "CMakePasm/source/stacks.cc:item_at"]}
{"id": "C22", "title": "Out-of-range symbol values are rejected without side effects", "statement": "Assigning a value outside 0..65535 to a symbol that is not a .var reports one error and leaves the symbol unchanged; any other assignment stores exactly the value and marks the symbol defined; the change counter driving further passes is incremented exactly when the stored value of an ordinary symbol changes.", "quantifier": "all symbols, all 32-bit values", "why_tests_cant": "All value/flag combinations.", "anchors": ["CMakePasm/source/sym.cc:set_symbol_value"]}
{"id": "C23", "title": "Local scope shadows global scope", "statement": "Looking a name up inside a section finds the section's own symbol when there is one, else the unqualified symbol; symbols of other sections are never found by their unqualified name.", "quantifier": "all symbol tables, section paths and names", "why_tests_cant": "Quantifies over symbol table contents.", "anchors": ["CMakePasm/source/sym.cc:look_up_symbol", "CMakePasm/source/sym.cc:add_symbol"]}
{"id": "C24", "title": ".section/.ends nest properly", "statement": "For section names without a dot, entering sections and leaving them again in any well-nested sequence restores the previous section path; leaving with no open section reports an error. (False for names that contain a dot.)", "quantifier": "all well-nested sequences of sections", "why_tests_cant": "Arbitrary nesting depth and names.", "anchors": ["CMakePasm/source/expand.cc:expand_operator_section_node", "CMakePasm/source/expand.cc:expand_operator_end_section_node"]}
{"id": "C25", "title": "Anonymous labels resolve to the nearest ones", "statement": "In one source file, '-' repeated n times refers to the n-th closest '-' label at or before the current line and '+' repeated n times to the n-th closest '+' label after it; if there are fewer than n of them the reference is reported as unresolved. (The last part fails: references past the end read outside the table or land in another file.)", "quantifier": "all label tables (sorted by file and line), all files, lines and depths", "why_tests_cant": "All table contents and depths.", "anchors": ["CMakePasm/source/sym.cc:find_minus_symbol", "CMakePasm/source/sym.cc:find_plus_symbol", "CMakePasm/source/sym.cc:add_minus_symbol", "CMakePasm/source/sym.cc:add_plus_symbol"]}
{"id": "C26", "title": "Symbols are never lost and never become undefined", "statement": "During assembly of any program, once a symbol exists it stays in the symbol table under the same name and once it is defined it stays defined; the error count never decreases.", "quantifier": "all programs, all states", "why_tests_cant": "A monotonicity invariant over arbitrary programs.", "anchors": ["CMakePasm/source/expand.cc:expand_node", "CMakePasm/source/sym.cc:add_symbol", "CMakePasm/source/sym.cc:set_symbol_value"]}
{"id": "C27", "title": "The number of passes is bounded", "statement": "For every program whose individual passes terminate, assembling performs at most 19 resolving passes and at most one final pass and then returns.", "quantifier": "all pass behaviours (arbitrary parse functions)", "why_tests_cant": "Quantifies over all behaviours of a pass.", "anchors": ["CMakePasm/source/pass.cc:assemble", "CMakePasm/source/pass.cc:parse_pass"]}
{"id": "C28", "title": "Output only from a clean pass", "statement": "The final (output producing) pass runs only if the immediately preceding pass had no error, changed no symbol value and left no symbol unresolved; otherwise the assembler returns failure and never opens the output file.", "quantifier": "all pass behaviours", "why_tests_cant": "Quantifies over all behaviours of a pass.", "anchors": ["CMakePasm/source/pass.cc:assemble"]}
{"id": "C29", "title": "Success status means no errors", "statement": "When the assembler reports success (status 0) no error was reported in the final pass and the image is complete. (False: errors raised only in the final pass, such as .byte 300, leave status 0.)", "quantifier": "all programs", "why_tests_cant": "Concerns the combination of every error source with the driver's exit paths.", "anchors": ["CMakePasm/source/pass.cc:assemble", "CMakePasm/source/genoutput.cc:write_data_node"]}
{"id": "C30", "title": "A clean pass is a fixed point", "statement": "If a whole pass over any program ends with the change counter at zero, then every ordinary symbol (not a .var, macro parameter, macro name or anonymous label) that existed when the pass began has the value it had when the pass began; so the final pass starts from exactly the label values the last pass computed.", "quantifier": "all programs", "why_tests_cant": "Invariant over arbitrary programs, macros and loops.", "anchors": ["CMakePasm/source/pass.cc:assemble", "CMakePasm/source/sym.cc:set_symbol_value", "CMakePasm/source/expand.cc:expand_operator_equ_node"]}
{"id": "C31", "title": "Macro calls restore the caller's arguments", "statement": "After a macro call returns normally, every macro parameter that existed at the time of the call has again the value it had before, whatever the called macro does (including nested calls).", "quantifier": "all parameter tables, all macro bodies", "why_tests_cant": "Arbitrary nesting and bodies.", "anchors": ["CMakePasm/source/sym.cc:push_macro_params", "CMakePasm/source/sym.cc:pop_macro_params", "CMakePasm/source/expand.cc:expand_macro_expansion_node"]}
{"id": "C32", "title": "Macro arguments are bound simultaneously", "statement": "On a macro call each parameter \\k receives the value its argument expression has at the point of the call. (False: arguments are stored one at a time, so a call like 'inner \\2,\\1' passes the second argument twice.)", "quantifier": "all argument lists", "why_tests_cant": "Only argument lists that mention parameters already overwritten reveal it.", "anchors": ["CMakePasm/source/expand.cc:expand_operator_expression_list_node", "CMakePasm/source/expand.cc:expand_macro_expansion_node"]}
{"id": "C33", "title": ".for runs its body the expected number of times", "statement": "A '.for v = a to b step s' loop with s > 0 whose body does not assign v runs its body exactly max(0, (b-a)/s + 1) times with v = a, a+s, ... and stops; symmetrically for downto, provided values stay in the symbol range.", "quantifier": "all bounds and steps", "why_tests_cant": "All bounds and steps, by induction.", "anchors": ["CMakePasm/source/expand.cc:expand_operator_for_node"]}
{"id": "C34", "title": "Loops that emit code always stop", "statement": "Every .while/.repeat/.do/.for loop whose body advances the location counter in each iteration terminates, at the latest when the location counter exceeds $FFFF, with an infinite-loop error; loops whose body does not advance it may run forever.", "quantifier": "all loop kinds, conditions and bodies", "why_tests_cant": "Termination is not testable.", "anchors": ["CMakePasm/source/expand.cc:expand_operator_while_node", "CMakePasm/source/expand.cc:expand_operator_repeat_node", "CMakePasm/source/expand.cc:expand_operator_do_node", "CMakePasm/source/expand.cc:expand_operator_for_node"]}
{"id": "C35", "title": "Register loops execute their body for exactly the stated values", "statement": "For '.for .regx = a to b' (and .regy, and downto) with a body that preserves the index register, executing the emitted 6502 code runs the body exactly for the register values a, a+1, ..., b (resp. downwards) and then falls through. (False for 'to 255', which never runs the body for 255, and for 'downto 0', where the loop depends on a stale carry flag.)", "quantifier": "all 8-bit bounds, all bodies preserving the register", "why_tests_cant": "A statement about execution of the emitted code.", "anchors": ["CMakePasm/source/expand.cc:expand_operator_for_reg_node"]}
{"id": "C36", "title": "String escapes are decoded in place and safely", "statement": "Decoding a quoted string never produces more characters than it reads, leaves strings without backslash unchanged, maps the documented escapes (\\n, \\t, \\\\, \\\", \\xHH ...) to their characters, and never reads past the terminator for strings the lexer can deliver. (For a text ending in a lone backslash or \\x it does read past the terminator.)", "quantifier": "all byte strings", "why_tests_cant": "All strings, memory safety at the end of the buffer.", "anchors": ["CMakePasm/source/str.cc:sanitize_string"]}
{"id": "C37", "title": "Conditional assembly selects the right lines", "statement": "For properly nested .ifdef/.ifndef/.else/.endif blocks the lines delivered to the parser are exactly those whose enclosing conditions all hold. (False: after an inner block that was skipped ends inside an active outer block, the rest of the outer block is skipped too; and a name the program defines only later counts as undefined in the first pass and as defined in the others.)", "quantifier": "all nestings and truth values", "why_tests_cant": "Arbitrary nesting depth.", "anchors": ["CMakePasm/source/pasm.l:IF_DEF"]}
{"id": "C38", "title": "-d defines a symbol with the given value", "statement": "The command line option '-d name value' defines the symbol with the value written in decimal, $hex, 0xhex, %binary or 0bbinary notation. (False for decimal values of three or more digits, which define 0.)", "quantifier": "all numerals of all notations", "why_tests_cant": "Values of every length.", "anchors": ["CMakePasm/source/parseargs.cc:parse_arguments"]}
{"id": "C39", "title": "Line-end conversion only changes line ends", "statement": "Converting a file with the bundled eolconvert tool yields a file without carriage returns in which every LF or CRLF line end became one LF and every other byte is preserved in order; a file with LF line ends only is unchanged and converting twice is the same as converting once.", "quantifier": "all byte sequences", "why_tests_cant": "All byte sequences.", "anchors": ["CMakePasm/eolconvert/eolconvert.cc:replace_eol"]}
{"id": "C40", "title": "Expressions have their arithmetic value", "statement": "Every constant expression evaluates to its mathematical value (with C truncating division and arithmetic shifts, < and > giving the low and high byte of the 16-bit value, comparisons giving 0/1, || and && not evaluating the second operand when the first decides) whenever no intermediate result leaves the 32-bit range; division by zero reports an error and yields 0; low + 256*high recombines to the value modulo 65536.", "quantifier": "all expression trees and operand values", "why_tests_cant": "All expression trees.", "anchors": ["CMakePasm/source/expand.cc:expand_operator_plus_node", "CMakePasm/source/expand.cc:expand_operator_divide_node", "CMakePasm/source/expand.cc:expand_operator_lo_byte_node", "CMakePasm/source/expand.cc:expand_operator_hi_byte_node"]}
{"id": "C41", "title": "The listing shows the bytes that were emitted", "statement": "For every instruction, data directive, fill and binary file, the hexadecimal bytes printed in the listing lines are exactly the bytes appended to the output, in order, and the printed addresses are the addresses where they go. (Fails for a text in .word of odd length divisible by three: the pad byte is shown on a repeated line.)", "quantifier": "all instructions and operand values, all data directives with lists of any length, all fill counts, all files", "why_tests_cant": "Listing and output are produced by separate code from the same node.", "anchors": ["CMakePasm/source/node.cc:generate_list_node", "CMakePasm/source/genoutput.cc:write_opcode_node"]}
{"id": "C42", "title": ".end stops assembly", "statement": "After .end has been processed nothing that follows changes the output, the location counter or any symbol.", "quantifier": "all following statements", "why_tests_cant": "Quantifies over all following programs.", "anchors": ["CMakePasm/source/expand.cc:expand_node"]}
{"id": "C43", "title": "Include search opens the first match and never overruns", "statement": "Opening a source file tries the name itself and then each entry of the ';'-separated search path in order, and opens the first that exists; the fixed-size path buffer is never overrun whatever the lengths of the entries.", "quantifier": "all search paths, file names and file systems", "why_tests_cant": "All lengths and lists.", "anchors": ["CMakePasm/source/file.cc:open_file"]}
{"id": "C44", "title": "References agree with the final addresses", "statement": "When assembly succeeds, every label reference in the emitted code uses the value the label has at the end of the final pass. (False: the change counter is not looked at after the final pass, and a new '+' label is not counted, so a program can be declared stable after one pass and be emitted with stale targets; a reference to a missing '-' or '+' label is assembled as 0 without a message.)", "quantifier": "all programs", "why_tests_cant": "Only particular mixtures of anonymous labels and size changes between the last two passes reveal it.", "anchors": ["CMakePasm/source/pass.cc:assemble", "CMakePasm/source/expand.cc:expand_operator_equ_node", "CMakePasm/source/sym.cc:add_plus_symbol"]}
{"id": "C45", "title": ".var initialisers store the value and touch nothing else", "statement": "'.var x = e' sets x to the value of e, marks it a variable and leaves every other symbol unchanged; a list of declarations does this for each in turn. (False when e is a plain symbol: that symbol is turned into a variable with value 0.)", "quantifier": "all variables, initialiser expressions and lists of declarations", "why_tests_cant": "Depends on the syntactic form of the initialiser.", "anchors": ["CMakePasm/source/expand.cc:expand_operator_expression_list_node", "CMakePasm/source/expand.cc:expand_operator_variable_node"]}
{"id": "C46", "title": "Number literals denote their value", "statement": "A decimal, $hex, %binary or 0b literal is read as the number it denotes whenever that number fits an int.", "quantifier": "all numerals", "why_tests_cant": "All numerals of any length.", "anchors": ["CMakePasm/source/pasm.l:INT"]}
{"id": "C47", "title": "Instruction-size selection is stable once symbols are known", "statement": "If every symbol an instruction mentions is defined and its value does not change, the instruction occupies the same number of bytes in the next pass, in the final pass and in the listing, for every instruction and mode.", "quantifier": "all instructions, modes and operand expressions", "why_tests_cant": "Relates two different passes for all inputs.", "anchors": ["CMakePasm/source/expand.cc:expand_op_code_node", "CMakePasm/source/node.cc:opcode_node"]}
{"id": "C48", "title": "Unresolved symbols block output", "statement": "If after a pass some referenced symbol has never been defined (and is not a macro name, macro parameter, .var or anonymous label), assembly does not produce output from that pass.", "quantifier": "all symbol tables", "why_tests_cant": "Quantifies over all symbol tables.", "anchors": ["CMakePasm/source/sym.cc:unresolved_symbol_count", "CMakePasm/source/pass.cc:assemble"]}
{"id": "C49", "title": "Opcodes are the documented encodings", "statement": "Every documented instruction and addressing mode that is accepted produces the opcode byte the processor documentation assigns to it (decoding that byte gives back the same mnemonic and mode), and conversely every documented opcode byte can be produced. (True for the 6502 table. For the 65C02 the (zp) column and a few rows deviate.)", "quantifier": "all mnemonics, modes and both processors", "why_tests_cant": "Tests cover sampled instructions; the claim is about the whole table against an independent decoder.", "anchors": ["CMakePasm/source/opcodes.cc:opcode_table", "CMakePasm/source/opcodes.cc:get_op_code"]}
{"id": "C50", "title": "Conditionals and loops have their structured meaning", "statement": "A block built from instructions, data, fills, .load, assignments to variables, .var, .if/.else, .while, .repeat/.until, .do/.while and .for, nested to any depth, emits exactly the bytes the big-step semantics of these statements gives: conditions select branches by being non-zero, loop bodies are repeated with the variables as left by the previous round, and nothing but the variables, the location counter and the output changes.", "quantifier": "all blocks of these statements, all nesting depths, all iteration counts", "why_tests_cant": "Unbounded nesting and iteration; relates the tree interpreter, which patches nodes in place while iterating, to a semantics on source statements.", "anchors": ["CMakePasm/source/expand.cc:expand_operator_while_node", "CMakePasm/source/expand.cc:expand_operator_repeat_node", "CMakePasm/source/expand.cc:expand_operator_for_node", "CMakePasm/source/expand.cc:expand_operator_if_node", "CMakePasm/source/expand.cc:expand_operator_statement_node"]}
{"id": "C51", "title": "Command-line arguments mean what the usage text says", "statement": "parse_arguments returns exactly for command lines made of well-formed arguments in which nothing is specified twice and at least one input file is named; each setting then is the one given, the input files are kept in order and fit the array allocated for them, and every symbol given with -d has the value of its last definition; everything else ends with the usage text and status 0 (help) or an error and status -1. (Violated for -d values above $FFFF: the symbol silently becomes 0.)", "quantifier": "all argument vectors", "why_tests_cant": "Arbitrarily long argument vectors in any order.", "anchors": ["CMakePasm/source/parseargs.cc:parse_arguments"]}
{"id": "C52", "title": "Expressions are read by their operator levels", "statement": "The expression parser accepts exactly the token sequences in which an expression can be written under the operator levels << >>; comparisons and || &&; | & ^; + -; * / (loosest first, each level grouping to the left, prefix operators extending as far right as possible, a minus sign only before a number or a parenthesis), and builds exactly that expression; no text has two readings, and every expression can be written.", "quantifier": "all token sequences, all expressions of any depth", "why_tests_cant": "Unbounded nesting; ambiguity and completeness are statements about all texts. The levels differ from those of C (witnesses).", "anchors": ["CMakePasm/source/pasm.y:expr", "CMakePasm/source/pasm.y:subexpr"]}
{"id": "C53", "title": "Source text is divided into the tokens it is written with", "statement": "The scanner always uses the rule that matches most and, among equals, the first; every character is consumed; the line number counts the newlines read. A text written from words in any letter case, signs, numbers, texts, names, labels, blanks and comments, with the separations the written lexical grammar asks for, is divided into exactly these tokens, and no text has two readings. (Signs standing together join: a+-1 is not an expression; a name after /* */ is not a label.)", "quantifier": "all texts; all token sequences and ways of writing them", "why_tests_cant": "Texts of any length, any letter case, any spacing; longest match is a statement about all prefixes and all rules.", "anchors": ["CMakePasm/source/pasm.l:yylex"]}
{"id": "C54", "title": "Statements are read by the written grammar", "statement": "The parser accepts exactly the token sequences that are written programs: one statement per line, an optional label in front, the operand forms of the instructions, lists of expressions and texts, and the blocks .if/.else, .repeat/.until, .do/.while, .while, .for (over symbols and index registers) and .macro nested to any depth; it builds exactly the statements written, with their lines; no text has two readings and what follows a statement has no influence on it. An operand that is one pair of parentheses is indirect, and an operator behind it makes it an address; the program counter alone cannot be an address operand; a label cannot stand inside a block.", "quantifier": "all token sequences, all programs of any length and nesting", "why_tests_cant": "Unbounded nesting and length; ambiguity and completeness are statements about all texts.", "anchors": ["CMakePasm/source/pasm.y:program", "CMakePasm/source/pasm.y:stmt", "CMakePasm/source/pasm.y:opcode", "CMakePasm/source/pasm.y:directive"]}
{"id": "C55", "title": "Assembling text is assembling the program it is written for", "statement": "Scanner, parser and interpreter take turns, and the scanner asks the symbol table about each name, so the reading of a line could depend on the lines and passes before it. For files written by the lexical grammar and the grammar of statements, without macros, the assembly of the texts has the same status, passes, states and output as the assembly of the statements written; no text is a writing of two programs; and for flat programs that assemble, the bytes of the output file are those of the lines of the text. (A .while loop cannot stand in a .do loop: its .while closes the .do.)", "quantifier": "all files, all texts without macros, all passes", "why_tests_cant": "Feedback from the symbol table to the scanner over several passes; texts of any length.", "anchors": ["CMakePasm/source/pass.cc:parse_pass", "CMakePasm/source/pass.cc:assemble", "CMakePasm/source/pasm.l:yylex", "CMakePasm/source/pasm.y:program"]}
{"id": "C56", "title": "Local names in a macro belong to the call", "statement": "Every macro call expands the text of the macro once, in a state in which local names belong to a label made of the name of the macro and a number that no other call of the pass has had; so two calls never share a local name, and when a call has ended the local names of the caller belong to the label they belonged to before, whatever the text did (calls of other macros included). (Violated for labels defined in the text: they are named when the macro is read, so a macro with a local label that stands behind any label cannot be assembled.)", "quantifier": "all macros, all calls, all states and passes, any nesting of calls", "why_tests_cant": "Calls of any depth and number; the interpreter as a whole must leave the label unchanged.", "anchors": ["CMakePasm/source/expand.cc:expand_macro_expansion_node", "CMakePasm/source/expand.cc:expand_macro_id_node", "CMakePasm/source/node.cc:label_node", "CMakePasm/source/sym.cc:add_symbol"]}
{"id": "C57", "title": "The list file shows every output beside its source line", "statement": "The list file consists of rows whose left column shows the outputs asked for while printing is on (.print), each once and in their order; on the right every source line is shown at most once and is the line of the file it is shown for; the line of every entry is shown. For a file whose entries come in line order the list file is exactly the sequence of source lines, each beside the outputs that belong to it. Reading a source file loses nothing and numbers its lines correctly when none has more than 2047 characters. (Violated: lines of 2003 characters or more overflow a buffer, of 2048 or more are counted twice; files whose names differ in case share one text.)", "quantifier": "all tables of entries, all source files (lines below 2003 characters)", "why_tests_cant": "Tables and files of any size, entries in any order (loops, macros), any interplay of already shown lines.", "anchors": ["CMakePasm/source/genlist.cc:generate_list_file", "CMakePasm/source/genlist.cc:get_file_line", "CMakePasm/source/file.cc:read_file_lines", "CMakePasm/source/genlist.cc:add_list"]}
{"id": "C58", "title": "Macro calls stand for the text of the macro with the arguments in it", "statement": "A program of flat lines, blocks, macro definitions and macro calls, calls nested to any depth and inside blocks, emits the bytes of the texts: a call emits what the last text defined under its name emits when the parameters have the values of the arguments, and afterwards the parameters have their old values. For a macro that calls no macros and arguments that mention no parameters this is the text in which the values of the arguments are written in place of the parameters.", "quantifier": "all programs, macros, argument lists and depths of calls", "why_tests_cant": "Unbounded nesting of calls and blocks; the interpreter expands one shared tree per macro and patches nodes in place.", "anchors": ["CMakePasm/source/expand.cc:expand_operator_macro_definition_node", "CMakePasm/source/expand.cc:expand_macro_expansion_node", "CMakePasm/source/expand.cc:expand_macro_id_node", "CMakePasm/source/node.cc:macro_expand_node"]}
{"id": "C59", "title": "Shown texts and numbers appear on the console in the right passes", "statement": "A .print directive whose items have values writes the items in order and a line feed to the console in the final pass and nothing in the other passes; .printall writes them in every pass. Neither emits bytes, moves the location counter, changes a symbol or reports anything. A number is shown so that its last 16 bits can be read back. (Violated above 16 bits: numbers are cut without a message, 65541 is shown as $05.)", "quantifier": "all lists of items of any length, all states and passes, all expressions with values", "why_tests_cant": "Lists of any length, every pass and every value of the expressions.", "anchors": ["CMakePasm/source/expand.cc:expand_operator_print_node", "CMakePasm/source/expand.cc:expand_operator_print_all_node", "CMakePasm/source/expand.cc:expand_operator_expression_list_node"]}
{"id": "C60", "title": "Listing rows are source lines for their bytes", "statement": "The last column of a listing row is a line of assembler source: read by the scanner and the parser it is one statement, and this statement assembled at the address of the row, in any state with the same processor settings, emits exactly the bytes of the row. This holds for instructions in all addressing modes with operands from 0 to $FFFF, for both rows of a branch that was replaced by an inverted branch and a jmp, and for every row of a data directive whose texts have no backslash, quote or line feed. Hence the last columns of all rows of the listing of an accepted program, written behind an .org line into one file, are a source file that assembles without errors to the same output file. (Violated: jmp (abs,x) is listed without parentheses; a backslash in a text is listed as '\\', which reads back as another byte; a line feed at the end of a text breaks the row.)", "quantifier": "all instructions, modes, operand values and addresses, all item lists of any length, all states, all programs of any length", "why_tests_cant": "Every operand value, address, table entry and text; the round trip goes through the listing, the scanner, the parser and the interpreter.", "anchors": ["CMakePasm/source/node.cc:generate_list_node", "CMakePasm/source/genlist.cc:add_list", "CMakePasm/source/pasm.l", "CMakePasm/source/pasm.y"]}
{"id": "C61", "title": "Included files stand for their statements", "statement": "Assembling a file that includes others, these including further ones to any depth, gives what assembling the list of all statements gives in which the statements of each included file stand directly behind its .inc line, with the names of their own files and their own line numbers: same status, same passes, same output. The .inc line itself changes no byte, symbol, counter or switch, and a missing file ends the assembly. (Violated inside blocks: files included there are read only after the whole block, the last one first. Violated for a file whose last line has no line feed, for a line starting with an anonymous label directly behind .inc, and for file names of one character, which cannot be included.)", "quantifier": "all texts and included files of any number, length and depth without macros and .end, all initial states", "why_tests_cant": "Unbounded nesting and length; scanner, parser, interpreter and the stack of suspended files work in turns.", "anchors": ["CMakePasm/source/file.cc:open_include_file", "CMakePasm/source/expand.cc:expand_operator_include_node", "CMakePasm/source/pasm.l:yylex", "CMakePasm/source/pass.cc:parse_pass"]}
{"id": "C62", "title": "The symbol file lists every symbol once, with its value", "statement": "For every symbol table the symbol file, read as names and hexadecimal numbers in turn, lists exactly the symbols that belong into it (no variables, macros, parameters, anonymous or local labels, looked up at least twice in each pass), each once, with its value, in ascending order of values, five on a line; with names of at most 15 characters the columns are aligned. The changed symbols shown when the passes do not end are shown in the order of the changes. The list of unresolved symbols shows every symbol that keeps a pass from being clean and no other. (Violated for the last one: macro names and parameters without value are listed although they are not counted.)", "quantifier": "all symbol tables of any size with 16-bit values and names without blanks, every pass number, every correct qsort", "why_tests_cant": "Tables of any size, every order of equal elements that qsort may choose, every value.", "anchors": ["CMakePasm/source/sym.cc:dump_symbols", "CMakePasm/source/sym.cc:dump_unresolved_symbols", "CMakePasm/source/sym.cc:dump_changed_symbols", "CMakePasm/source/sym.cc:symbol_compare", "CMakePasm/source/sym.cc:unresolved_symbol_count"]}
{"id": "C63", "title": "Messages show the statement they are about", "statement": "Every error number has a text. An error message consists of the text, the file, a line number and the five lines around it as far as the file has them, each with its own number; the line of the statement is among them both for errors of the parser and for errors of the expansion. Writing a message leaves the position in the source file unchanged, an error counts exactly one error and a warning none. (Violated: behind a line of 2047 or more characters the lines have wrong numbers; a parameter that does not fit into the buffer is reported as two errors, the second with whatever is in the buffer.)", "quantifier": "all files, positions, line numbers, error numbers and parameters", "why_tests_cant": "Every file content and line number, including the ends of the file; the loop of reads interacts with the end-of-file flag.", "anchors": ["CMakePasm/source/error.cc:yymessage", "CMakePasm/source/error.cc:yyerror", "CMakePasm/source/error.cc:error", "CMakePasm/source/error.cc:warn", "CMakePasm/source/error.cc:error2", "CMakePasm/source/error.h"]}
{"id": "C64", "title": "From the command line and the disk to the output file", "statement": "The program as a whole: the words of the command line and the files on the disk determine the output file. Every name is resolved through the search path given; the assembly starts with the symbols defined on the command line and the processor, format and opcode settings given. The exit status is 0 after an assembly only if the command line is well formed, every input file was found, every file to be written could be opened, and the last resolving pass found no error and no changed or unresolved symbol; the output file then holds what the final pass emitted. For input files that together write .org and a flat program (with included files), after settings and assignments, it is the load address, exactly if -c64 or .c64 was given, followed by the bytes of the lines, with each label at the address of its line. (Violated when the output or log file is one of the sources: the source is emptied, the output is empty, and the status is 0.)", "quantifier": "all command lines, all disks (files and contents), all texts of the written grammar of any length", "why_tests_cant": "Unbounded command lines, disks and programs; the claim spans argument parsing, file search, scanner, parser, interpreter, passes and output.", "anchors": ["CMakePasm/source/main.cc:main", "CMakePasm/source/parseargs.cc:parse_arguments", "CMakePasm/source/file.cc:open_file", "CMakePasm/source/pass.cc:assemble", "CMakePasm/source/pass.cc:parse_pass"]}
{"id": "C65", "title": "Every node is expanded by the handler of its type", "statement": "The interpreter finds the function for a node in a dictionary keyed by the node type and, for operator nodes, in a second one keyed by the operator. For every node the function found is the one written for its type and operator, so no function reads a member of the union that the node does not have, and the assembly is the one given by a direct case distinction; this holds for whatever values the hash function has and also after the dictionary has grown. (Violated as far as the hash is concerned: with 8-byte pointers every call of the hash function shifts an int by 32 bits or more, which is undefined; the last row of each table is copied from beyond the end of the table.)", "quantifier": "all nodes, trees and states, all hash functions, tables of any number of rows with different keys", "why_tests_cant": "Every node of every program goes through the two tables; the claim is about all hash values, not those of one platform.", "anchors": ["CMakePasm/source/expand.cc:init_expander", "CMakePasm/source/expand.cc:create_op_table_dictionary", "CMakePasm/source/expand.cc:expand_node", "CMakePasm/source/expand.cc:expand_operator_node", "CMakePasm/source/hash.cc:hash_pointer_function", "CMakePasm/source/dictionary.cc:dict_insert", "CMakePasm/source/dictionary.cc:dict_search"]}
{"id": "C66", "title": "Each parse node is freed once, at the end of its pass", "statement": "Whatever nodes a pass allocates, free_parse_tree frees every one of them exactly once, in order, never touches a block that was freed before, frees only blocks that belong to the node, and leaves an empty list to the next pass. No block that a node owns stays allocated. (The last sentence is violated: names of labels, of local symbols and of macro calls, the raw text of strings and the operand array of instructions with the operand A are never freed. remove_parse_node alone leaves current_node pointing to a freed node.)", "quantifier": "any number of passes with any number of nodes of any types and names", "why_tests_cant": "Unbounded lists and sequences of passes; double frees show only under particular allocators.", "anchors": ["CMakePasm/source/node.cc:allocate_node", "CMakePasm/source/node.cc:remove_parse_node", "CMakePasm/source/node.cc:free_parse_node", "CMakePasm/source/node.cc:free_parse_tree", "CMakePasm/source/node.cc:is_name_valid", "CMakePasm/source/pass.cc:parse_pass"]}
{"id": "C67", "title": "The memory tracker of debug builds is exact", "statement": "In builds with _DEBUG every MALLOC, REALLOC and FREE goes through a dictionary of blocks. After any sequence of calls the number of bytes counted is that of the blocks in use, an error is reported exactly for each FREE of something not in use, a resized block keeps its contents, and nothing undefined happens. (Violated when realloc moves a block: the entry stays under the old address, so freeing the block is reported as an error and its bytes stay counted, and resizing it once more loses its contents. FREE never gives memory back.)", "quantifier": "all sequences of calls of any length, all sizes and addresses the C library may return, all hash functions", "why_tests_cant": "Whether realloc moves a block depends on the C library; sequences are unbounded and the dictionary grows while they run.", "anchors": ["CMakePasm/source/memory.cc:pasm_malloc", "CMakePasm/source/memory.cc:pasm_realloc", "CMakePasm/source/memory.cc:pasm_free", "CMakePasm/source/dictionary.cc:dict_insert", "CMakePasm/source/dictionary.cc:dict_delete", "CMakePasm/source/memory.h"]}
{"id": "C68", "title": "A program whose names are all defined is accepted", "statement": "If assembling a program once from the top to the bottom, with the value of every name, gives bytes, then the assembler accepts the program: the passes end, the status is 0, there are no errors, the output file has the header and exactly these bytes, and the symbols have the values of their definitions. (Violated by local labels used on the line of the global label before them, and by divisions whose operand is only known later: both are rejected though every name is defined.)", "quantifier": "all programs, origins, processors and output formats, any number of lines and names", "why_tests_cant": "Acceptance depends on how many passes are needed and on what is known in each of them; programs are unbounded.", "anchors": ["CMakePasm/source/pass.cc:main_assembler", "CMakePasm/source/pass.cc:parse_pass", "CMakePasm/source/expand.cc:expand_operator_equ_node", "CMakePasm/source/expand.cc:expand_label_node", "CMakePasm/source/expand.cc:expand_opcode_node", "CMakePasm/source/node.cc:opcode_node", "CMakePasm/source/node.cc:symbol_node", "CMakePasm/source/sym.cc:set_symbol_value", "CMakePasm/source/sym.cc:unresolved_symbol_count"]}
