{"id": "C01", "title": "Tokenising terminates and never panics", "statement": "For every file name and every source text, repeatedly asking a new scanner for its next token yields finitely many tokens and then None; no call panics (no out-of-boundary string slice, failed assertion, or failed unwrap).", "quantifier": "every Unicode source string of any length and every file name", "why_tests_cant": "The input space is all Unicode strings; the slices are byte-offset slices, so a panic needs a particular multi-byte text at a particular offset.", "anchors": ["src/assembler/scanner.rs: Scanner::next_token, advance_by, char_at, consume_*"]}
{"id": "C02", "title": "Tokens are exactly the text, in order", "statement": "The tokens of a source text are, in order, adjacent non-overlapping pieces of that text separated only by white space other than newline; nothing but white space is skipped, until the end of the text or a lexical error.", "quantifier": "every source string", "why_tests_cant": "No finite set of sources shows that no character is ever dropped or duplicated.", "anchors": ["src/assembler/scanner.rs: Scanner::next_token, consume_whitespace, advance_by"]}
{"id": "C03", "title": "The lexical grammar determines the token sequence", "statement": "The scanner produces a token sequence for a text exactly when that sequence is the one given by the lexical grammar of the README with maximal munch (identifiers, [i], $/#-hex of 1 to 3 digits, %-binary, decimal, quoted strings, comments, punctuation, newline). The sequence exists for every text and is unique.", "quantifier": "every source string and every candidate token sequence", "why_tests_cant": "An if-and-only-if over all strings cannot be sampled.", "anchors": ["src/assembler/scanner.rs: Scanner::next_token and all consume_* methods"]}
{"id": "C04", "title": "Token locations are accurate", "statement": "Each token's location has line = 1 + number of newlines before the token, column = 1 + number of code points between the last preceding newline (or the start) and the token, and a length of at least 1 equal to the number of code points of the token on its first line (1 for a token reporting a malformed literal).", "quantifier": "every source string and every token of it", "why_tests_cant": "Depends on arbitrary preceding text, including multi-byte characters and multi-line strings.", "anchors": ["src/assembler/scanner.rs: advance_by, next_token", "src/assembler/source_file_location.rs: SourceFileLocation::new"]}
{"id": "C05", "title": "Numeric tokens carry the written value, within 12 bits", "statement": "Every numeric token carries the positional value of its digits in base 16, 10 or 2 and this value is between 0 and 4095.", "quantifier": "every source string; for the exact binary value, sources whose binary literals have no more digits than the machine word has bits", "why_tests_cant": "Ranges over unboundedly long literals.", "anchors": ["src/assembler/scanner.rs: consume_hex_literal, consume_decimal_literal, consume_bin_literal, parse_12_bit_bin_str"]}
{"id": "C06", "title": "Decimal literals above 4095 are always rejected", "statement": "A decimal literal whose value exceeds 4095 produces an out-of-range error token carrying the literal's text, however many digits it has (including values that overflow the machine word).", "quantifier": "every digit string", "why_tests_cant": "Unbounded literal length, including machine-word overflow.", "anchors": ["src/assembler/scanner.rs: consume_decimal_literal"]}
{"id": "C07", "title": "Binary literals above 4095 are rejected", "statement": "A binary literal whose value exceeds 4095 produces an out-of-range error token. (False of the code: with more digits than the machine word has bits, 64 on most machines, the leading bits are shifted out silently, so the literal is accepted with a wrong value.)", "quantifier": "every string of binary digits", "why_tests_cant": "Unbounded literal length; the failing literals have at least 65 digits.", "anchors": ["src/assembler/scanner.rs: parse_12_bit_bin_str (checked_shl)"]}
{"id": "C08", "title": "A lexical error ends the token stream", "statement": "A lexical error token is always the last token; at most one appears; after the end the scanner keeps answering None.", "quantifier": "every source string and every number of further next() calls", "why_tests_cant": "Quantifies over all histories of next() calls.", "anchors": ["src/assembler/scanner.rs: next_token, is_at_end"]}
{"id": "C09", "title": "Strings and comments end where they should, with verbatim contents", "statement": "A string literal ends at the first quote not preceded by an escaping backslash and its token holds exactly the characters between the quotes, escapes untouched; a string that is never closed is a lexical error; a comment token is exactly the text from ';' up to but excluding the next newline.", "quantifier": "every source string", "why_tests_cant": "Unbounded contents with arbitrary escapes and Unicode.", "anchors": ["src/assembler/scanner.rs: consume_string_literal, consume_single_line_comment"]}
{"id": "C10", "title": "Parsing terminates and never panics", "statement": "For every token sequence the parser returns a list of nodes or an error, and never panics. The nodes have, with their arguments, no more parts than there are tokens, and a token reported in an error is one of the sequence.", "quantifier": "every finite token sequence, not only those the scanner yields", "why_tests_cant": "All token sequences of any length.", "anchors": ["src/assembler/parser.rs: parse, Parser::*"]}
{"id": "C11", "title": "The parser accepts exactly the documented grammar", "statement": "parse succeeds with a node list exactly when the token sequence derives that node list in the documented grammar (statement ::= directive | label | instruction, comma separated literal or field lists that may end in a trailing comma before a newline); the node list is unique.", "quantifier": "every token sequence and every node list", "why_tests_cant": "An if-and-only-if over all token sequences.", "anchors": ["src/assembler/parser.rs: parse_statement_list, parse_statement, parse_directive, parse_label, parse_instruction, parse_literal_list, parse_field_list"]}
{"id": "C12", "title": "A lexical error is never masked", "statement": "If the token sequence contains a lexical error token, parsing fails.", "quantifier": "every token sequence", "why_tests_cant": "The error token may occur after any prefix.", "anchors": ["src/assembler/parser.rs: parse, parse_statement"]}
{"id": "C13", "title": "Canonical source text round-trips", "statement": "Writing any list of well-formed statements in canonical syntax and then tokenising and parsing it gives back exactly those statements (identifiers, operands, literals).", "quantifier": "every finite list of well-formed statements", "why_tests_cant": "Inductive over arbitrarily long programs.", "anchors": ["src/assembler/scanner.rs: Scanner", "src/assembler/parser.rs: parse"]}
{"id": "C14", "title": "Comments, blank lines and blanks do not matter", "statement": "Inserting or removing comments after statements, blank lines, and non-newline white space between tokens does not change the parsed program (up to source locations) nor the assembled output.", "quantifier": "every program and every placement of comments, blank lines and blanks", "why_tests_cant": "All programs and all placements.", "anchors": ["src/assembler/parser.rs: parse_statement_list, parse_field_list", "src/assembler/scanner.rs: consume_whitespace"]}
{"id": "C15", "title": "Syntax errors name the first offending token", "statement": "When parsing fails on a token, no continuation of the text up to and including that token is a valid program; the text before it can be completed to a valid program; when it fails at end of file, the whole text can be completed to a valid program. The reported expectations are never empty.", "quantifier": "every token sequence and every alternative continuation", "why_tests_cant": "Quantifies over all continuations of a prefix.", "anchors": ["src/assembler/parser.rs: syntax_error_for_unexpected_token, parse_*"]}
{"id": "C16", "title": "Register names are case-insensitive", "statement": "An operand spelled with different letter case names the same register. (False for the two-letter names: 'Dt', 'dT', 'St', 'sT' are taken as labels.)", "quantifier": "every operand identifier and every re-casing of it", "why_tests_cant": "All identifiers; the failing ones are four specific spellings.", "anchors": ["src/assembler/parser.rs: parse_field_list"]}
{"id": "C17", "title": "Operand classification", "statement": "An identifier operand is a general purpose register exactly when it is 'v' or 'V' followed by one hexadecimal digit, and then its number is that digit (0 to 15); it is a special register exactly for the documented spellings; every other identifier is a label reference with exactly that name.", "quantifier": "every identifier", "why_tests_cant": "All identifiers of any length.", "anchors": ["src/assembler/parser.rs: parse_field_list"]}
{"id": "C18", "title": "Directives are validated exactly", "statement": "A directive is accepted exactly when it is org or equ with one numeric argument of at most $FFF, or db with one or more arguments all of which are strings or numbers of at most $FF; otherwise the specific error is returned. Never panics.", "quantifier": "every directive name and every argument list", "why_tests_cant": "All argument lists of any length.", "anchors": ["src/assembler/directive.rs: Directive::from_identifier_and_parameters"]}
{"id": "C19", "title": "Directive names and mnemonics are case-insensitive", "statement": "Changing the letter case of a directive name or of an instruction mnemonic changes neither acceptance nor the bytes produced; a rejection stays the same except that an unknown name is quoted as written. Case is Unicode's: of the names of other alphabets only the Kelvin sign can stand for a letter, and only when the API is called directly.", "quantifier": "every name, every re-casing and every operand list", "why_tests_cant": "All re-casings of all names.", "anchors": ["src/assembler/directive.rs: from_identifier_and_parameters", "src/assembler/instruction.rs: from_mnemonic_and_parameters"]}
{"id": "C20", "title": ".db emits exactly its arguments", "statement": "An accepted .db directive emits, in order, one byte per numeric argument equal to its value and the UTF-8 bytes of each string with nothing added; its declared size is the number of bytes emitted.", "quantifier": "every argument list", "why_tests_cant": "All argument lists and all Unicode strings.", "anchors": ["src/assembler/directive.rs: from_identifier_and_parameters, size, into_vec"]}
{"id": "C21", "title": "Instruction encodings follow the published table", "statement": "An instruction with given operands assembles successfully exactly when it matches a row of the README table (plus NOP), its operands fit the fields of that row and its labels are defined; the two bytes emitted are that row's opcode pattern with the operands substituted.", "quantifier": "every mnemonic, every operand list, every label map", "why_tests_cant": "All operand values, lists of all lengths and all label maps.", "anchors": ["src/assembler/instruction.rs: Instruction::from_mnemonic_and_parameters, into_vec", "src/assembler/opcode.rs: Opcode::as_instruction", "README.md: Mnemonics"]}
{"id": "C22", "title": "A label can stand for any literal", "statement": "Replacing a numeric operand of an instruction by a label whose value is that number gives the same bytes or the same failure (a message that no instruction matches lists the operands as written).", "quantifier": "every instruction form, every operand position, every value and every label map", "why_tests_cant": "All values at all positions under all label maps.", "anchors": ["src/assembler/instruction.rs: from_mnemonic_and_parameters"]}
{"id": "C23", "title": "Immediates are never truncated", "statement": "An 8-bit operand above 255, or a 4-bit operand above 15, given directly or through a label, is an error; an instruction never assembles with a value different from the one given.", "quantifier": "every operand value, every label map", "why_tests_cant": "All values at all positions under all label maps.", "anchors": ["src/assembler/instruction.rs: numeric_literal_to_8_bit_field, numeric_literal_to_4_bit_field"]}
{"id": "C24", "title": "Label lookup is exact", "statement": "An instruction using a label that is not defined with exactly that spelling fails with an error naming it; a defined label yields exactly its value.", "quantifier": "every label map and label name", "why_tests_cant": "All maps and names.", "anchors": ["src/assembler/instruction.rs: resolve_label_with_map"]}
{"id": "C25", "title": "Every instruction is two bytes", "statement": "Every instruction that assembles emits exactly two bytes, most significant first, and emitting never panics when register numbers are those the parser can produce.", "quantifier": "every instruction and label map", "why_tests_cant": "All operand values.", "anchors": ["src/assembler/instruction.rs: size, into_vec", "src/assembler/opcode.rs: format_instruction_imm12, format_instruction_x_imm8, format_instruction_x_y"]}
{"id": "C26", "title": "Decoding inverts encoding", "statement": "Decoding the instruction word of any well-formed opcode yields that opcode; two different well-formed opcodes never share a word.", "quantifier": "every opcode with 4-bit register and field values", "why_tests_cant": "Ranges over every opcode and field value; the shipped test starts from words and skips 0xFFFF.", "anchors": ["src/assembler/opcode.rs: Opcode::from_instruction, as_instruction"]}
{"id": "C27", "title": "Encoding inverts decoding except for NOP", "statement": "Re-encoding the decoded form of any 16-bit word gives back that word, unless it decodes to NOP, which re-encodes to 0; decoding is total and always gives a well-formed opcode.", "quantifier": "every 16-bit word", "why_tests_cant": "The shipped test loops to 0xFFFE and misses 0xFFFF; nothing shows the general structure.", "anchors": ["src/assembler/opcode.rs: Opcode::from_instruction, as_instruction"]}
{"id": "C28", "title": "Disassembly re-assembles", "statement": "The assembly text of any decoded instruction, given back to the assembler, assembles to the same instruction. (False of the code: the value is padded with blanks, which the tokenizer rejects, when it has fewer digits than the field; and SHR/SHL drop their second register.)", "quantifier": "every opcode", "why_tests_cant": "All opcodes and values; the shipped tests only use full-width values.", "anchors": ["src/assembler/opcode.rs: to_assembly_string"]}
{"id": "C29", "title": "A label has the address of what follows it", "statement": "After a successful first pass the value of a label is the constant of a valid .equ immediately following it, and otherwise the address at which the next byte emitted before any further .org is placed.", "quantifier": "every program and every label in it", "why_tests_cant": "All programs; positions depend on everything before.", "anchors": ["src/assembler/assembler.rs: define_labels, emit_data_ranges"]}
{"id": "C30", "title": "Duplicate labels are rejected", "statement": "A program that defines the same label name (case-sensitively) twice never assembles; a program is never rejected for redefinition unless two label statements have the same name, and the error names it and the location of a later definition.", "quantifier": "every program", "why_tests_cant": "All programs and placements.", "anchors": ["src/assembler/assembler.rs: define_labels"]}
{"id": "C31", "title": "Nothing is placed outside memory", "statement": "Every byte of an assembled program lies at an address below 4096, no address ever wraps, and a program is rejected as too large or overflowing exactly when its address counter would pass $FFF. (Consequence: although memory has 4096 bytes, the byte at $FFF can never be emitted.)", "quantifier": "every program", "why_tests_cant": "All programs of any size.", "anchors": ["src/assembler/assembler.rs: define_labels", "src/assembler/data_range.rs: append, bytes_remaining"]}
{"id": "C32", "title": "The two passes agree", "statement": "If the first pass accepts a program then the second pass never panics (no failed unwrap or assertion), and can fail only because an instruction does not assemble.", "quantifier": "every program whose registers the parser can produce", "why_tests_cant": "All programs; needs a relation between the two passes' states.", "anchors": ["src/assembler/assembler.rs: define_labels, emit_data_ranges"]}
{"id": "C33", "title": "The image is what the source says", "statement": "The assembled ranges contain exactly the bytes of each statement, in source order, each statement's bytes at consecutive addresses from the statement's address (0 at the start, set by .org, advanced by each emitted byte); and nothing else.", "quantifier": "every program", "why_tests_cant": "All programs.", "anchors": ["src/assembler/assembler.rs: emit_data_ranges, assemble"]}
{"id": "C34", "title": "Assembly succeeds exactly on valid programs", "statement": "assemble succeeds exactly when all directives are valid, every .equ directly follows a label, labels are unique, the address counter never passes $FFF, and every instruction matches a form with resolvable, fitting operands.", "quantifier": "every program", "why_tests_cant": "An if-and-only-if over all programs.", "anchors": ["src/assembler/assembler.rs: assemble"]}
{"id": "C35", "title": "Constants are placement independent", "statement": "A constant definition emits no bytes and moves no address; removing it from one place and inserting it at any other place between statements, but not between a label and the .equ that gives its value, leaves the output unchanged, whether uses precede or follow it.", "quantifier": "every program, every constant definition, every two places", "why_tests_cant": "All programs and positions.", "anchors": ["src/assembler/assembler.rs: define_labels"]}
{"id": "C36", "title": ".equ without a label is rejected", "statement": "A .equ that does not immediately follow a label makes the first pass fail, with the location of that directive if nothing before it fails.", "quantifier": "every program", "why_tests_cant": "All programs.", "anchors": ["src/assembler/assembler.rs: define_labels"]}
{"id": "C37", "title": "Ranges are non-empty and follow the source order", "statement": "No assembled range is empty, ranges appear in the order of the .org sections that produced them, and each starts at the address of its section.", "quantifier": "every program", "why_tests_cant": "All programs.", "anchors": ["src/assembler/assembler.rs: emit_data_ranges"]}
{"id": "C38", "title": "Appending to a data range is safe", "statement": "Appending succeeds exactly when the data fits between the end of the range and the end of the 4096-byte space, then adds exactly the data at the end; otherwise it changes nothing; the remaining capacity never underflows.", "quantifier": "every range reachable by any sequence of appends", "why_tests_cant": "All sequences of operations.", "anchors": ["src/assembler/data_range.rs: DataRange::append, bytes_remaining, len"]}
{"id": "C39", "title": "Range intersection is exact", "statement": "Two data ranges are reported as intersecting exactly when some address belongs to both; symmetric. (False of the code for a range that reaches address $FFF: its end wraps to 0 and no overlap is reported.)", "quantifier": "every pair of ranges", "why_tests_cant": "All pairs; the failure needs ranges ending exactly at the top.", "anchors": ["src/assembler/data_range.rs: intersects, address_range"]}
{"id": "C40", "title": "Overlap listing is exact", "statement": "The overlap listing contains each unordered pair of distinct positions whose ranges intersect exactly once, in lexicographic order of positions, and nothing else.", "quantifier": "every list of ranges", "why_tests_cant": "All lists of any length.", "anchors": ["src/assembler/data_range.rs: find_overlapping_ranges"]}
{"id": "C41", "title": "Overlapping output is always detected", "statement": "For every assembled program the overlap listing is empty exactly when no address receives two bytes.", "quantifier": "every program that assembles", "why_tests_cant": "All programs.", "anchors": ["src/assembler/data_range.rs: find_overlapping_ranges", "src/assembler/assembler.rs: assemble", "src/main.rs: assemble_file"]}
{"id": "C42", "title": "The hex file decodes to the assembled image", "statement": "Reading the produced text with an Intel HEX reader (validating start codes, lengths, checksums and the end record) gives exactly the addresses and bytes of the data ranges, in order.", "quantifier": "every list of non-overlapping ranges", "why_tests_cant": "All images of any size and layout.", "anchors": ["src/assembler/ihex_writer.rs: ihex_representation_of_data_ranges"]}
{"id": "C43", "title": "The hex file is well formed", "statement": "Every line is an upper-case hex record with between 1 and 16 data bytes (16 except possibly for the last record of a range) and a checksum that makes the byte sum 0 mod 256; the last line, and only it, is :00000001FF; every line ends with a newline.", "quantifier": "every list of non-overlapping ranges", "why_tests_cant": "All images.", "anchors": ["src/assembler/ihex_writer.rs: ihex_representation_of_data_ranges"]}
{"id": "C44", "title": "Hex output never panics on checked ranges", "statement": "For every list of ranges without reported overlaps, producing the hex text never panics: no address arithmetic overflow and no rejected record.", "quantifier": "every list of ranges reachable by appends", "why_tests_cant": "All range lists.", "anchors": ["src/assembler/ihex_writer.rs: ihex_representation_of_data_ranges"]}
{"id": "C45", "title": "No output on failure", "statement": "The output file is created or written only if reading, parsing, assembling and the overlap check all succeeded; in every failing case nothing is created and the exit status is 1; on success the exit status is 0 and the content is exactly the hex text.", "quantifier": "every source text and every behaviour of the file system", "why_tests_cant": "All inputs and all failure points.", "anchors": ["src/main.rs: assemble_file, main"]}
{"id": "C46", "title": "The tool never panics", "statement": "For every command line with at least a program name, source text and file-system behaviour, the tool ends with exit status 0 or 1; it never panics. (With an empty argument vector it does panic, before anything else.)", "quantifier": "every source text, non-empty argument vector, behaviour of the option parser and of the file system", "why_tests_cant": "All inputs at once.", "anchors": ["src/main.rs: main, assemble_file"]}
{"id": "C47", "title": "End-to-end correctness", "statement": "The tool exits with status 0 having written a hex file exactly when the source text tokenises and parses under the documented grammars to a valid program whose bytes do not collide; the file then decodes to exactly the memory image the program describes. (Binary literals are read modulo 2 to the number of bits of the machine word, see C07; with the intended reading the claim is for texts whose binary literals fit the word.)", "quantifier": "every source text", "why_tests_cant": "All source texts.", "anchors": ["src/main.rs: assemble_file"]}
{"id": "C48", "title": "Output destination does not affect content", "statement": "The bytes sent to standard output with '-o -' are the bytes written to the file with any other output name; only '-' is treated specially.", "quantifier": "every source text and output name", "why_tests_cant": "All inputs.", "anchors": ["src/main.rs: assemble_file, main"]}
{"id": "C49", "title": "Diagnostics are located and printable", "statement": "Formatting any error or overlap the pipeline can produce never panics; every semantic error message starts with the location of the offending statement, which is the location of a statement of the program.", "quantifier": "every failing program", "why_tests_cant": "All errors reachable from all programs.", "anchors": ["src/assembler/assembler.rs: SemanticError Display", "src/assembler/parser.rs: Error Display", "src/assembler/data_range.rs: DataRange Display", "src/assembler/source_file_location.rs: Display"]}
{"id": "C50", "title": "Help and version touch nothing", "statement": "When help or version is requested, the tool reads and writes no file and exits with status 0; with any number of inputs other than one it touches no file and exits with status 1.", "quantifier": "every command line and every environment", "why_tests_cant": "All command lines and environments.", "anchors": ["src/main.rs: main"]}
{"id": "C51", "title": "The first faulty statement is the one reported", "statement": "When the first pass fails, every statement before the reported one is fault-free and the report does not depend on anything after it (except a constant immediately following a label).", "quantifier": "every program and every alternative continuation", "why_tests_cant": "All programs and continuations.", "anchors": ["src/assembler/assembler.rs: define_labels"]}
{"id": "C52", "title": "Section order is irrelevant to the image", "statement": "Permuting complete .org sections of a program leaves its success, its label values and its memory image unchanged (given that the first section also starts with .org).", "quantifier": "every program split in sections and every permutation", "why_tests_cant": "All programs and permutations.", "anchors": ["src/assembler/assembler.rs: assemble"]}
{"id": "C53", "title": "Lines tokenise independently", "statement": "If whole lines of text (up to and including a newline) contain no lexical error, then the tokens of those lines followed by any further text are the tokens of the lines followed by the tokens of the further text taken alone, moved down by the number of newlines.", "quantifier": "every prefix of whole lines without lexical errors and every continuation", "why_tests_cant": "The tokens of a prefix must not depend on an unbounded set of continuations, including those that open strings or comments spanning lines.", "anchors": ["src/assembler/scanner.rs:435-471", "src/assembler/scanner.rs:392-423"]}
{"id": "C54", "title": "Reported expectations are viable and complete", "statement": "When parsing fails, every token of a kind the error names as expected, put in place of the offending token (or at the end of the file), can be continued to a valid program; there are tokens of each of these kinds, and the offending token is of none of them. Conversely any other token in that place gives the same report for that token, unless it is a newline, a comment, a comma or a label marker.", "quantifier": "every token sequence that fails to parse, every expectation in its error, every token put in place of the offending one", "why_tests_cant": "Quantifies over all failing inputs and asserts the existence of a continuation for each.", "anchors": ["src/assembler/parser.rs: syntax_error_for_unexpected_token, parse_*"]}
{"id": "C55", "title": "File names and locations do not influence the result", "statement": "Renaming the input file, or moving tokens and statements to other locations without changing them, changes nothing but the locations in error messages: the same statements are parsed, the same data is assembled, the same file is written, and a rejected program is rejected for the same reason.", "quantifier": "every text, every pair of file names, every relocation of tokens and statements", "why_tests_cant": "All programs and all relocations.", "anchors": ["src/assembler/scanner.rs: Scanner::new, next", "src/assembler/parser.rs: parse", "src/assembler/assembler.rs: assemble", "src/main.rs: assemble_file"]}
{"id": "C56", "title": "Diagnostics point at the right place in the file", "statement": "The location printed with a token, and at the start of every syntax and semantic error message, reads back unambiguously to one file name, line and column, and these are the line and column (counted from the text alone) of the token or statement the message is about.", "quantifier": "every source text, every token of it, every diagnostic it leads to", "why_tests_cant": "All texts, lines and columns; and file names that themselves contain colons and digits.", "anchors": ["src/assembler/source_file_location.rs: Display", "src/assembler/token.rs: location", "src/assembler/parser.rs: Display for Error", "src/assembler/assembler.rs: SemanticError"]}
{"id": "C57", "title": "Renaming labels does not change the output", "statement": "Renaming labels consistently, in definitions and uses, gives the same output when different names stay different; a rejected program is still rejected, for the same reason and at the same location, up to the label name reported. On source text the new names must be identifiers other than register names.", "quantifier": "every program and every renaming that is injective on its labels", "why_tests_cant": "All programs and all renamings.", "anchors": ["src/assembler/assembler.rs: assemble, define_labels", "src/assembler/instruction.rs: from_mnemonic_and_parameters"]}
{"id": "C58", "title": "Labels are names of numbers", "statement": "Replacing every use of a defined label by its value gives the same output and the same rejections. Every text with an output has that of a text in which no label or constant is defined or used.", "quantifier": "every program, valid or not, and every use of a label in it", "why_tests_cant": "All programs.", "anchors": ["src/assembler/assembler.rs: assemble", "src/assembler/instruction.rs: from_mnemonic_and_parameters"]}
{"id": "C59", "title": "Code and data with the same bytes are interchangeable", "statement": "A run of instructions and .db directives can be replaced by another of the same size that emits the same bytes: a string by the list of its bytes, one .db by two, an instruction by the two bytes of its encoding. The output is the same and labels keep their values.", "quantifier": "every program, every place in it, every two blocks with equal bytes", "why_tests_cant": "All programs and all blocks.", "anchors": ["src/assembler/assembler.rs: assemble", "src/assembler/directive.rs: from_identifier_and_parameters", "src/assembler/instruction.rs: into_vec"]}
{"id": "C60", "title": "Labels that nothing uses do not matter", "statement": "Adding or removing a label or a constant that no instruction uses keeps the output, if the name is not that of another label and it is not put between a label and its constant.", "quantifier": "every program, every place in it, every label name", "why_tests_cant": "All programs and places.", "anchors": ["src/assembler/assembler.rs: define_labels, assemble"]}
{"id": "C61", "title": "Programs can be joined", "statement": "If two source files assemble, share no label, the first ends with a newline and the second begins with .org, then their concatenation assembles, and its output is the output of the first followed by that of the second.", "quantifier": "every pair of such source files", "why_tests_cant": "All pairs of files.", "anchors": ["src/assembler/scanner.rs: next", "src/assembler/parser.rs: parse", "src/assembler/assembler.rs: assemble"]}
{"id": "C62", "title": "Sections can be moved", "statement": "Changing the address of the .org before a section that fits at the new address moves its address labels by exactly the distance and leaves constants alone; if its instructions use constants only, its bytes stay the same and are placed at the new address.", "quantifier": "every section without further .org, every pair of addresses", "why_tests_cant": "All sections and addresses.", "anchors": ["src/assembler/assembler.rs: define_labels, assemble"]}
{"id": "C63", "title": "The command line is read by a fixed grammar", "statement": "With crate getopts 0.2.14, a command line is accepted exactly when it consists of words of the documented forms (-h, -v, -o FILE, -oFILE, bundles such as -hv, the long forms with a space or =, plain words, everything after --) and says no option twice, and the result is what it says; otherwise the fault reported is the first unreadable word, or else the first repeated option in the order of the usage text. Every command line has exactly one meaning.", "quantifier": "every list of words", "why_tests_cant": "There are infinitely many command lines.", "anchors": ["src/main.rs: main"]}
{"id": "C64", "title": "What the tool does with its command line", "statement": "Help is shown when asked for, whatever else is said; otherwise the version when asked for; otherwise exactly one file is assembled, into the named output or a.hex; with no file or several the usage text is shown with status 1; a faulty command line only prints the fault. The order in which things are said and the spelling of the output option do not matter.", "quantifier": "every command line, every environment", "why_tests_cant": "All command lines, orders and spellings.", "anchors": ["src/main.rs: main"]}
{"id": "C65", "title": "The memory contents that can be produced", "statement": "A list of data ranges is the result of assembling some source text exactly when every range holds at least one byte and ends below the last address; a text of .org and .db lines for given ranges is assembled to just these ranges. So whatever the tool does with an accepted text, it does the same with a text of .org and .db lines. For any contents of the memory below $FFF there is a text from which the tool writes a HEX file of exactly these contents, with status 0; no text puts a byte at $FFF.", "quantifier": "every list of data ranges; every partial function from addresses to bytes", "why_tests_cant": "The existence of a source for all memory images, and the non-existence of one for the others, are statements about all texts.", "anchors": ["src/assembler/assembler.rs: define_labels, emit_data_ranges, assemble", "src/main.rs: assemble_file"]}
{"id": "C66", "title": "The canonical source text identifies a program", "statement": "Writing an accepted program in canonical form (one statement per line, decimal numbers, no comments), then parsing and writing it again gives the same text. Two accepted texts have the same canonical form exactly when they are read as the same statements apart from locations, and then they are assembled to the same ranges.", "quantifier": "every pair of accepted source texts", "why_tests_cant": "All pairs of programs.", "anchors": ["src/assembler/parser.rs: parse", "src/assembler/scanner.rs: Scanner::next_token"]}
{"id": "C67", "title": "The scanner's patterns match what the token rules say", "statement": "Each of the six regular expressions of the scanner, read in the notation of crate regex and searched for with leftmost-first matching, is found at the start of the rest of the input exactly where the corresponding token rule applies, and covers exactly the bytes of that token: the longest run of blanks, of digits, of name characters, of binary digits, up to three hexadecimal digits, or a string up to its first unescaped quote.", "quantifier": "every text", "why_tests_cant": "Agreement of a pattern and a rule on all strings.", "anchors": ["src/assembler/scanner.rs: consume_whitespace, consume_string_literal, consume_hex_literal, consume_bin_literal, consume_decimal_literal, consume_identifier"]}
{"id": "C68", "title": "Scanning and parsing can be interleaved", "statement": "Parsing an iterator of tokens, pulling each token only when the parser moves on, gives the same result as parsing the list of all tokens that the iterator yields, for every iterator that goes on answering nothing after its last token. The scanner is such an iterator, so parsing a file while scanning it returns, and gives the nodes or the error that belong to its token sequence.", "quantifier": "every iterator that ends and every text", "why_tests_cant": "The tests parse lists or files of a few tokens; the claim is about every iterator and its internal state.", "anchors": ["src/assembler/parser.rs: parse, Parser::new, prime, consume_token", "src/assembler/scanner.rs: Iterator for Scanner"]}
{"id": "C69", "title": "Errors expose their kind and cause", "statement": "The general description of an assembly error is the same for two errors exactly if they are of the same kind; so it is for lexical errors, syntax errors, and the errors of directives and of instructions. An assembly error has a cause exactly if it comes from an invalid directive or an instruction that cannot be encoded, and then its message is its location followed by the message of the cause.", "quantifier": "every pair of errors of a type", "why_tests_cant": "The payloads of errors are arbitrary texts and numbers.", "anchors": ["src/assembler/assembler.rs: description, cause, Display for SemanticError", "src/assembler/parser.rs: description", "src/assembler/directive.rs: description", "src/assembler/instruction.rs: description"]}
{"id": "C70", "title": "Line endings do not matter", "statement": "A program text whose lines end with a newline, and the same text with a carriage return before each newline, have the same statements at the same locations and the same output, provided that no string literal of either text extends over more than one line. A string literal over several lines does change: it takes in the carriage returns.", "quantifier": "every text", "why_tests_cant": "The carriage returns end up in the blanks, in comments, or in strings, depending on what surrounds them; the test files use one line ending.", "anchors": ["src/assembler/scanner.rs: consume_whitespace, consume_single_line_comment, consume_string_literal"]}
{"id": "C71", "title": "A change in place keeps to its own bytes", "statement": "If instructions and .db lines of an accepted program are replaced by others that take the same number of bytes, every label keeps its value; the new program is accepted exactly if its new instructions can be encoded with the labels of the old one; and the two outputs differ in the bytes of the replaced statements only, which stay at the same addresses, with ranges of the same starts and lengths. The same holds for source files in which whole lines are replaced. It fails for replacements of another size.", "quantifier": "every program, every replaced part, every replacement", "why_tests_cant": "The labels of the whole program enter into the encodings of all others of its instructions.", "anchors": ["src/assembler/assembler.rs: define_labels, assemble", "src/assembler/instruction.rs: size, from_mnemonic_and_parameters"]}
{"id": "C72", "title": "The first lines give the first bytes", "statement": "If the first statements of an accepted program are accepted on their own, their bytes are the first bytes of the output of the whole program, in the order of emission. They are accepted on their own exactly if they define all labels their instructions use. The same holds for source files cut after a line. The cut must not separate a label from an .equ, since the constant then changes its value.", "quantifier": "every program, every cut", "why_tests_cant": "It is about all cuts of all programs.", "anchors": ["src/assembler/assembler.rs: define_labels, assemble"]}
{"id": "C73", "title": "A report does not depend on the text that follows", "statement": "If whole lines are rejected by the parser, the report names a token in them, never the end of the file, and the tool behaves the same whatever text is added, unless a string was left open. If whole lines are rejected for their directives or labels, the tool behaves the same whatever well-formed text is added. An open string is the exception: added text can close it.", "quantifier": "every text of whole lines, every added text", "why_tests_cant": "The added text is arbitrary, and could change how the scanner reads the last token.", "anchors": ["src/assembler/scanner.rs: next", "src/assembler/parser.rs: parse", "src/assembler/assembler.rs: define_labels, assemble"]}
{"id": "C74", "title": "The size and the characters of the object file", "statement": "The object file consists of the colon, the digits 0-9 and A-F, and newlines, so that it has as many bytes as characters. Its length is 12 for every record, with the end record, and 2 for every byte, where a range of n bytes takes n/16 records, rounded up. Whatever the source, the tool writes at most 57342 bytes, and some source has an output of this size.", "quantifier": "every list of ranges, every source text", "why_tests_cant": "The largest output takes 4095 sections.", "anchors": ["src/assembler/ihex_writer.rs: ihex_representation_of_data_ranges", "src/main.rs: assemble_file"]}
{"id": "C75", "title": "What a run does to the files", "statement": "A run changes no file but the output it names, and no file at all when the output is - or the command line does not ask for an assembly of one input. After success the output file holds exactly the Intel HEX text of what the input describes, whatever it held before. However a run ends, either no file has changed, or the input was valid and the output file holds a prefix of its object text. A second successful run changes nothing, and two runs that do not touch each other's files may be made in either order. If the input is named as the output, it is replaced by the object text, and a second run rejects it.", "quantifier": "every state of the files, every behaviour of the system, every command line", "why_tests_cant": "A test looks at a few files; the claim is about all files and all ways a write can fail.", "anchors": ["src/main.rs: assemble_file, main"]}
{"id": "C76", "title": "What is printed for each failure", "statement": "An input that cannot be opened or read and an output that cannot be created or written are each reported with the program name, the path and the reason. Overlapping ranges are reported with all pairs that overlap, in order. A successful assembly prints nothing but the object file. A failing one prints whole lines.", "quantifier": "every behaviour of the system, every source text", "why_tests_cant": "Most of the failures of the system cannot be caused in a test.", "anchors": ["src/main.rs: assemble_file, log_program_error"]}
{"id": "C77", "title": "Standard output that fails", "statement": "If printing to standard output fails, the tool panics at the first text that cannot be printed, with the events before it unchanged. What becomes of the files does not depend on standard output. A status of 0 means that everything was printed. Otherwise it behaves as if standard output could not fail. A successful assembly to a file does not depend on standard output at all.", "quantifier": "every behaviour of standard output, every command line, every behaviour of the system", "why_tests_cant": "Needs an output that fails at each possible place.", "anchors": ["src/main.rs: assemble_file, print_usage, main"]}
{"id": "C78", "title": "Which words can be written as instructions", "statement": "The words that an instruction can produce, with any labels and operands, are exactly those listed by their digits: 0000, 00E0, 00EE, 00F8, 00F9, 00FA, and by first and last digits otherwise, with shifts having no second register. These are exactly the words that the decoder knows, but for shifts with a second register. For each of them, and for no others, there is a source file with one instruction and these two bytes as its output.", "quantifier": "every 16-bit word, every source text of one instruction", "why_tests_cant": "One direction is over all source texts.", "anchors": ["src/assembler/instruction.rs: from_mnemonic_and_parameters, into_vec", "src/assembler/opcode.rs: as_instruction, from_instruction"]}
{"id": "C79", "title": "Arguments and input are UTF-8", "statement": "Bytes are taken as the text of which they are the UTF-8 form, and as no text if there is none: longer forms than needed, surrogates and cut characters are refused. The tool panics exactly if there is no argument at all or one that is not UTF-8, before it does anything else. An input that is not UTF-8 is reported with its path and nothing is written; with readable and writable files the status is 0 exactly if the bytes of the input are the UTF-8 form of a valid program without collisions. An input that begins with a byte order mark is rejected for its first character, whatever follows.", "quantifier": "every byte string, every list of arguments, every behaviour of the system", "why_tests_cant": "Ranges over all byte strings, valid or not.", "anchors": ["src/main.rs: main, assemble_file"]}
{"id": "C80", "title": "How deep the parser recurses", "statement": "The parser calls itself once for each element of a list of arguments or operands. With room for one call more than any line has commas it answers, accepting or rejecting, as with unlimited room, however many lines there are; an accepted program needs room for at most one call more than its longest list has elements; with room for fewer calls than the longest list has elements an accepted program makes the parser overflow its stack; in between it either overflows or gives the same answer. So no stack is large enough for all programs, not even for those with one byte of output.", "quantifier": "every token sequence, every stack size", "why_tests_cant": "A test cannot vary the stack, and small programs do not get near it.", "anchors": ["src/assembler/parser.rs: parse_literal_list, parse_field_list"]}
{"id": "C81", "title": "The messages are true", "statement": "A program that is not valid is rejected with one line that gives the location of a statement and a message that is the case of that statement: the directive is none of the three, has the shown number of arguments or the shown value above $FF, does not fit, is a constant without a label; the label is defined before; the instruction goes past $FFF, uses the shown label which is defined nowhere, has the shown operand value above 255 or 15, or is none of the instructions. Each of these is a reason to reject a program. A file that is not a program is rejected with a message that shows the first token that cannot come where it is, or says what is wrong with the text at the shown place, or that the file ends too early, and names exactly the kinds of tokens that can come there, but for newlines, comments, commas and label markers. One message is not quite true: a .db of exactly 4096 bytes is said to exceed 4096 bytes.", "quantifier": "every source text, every behaviour of the system", "why_tests_cant": "Each message carries values computed from the program, which is arbitrary.", "anchors": ["src/assembler/assembler.rs: SemanticError", "src/assembler/directive.rs: Error", "src/assembler/instruction.rs: Error", "src/assembler/parser.rs: Error", "src/assembler/scanner.rs: Error"]}
{"id": "C82", "title": "Letter case in a source file", "statement": "Two files that differ only in the case of letters have the same tokens at the same places, lexical errors included, but for the case of letters in names, strings and comments. If moreover no string and no name of a label differs, and no timer is spelled in mixed case, they are both rejected or have the same output. In strings, names of labels and names of timers letter case does matter.", "quantifier": "every pair of source files", "why_tests_cant": "All ways of choosing the case of each letter of every file.", "anchors": ["src/assembler/scanner.rs: next", "src/assembler/parser.rs: parse", "src/assembler/directive.rs: from_identifier_and_parameters", "src/assembler/instruction.rs: from_mnemonic_and_parameters"]}
{"id": "C83", "title": "The notation of a number does not matter", "statement": "Each of the numbers 0 to 4095 can be written with $, with #, in decimal and with %. If a number in a file is written in another of these notations, or all are, the file is still rejected or still has the same output, as long as the characters before and after do not become part of the number.", "quantifier": "every source file, every number in it, every notation", "why_tests_cant": "All files and all places.", "anchors": ["src/assembler/scanner.rs: consume_hex_literal, consume_bin_literal, consume_decimal_literal"]}
{"id": "C84", "title": "Search and replace of a name", "statement": "If a name is replaced throughout a file, the output is the same, as long as the new name is not that of a register or of another label, and the old one not that of a register, an instruction or a directive of the file. Several names can be replaced at once if different names of labels stay different.", "quantifier": "every source file, every replacement of names", "why_tests_cant": "Ranges over all files and all names.", "anchors": ["src/assembler/scanner.rs: next", "src/assembler/parser.rs: parse", "src/assembler/assembler.rs: define_labels, assemble"]}
{"id": "C85", "title": "An .org that makes no difference", "statement": "An .org to the address already reached can be added or removed, and the output places the same bytes at the same addresses in the same order, unless it comes between a label and its constant: there it makes the program invalid. Of two .orgs in a row only the second counts. An .org at the end and an .org 0 at the start make no difference. The order of labels in a row does not matter, unless a constant follows: it belongs to the last of them.", "quantifier": "every program, every place in it", "why_tests_cant": "All programs and all places.", "anchors": ["src/assembler/assembler.rs: define_labels, assemble"]}
{"id": "C86", "title": "Positions and sizes are bounded by the size of the source", "statement": "However often the scanner is asked for a token, its byte position is at most the size of the text, and its line and column counters add up to at most the number of characters and 2; so do line, column and length of each token. There are at most as many tokens as characters, at most as many statements, arguments and operands as tokens, and at most as many bytes of output as bytes of source. The object file has at most 14 characters for each byte of the source, and 12 more. So no counter can overflow for a text that fits in memory.", "quantifier": "every source text, every number of calls", "why_tests_cant": "Bounds hold for texts of every length; counters would only overflow for texts that no test can hold.", "anchors": ["src/assembler/scanner.rs: next", "src/assembler/parser.rs: parse", "src/assembler/assembler.rs: assemble", "src/assembler/ihex_writer.rs: ihex_representation_of_data_ranges"]}
{"id": "C87", "title": "When two object files are the same", "statement": "The object file is determined by the blocks of 16 bytes, with their addresses, that the ranges are cut into, and determines them: two object files are equal byte for byte exactly if the blocks are. So a range cut in two behind a multiple of 16 bytes gives the same file, and an .org to the address already reached leaves the file unchanged if its distance from the start of the section is a multiple of 16. At other distances it can change the file, though not the bytes it loads.", "quantifier": "every pair of lists of ranges, every program", "why_tests_cant": "All pairs of programs and all places of an .org.", "anchors": ["src/assembler/ihex_writer.rs: ihex_representation_of_data_ranges", "src/assembler/assembler.rs: define_labels, assemble"]}
{"id": "C88", "title": "The order of the sections in a file", "statement": "The sections of a source file, each of whole lines that begin with an .org, can be put in any other order: the tool has the same exit status, and when it succeeds, loading the output files fills the memory alike. The same holds for any two files that describe the same bytes. Parts that do not begin with an .org cannot change places.", "quantifier": "every source file, every order of its sections, every environment", "why_tests_cant": "All files and all permutations.", "anchors": ["src/assembler/scanner.rs: next", "src/assembler/parser.rs: parse", "src/assembler/assembler.rs: define_labels, assemble", "src/main.rs: main"]}
{"id": "C89", "title": "Putting statements into a program", "statement": "Data or instructions of k bytes put into a program, not between a label and its constant, add k to the labels between that place and the next .org; other labels and all constants keep their values. An instruction that takes a moved label as an address (jp, call, ld i, jp v0) has its word grow by k. If moved labels are only used as addresses, the longer program is accepted exactly if the section still ends within memory and the new instructions are valid. If no instruction uses a moved label, the bytes behind the new ones move by k and all others stay. The same holds for lines put into a source text. Both conditions are needed: examples show a use of a moved label that changes a byte, and one as a byte operand that makes the longer program invalid.", "quantifier": "every program, every place between statements, every inserted block without .org, .equ or label", "why_tests_cant": "All programs and all places of an edit.", "anchors": ["src/assembler/assembler.rs: define_labels, assemble", "src/assembler/instruction.rs: from_mnemonic_and_parameters", "src/assembler/opcode.rs: new"]}
{"id": "C90", "title": "How often the parser calls its iterator", "statement": "To accept n tokens the parser calls the iterator's next exactly n + 2 times, with any budget of fewer calls it does not return. To reject at a token it calls it for the tokens before that one, for it, and once more, or twice more if it wanted the name of a directive; likewise at the end of the tokens. Nothing but the answers to these calls matters: iterators that answer them alike are parsed alike, whether they end or not.", "quantifier": "every iterator, every token sequence, every budget of calls", "why_tests_cant": "All iterators, with state of every type, and all token sequences.", "anchors": ["src/assembler/parser.rs: new, prime, consume_token, parse_identifier, parse_literal_list, parse_field_list, parse_statement_list, parse"]}
{"id": "C91", "title": "Which statement a byte comes from", "statement": "A byte is in the output at an address exactly if some statement puts it there: the address reached before the statement, plus the place of the byte within what the statement stands for. Ranges are reported to overlap exactly if two different statements put a byte at the same address; without a report, each byte of the output comes from one statement only. The locations of the statements of a text, and of its tokens, do not overlap and are in the order of the text, so a location names one statement, and tells the line and the columns of its name.", "quantifier": "every program that assembles, every address, every source text", "why_tests_cant": "All programs and all addresses.", "anchors": ["src/assembler/assembler.rs: define_labels, assemble", "src/assembler/data_range.rs: find_overlapping_ranges", "src/assembler/scanner.rs: next", "src/assembler/parser.rs: parse"]}
{"id": "C92", "title": "A listing re-assembles", "statement": "The formatted text of an opcode is its text after the number of blanks asked for. A file with one such text per line, however indented and with or without a line that sets the address, is assembled to the words of the opcodes exactly if each opcode has all the digits of its immediate value, is not a shift with a second register, and the memory suffices; otherwise, unless only such shifts are at fault, it is rejected. So memory contents that are decoded word by word and listed are reproduced exactly if each word is that of an instruction that can be written, with all digits.", "quantifier": "every list of opcodes, every indentation, every address, every memory contents", "why_tests_cant": "All lists of opcodes; a test would use a few words that happen to need no padding.", "anchors": ["src/assembler/opcode.rs: to_formatted_assembly_string, to_assembly_string, from_instruction, as_instruction", "src/assembler/scanner.rs: next", "src/assembler/instruction.rs: from_mnemonic_and_parameters"]}
{"id": "C93", "title": "No two instructions have the same word", "statement": "Two instructions that assemble to the same word, each with its own labels, have the same mnemonic up to letter case and the same operands: the same registers, and the same numbers, written as they may be. Conversely such instructions have the same word, or both none. So two programs of labels, constants and instructions have the same output exactly if they have the same instructions in the same order.", "quantifier": "every pair of instructions, every pair of programs without .org and .db", "why_tests_cant": "All pairs of programs.", "anchors": ["src/assembler/instruction.rs: from_mnemonic_and_parameters", "src/assembler/opcode.rs: as_instruction", "src/assembler/assembler.rs: assemble"]}
{"id": "C94", "title": "Labels with the name of a register", "statement": "A label or constant with the name of a register can be defined, but no instruction of a source text can refer to it: the name always means the register. So the definition can be taken out without changing the output, and there is an output only if the same name is not defined twice and there is one without it.", "quantifier": "every source text, every label or constant in it with the name of a register", "why_tests_cant": "All programs.", "anchors": ["src/assembler/parser.rs: parse_field_list", "src/assembler/assembler.rs: define_labels, assemble"]}
{"id": "C95", "title": "The scanner knows when it is at the end", "statement": "A new scanner is at its end exactly if the text is empty. At the end there is no further token, and the scanner does not change any more. When next_token answers None, or answers with an error, the scanner is at the end. If the text does not end in a blank, the scanner is at the end exactly if there is no further token; with a blank at the end of the text this is not so.", "quantifier": "every source text, every state of the scanner between calls", "why_tests_cant": "Quantifies over all texts and all histories of calls.", "anchors": ["src/assembler/scanner.rs: is_at_end, next_token"]}
{"id": "C96", "title": "The machine executes the program in the order of the source", "statement": "The bytes of an assembled program, executed by a CHIP-8 machine as the README tables say (next instruction, skip, jump, call, return), are executed in the order of the source text. At the address of an instruction the machine finds that instruction, labels standing for their values, and no other. Whatever can be followed in the text (to the next instruction, past a skipped one, to the instruction after the label jumped to or called, or at the address given as a number, in a jump by V0 as many instructions further as half of V0, back to the instruction after the call) the machine can execute, being at the address of each instruction in turn. Conversely, if jumps and calls are to instructions (jumps by V0 for the values V0 has there) and each instruction that does not leave is followed by an instruction (two after a skip), and nothing overlaps, then everything the machine can execute can be followed in the text: it never executes data, the second half of an instruction or memory the program does not fill. At an instruction of the text it stops only at a trap or at a return without a call. The outcome of tests and the contents of registers are left open, so this holds for every one of them.", "quantifier": "every assembled program, every starting instruction, every finite execution", "why_tests_cant": "Quantifies over all programs and over executions of every length.", "anchors": ["src/assembler/assembler.rs: assemble", "src/assembler/opcode.rs: as_instruction", "README.md: Mnemonics, Labels"]}
{"id": "C97", "title": "The machine computes what the source text says", "statement": "Load the object file into a CHIP-8 machine, whatever else is in memory, and let the instructions do anything at all to registers, timers, screen and memory (one parameter for the effects, one for the tests of skips, one for the value of V0). Then each execution got by reading the source text is an execution of the machine, with the same effects, from the address of the same instruction, as long as no instruction of the program is overwritten; and if execution does not leave the instructions of the text and nothing overlaps, each execution of the machine is one got by reading the text. A program without stores overwrites nothing, so for it both are the same without this condition. This holds from file to file: whenever the tool exits with status 0, the bytes it wrote are an object file with this property for the text it read.", "quantifier": "every source text the tool accepts, every meaning of the instructions, every initial memory and state, every finite execution", "why_tests_cant": "Quantifies over all programs, all semantics of the instructions and executions of every length.", "anchors": ["src/assembler/assembler.rs: assemble", "src/assembler/opcode.rs: as_instruction", "src/assembler/ihex_writer.rs: ihex_representation_of_data_ranges", "src/main.rs: assemble_file", "README.md: Mnemonics, Labels"]}
{"id": "C98", "title": "Errors in the object file are noticed when it is read", "statement": "With one wrong, lost or added character in it, or two neighbouring characters in the wrong order, an object file is rejected by an Intel HEX reader; only a digit that became lower case is accepted, and then the same bytes are read. An object file that is cut off anywhere, or followed by anything, is rejected too. So whatever the tool leaves behind, even when writing failed, can be read only if it is the complete object file of the source text. A whole missing record is not noticed: whichever data lines are left, in whatever order and however often, the file is read, loads only bytes of the object file, and loads all of them exactly if no line is lost.", "quantifier": "every list of ranges, every single error at every position, every point of interruption, every source text and environment", "why_tests_cant": "There are unboundedly many files, positions and replacement characters; the checksum argument needs arithmetic over all of them.", "anchors": ["src/assembler/ihex_writer.rs: ihex_representation_of_data_ranges", "src/main.rs: assemble_file", "README.md: Output"]}
{"id": "C99", "title": "A CHIP-8 interpreter does with the object file what the source text says", "statement": "A CHIP-8 interpreter takes its instructions as numbers from memory. With the object file in memory, and anything else around it, it does with registers, timers, screen and memory, instruction by instruction and for the same random numbers and keys, what the instructions of the source text say, as long as the program overwrites none of its instructions; a program that stores nothing never does. If execution does not leave the instructions of the text, it does nothing else. It stops only for a trap or a RET without a return address, never for an unknown instruction.", "quantifier": "every source text, interpreter state, memory contents, screen, sequence of inputs and number of steps", "why_tests_cant": "Runs are unboundedly long and depend on all registers, memory and inputs; tests compare the bytes of single instructions.", "anchors": ["README.md: Mnemonics", "src/assembler/instruction.rs: Instruction::from_mnemonic_and_parameters", "src/assembler/opcode.rs: as_instruction", "src/assembler/assembler.rs: assemble", "src/assembler/ihex_writer.rs: ihex_representation_of_data_ranges", "src/main.rs: assemble_file"]}
{"id": "C100", "title": "Any literal can be given via a label", "statement": "Where a program has a number, the name of a label with that value can stand instead: the program is accepted as before and its output is the same. (Not so: true of the operands of instructions, but a label as an argument of a directive is rejected, with a message that a literal is expected there.)", "quantifier": "every source text, every numeric literal in it, every label with its value", "why_tests_cant": "All programs, all positions and all values; the tests have no label among the arguments of a directive.", "anchors": ["README.md: Literals", "README.md: Mnemonics", "src/assembler/parser.rs: parse_literal_list", "src/assembler/parser.rs: parse_field_list", "src/assembler/assembler.rs: assemble"]}
{"id": "C101", "title": "What depends on the machine the tool is built for", "statement": "A run of the tool on a machine with a narrow word is the same as on a machine with a wider word, unless the wider one rejects the source text; two machines that both succeed write the same output. The tokens differ only after a binary number that has more digits than the narrower word has bits, which the wider one reports and the narrower takes for the value of its last digits.", "quantifier": "every pair of word widths of at least 16 bits, every command line, environment and source text", "why_tests_cant": "The tests run on one machine.", "anchors": ["src/assembler/scanner.rs: parse_12_bit_bin_str (checked_shl)", "src/main.rs: main"]}
{"id": "C102", "title": "The text of a directive", "statement": "The text a directive displays, on a line of its own, is read back as a directive of the same meaning exactly when it is .org or .equ with a value of $100 or more; every other one (the padding of a smaller value puts blanks after the $, and .db displays only its number of bytes) is refused whatever follows it. Two directives have the same text exactly when they are the same or are .db of the same number of bytes.", "quantifier": "every directive, every text after it, every width of the machine word", "why_tests_cant": "All 4096 values of .org and .equ and all byte sequences, through the tokenizer and the parser; no test of the project displays a directive.", "anchors": ["src/assembler/directive.rs: Display for Directive", "src/assembler/scanner.rs: Scanner::next", "src/assembler/parser.rs: parse"]}
{"id": "C103", "title": "The characters and lines of a message", "statement": "A rejected source is reported on one line for an invalid program, an unexpected token or an early end, on two lines for a piece of text in error, and on 2 + 2n lines for n pairs of overlapping ranges. Those lines consist of printable ASCII and the file or program name given to the tool, except that an unexpected string literal and a single invalid character are shown as they stand in the file, control characters and ends of lines included; the message for an early end does not even show the file name.", "quantifier": "every source text, file name, program name, width of the machine word", "why_tests_cant": "All texts over all of Unicode, including those crafted to forge further messages; tests look at a few messages of well-behaved sources.", "anchors": ["src/main.rs: assemble_file", "src/assembler/assembler.rs: Display for SemanticError", "src/assembler/parser.rs: Display for Error", "src/assembler/token.rs: Display for Token"]}
{"id": "C104", "title": "Assembling statements the parser does not produce", "statement": "For every list of statements, with registers of any number from 0 to 255: assembling it panics exactly if no statement has a layout fault and the first instruction that has no word has nothing wrong with it but a register above 15; it reports an error exactly if there is a first layout fault, or none and the first instruction without a word fails, and it is that one. With C34 (success exactly for valid programs) this is every possible result.", "quantifier": "every list of statements, every label map", "why_tests_cant": "Node lists are built by hand in tests with registers up to 15; the order in which faults of different kinds win, over all programs, is not testable.", "anchors": ["src/assembler/assembler.rs: assemble, emit_data_ranges", "src/assembler/instruction.rs: Instruction::into_vec", "src/assembler/opcode.rs: Opcode::as_instruction"]}
{"id": "C105", "title": "Debug and release builds behave the same", "statement": "Rust integer arithmetic panics on overflow in a build with overflow checks and wraps around in one without. For every command line, every files and every input text that fits in memory (at most isize::MAX bytes), for every width of the machine word from 16 bits on, both builds of the tool print the same messages, write the same file and exit with the same code, which are those of unbounded arithmetic. The same holds of the tokenizer on a text alone, and of the assembler, of appending to a data range and of the object file writer on any data. It does not hold of showing a data range alone: a range whose end is a multiple of 4096 panics in one build and is shown with the largest machine word as its last address in the other; exactly these ranges are shown differently.", "quantifier": "every command line, environment and text, every word width, both build profiles", "why_tests_cant": "Tests run in one build profile, and an overflow of a position or a column needs inputs of 2^16 or 2^64 bytes.", "anchors": ["src/assembler/scanner.rs: advance_by", "src/assembler/source_file_location.rs: fmt", "src/assembler/data_range.rs: bytes_remaining, fmt, find_overlapping_ranges", "src/assembler/ihex_writer.rs: ihex_representation_of_data_ranges", "src/main.rs: main"]}
{"id": "C106", "title": "A message identifies what is wrong and where", "statement": "If a text is rejected, exactly one thing is found wrong with it: a syntax error, an error of the assembler, or a list of overlapping ranges. Two versions of a file that are both rejected get the same output exactly if the same is wrong with them at the same location, except for what messages do not show: the text of a comment, the digits of a binary number that is out of range, the bytes of a directive that does not fit, and the bytes of overlapping ranges (only their addresses and number are shown). In particular two different mistakes never get the same message, whatever names, strings and characters from the file the messages quote. The operands listed in the message about an instruction that there is not determine the operands of the statement.", "quantifier": "all pairs of input texts with an error, every path, program name and environment", "why_tests_cant": "Ambiguity between two messages is a property of pairs of inputs; quoted names and strings could imitate the rest of another message.", "anchors": ["src/assembler/parser.rs: Display for Error", "src/assembler/scanner.rs: Display for Error", "src/assembler/token.rs: Display for Token", "src/assembler/assembler.rs: Display for SemanticError", "src/assembler/directive.rs: Display for Error", "src/assembler/instruction.rs: Display for Error", "src/assembler/source_file_location.rs: fmt", "src/main.rs: assemble_file"]}
{"id": "C107", "title": "How the system divides reads and writes does not matter", "statement": "The tool reads the whole input file in whatever pieces the system delivers it, with interruptions between them, and reports the error of the system if there is one before the end. It writes the whole object file, in whatever pieces the system takes it, exactly if the system has room for it; otherwise the file has a part from the beginning of it and the status is 1. Two systems that have the same files and both take any object file (at most 57342 bytes) give the same run for any arguments, whatever the pieces and interruptions are. What is printed on standard output arrives there in order and without gaps; nothing of a text that ends in a newline, as every object file and every message does, is held back in the buffer of the process when it ends.", "quantifier": "all sequences of answers of the system to read and write, all arguments and file contents, every order of pieces printed", "why_tests_cant": "Short reads and writes, interruptions and a full disk are rare and hard to produce; the number of ways to divide the bytes grows exponentially.", "anchors": ["src/main.rs: assemble_file", "src/main.rs: main"]}
{"id": "C108", "title": "The seed of the hash table does not matter", "statement": "The assembler keeps labels in a hash table whose hash function is seeded at random in every process. The result of assembling, including which error is reported, is the same for every hash function, every number of buckets and every way the table grows, and for any other table that finds what was inserted under a name: the only operations used are looking up, asking for and inserting a name, and no name is inserted that is already there.", "quantifier": "all statement lists, all hash functions and growth policies, all lawful tables", "why_tests_cant": "A test sees the seeds it happens to run with; collisions of names are rare under a good hash function.", "anchors": ["src/assembler/assembler.rs: define_labels", "src/assembler/assembler.rs: emit_data_ranges", "src/assembler/instruction.rs: resolve_label_with_map"]}
{"id": "C109", "title": "The syntax is checked line by line", "statement": "A source text is syntactically accepted exactly if each of its lines, taken as a text of its own, is accepted, and so is what is left after the last newline; its statements are those of the lines in order. Otherwise the syntax error reported is that of the first line that has one, with the line number it has in the file, whatever follows. When that line is repaired, the text is accepted or the next syntax error is reported on a later line (at the end of the file only if the last line has no newline). The exception are lines that end in an open string, since a string may contain newlines.", "quantifier": "all texts divided into any number of lines, every continuation", "why_tests_cant": "Statements could span lines in unforeseen ways (a list continued after a comma, a label marker on the next line); the claim is about every division of every text.", "anchors": ["src/assembler/parser.rs: parse", "src/assembler/parser.rs: parse_literal_list", "src/assembler/parser.rs: parse_field_list", "src/assembler/scanner.rs: next"]}
{"id": "C110", "title": "Repairing a program moves the reports forward", "statement": "If a statement is reported for its directive, its label or the address it reaches, and is replaced by any other statements or removed, then no statement before it is reported for such a reason. If an instruction is reported for its words (mnemonic or operands) and replaced by another instruction, then no statement is reported for a directive, label or address, and none before it is reported. So a program of n statements is rid of errors after at most 2n rounds in which the reported statement is replaced by one that is not reported again for the same kind of error. A report can move up once: instructions are only looked at when all directives, labels and addresses are in order.", "quantifier": "all programs whose statements have locations of their own (proved of every source text), all replacements, all sequences of rounds", "why_tests_cant": "It is a claim about all sequences of edits; tests look at one report of one program.", "anchors": ["src/assembler/assembler.rs: assemble", "src/assembler/assembler.rs: define_labels", "src/assembler/assembler.rs: emit_data_ranges"]}
{"id": "C111", "title": "Object files can be linked", "statement": "Take the parts of a program, each of whole lines that begin with an .org, that share no label, and that the tool assembles one by one. Given to the tool as one file, they are accepted exactly if no address is used by two of the object files, and then the object file is made up of the lines of theirs in order, but for their last lines, and one last line. Parts that share a label are not accepted as one file. A part that uses a label of another part cannot be assembled alone.", "quantifier": "all lists of source texts, all runs of the tool on them and on their concatenation", "why_tests_cant": "The claim relates runs on any number of files to a run on their concatenation, whatever is in them.", "anchors": ["src/main.rs: assemble_file", "src/assembler/assembler.rs: assemble", "src/assembler/ihex_writer.rs: ihex_representation_of_data_ranges", "src/assembler/data_range.rs: find_overlapping_ranges"]}
{"id": "C112", "title": "The characters of a source text", "statement": "A character is reported as invalid exactly if it is not white space, no token begins with it, and the text before it has no lexical error and does not end in a comment; it is reported where it stands, after the tokens of the text before it, whatever follows. In a text without lexical errors such a character stands within a comment or a string, or it is the bracket that closes [i]. All characters outside ASCII but the white space are such characters. No text with one outside comments and strings is accepted; a file that begins with a byte order mark is rejected at line 1, column 1.", "quantifier": "all source texts, all characters of Unicode, all positions", "why_tests_cant": "A test can try some characters at some positions; the claim is about every character of Unicode at every position of every text.", "anchors": ["src/assembler/scanner.rs: Scanner::next_token, Scanner::consume_whitespace", "src/assembler/parser.rs: Parser::parse_statement"]}
{"id": "C113", "title": "The amount of work", "statement": "Counted in steps of bounded cost, scanning, parsing and assembling a source text take time linear in its size: at most 40 steps for each byte and 20 more, whether or not the text is accepted by the assembler; no token, list or label makes a stage go over the text again. The check for overlapping sections compares every pair of sections exactly once, and so is quadratic in their number: for every number of sections there is an accepted program with two statements for each that makes it so.", "quantifier": "all source texts, all token sequences, all programs, all lists of sections", "why_tests_cant": "A test measures the time of some inputs; the claim is a bound for every input, and a family of inputs without bound.", "anchors": ["src/assembler/scanner.rs: Scanner::next", "src/assembler/parser.rs: parse", "src/assembler/assembler.rs: assemble", "src/assembler/data_range.rs: find_overlapping_ranges"]}
{"id": "C114", "title": "Where white space is needed", "statement": "White space between two tokens is needed exactly where the first would go on with the first character of the second: a comment with all but a newline, a name with letters, digits and the underscore, a decimal number with digits, a hexadecimal number of fewer than three digits with hexadecimal digits, a binary number with binary digits and the dot (so a directive directly after a binary number needs white space). Texts made of the same tokens, written the same, have the same output however much white space there is. The tokens of a text with one blank at each of these places and none anywhere else are the shortest such text.", "quantifier": "all source texts without lexical errors, all ways to put white space between their tokens", "why_tests_cant": "The claim is about every pair of adjacent tokens and every way to space a text, and says that no shorter spacing exists.", "anchors": ["src/assembler/scanner.rs: Scanner::next, Scanner::consume_whitespace"]}
{"id": "C115", "title": "A section at another address", "statement": "When the `.org` of a section is given another address, the labels defined as addresses in the section go along with it: their values change by the distance between the two addresses. All other labels and all constants keep their values. A statement that names none of the labels that go along puts the same bytes as before, at an address that goes along if it is in the section and at the same address otherwise. An instruction that takes such a label as an address gets a word that differs from the one before by that distance. The bytes outside the section stay where they are. If such labels are only used as addresses, the changed program is accepted exactly if the section ends within memory at its new address. Two address labels of one section are as far apart as there are bytes between them.", "quantifier": "all programs, all sections of them, all pairs of addresses", "why_tests_cant": "The claim relates two runs on two different programs, for every section and every distance.", "anchors": ["src/assembler/assembler.rs: define_labels, emit_data_ranges", "src/assembler/directive.rs: from_identifier_and_parameters", "src/assembler/instruction.rs: from_mnemonic_and_parameters"]}
{"id": "C116", "title": "Neighbouring pieces of a program can change places", "statement": "When two neighbouring pieces of a program, of m and of n bytes and without `.org`, change places, the labels defined as addresses in the first grow by n and those in the second shrink by m. All other labels and all constants keep their values. A statement that names none of these labels puts the same bytes, at its new address; an instruction that takes one of them as an address gets a word that differs by n or by m. All bytes outside the pieces stay where they are. If the labels of the pieces are only used as addresses, both orders are accepted or neither is.", "quantifier": "all programs, all pairs of neighbouring pieces that part no label from its constant", "why_tests_cant": "The claim relates two runs on two different programs, for every way to cut a program.", "anchors": ["src/assembler/assembler.rs: define_labels, emit_data_ranges", "src/assembler/instruction.rs: from_mnemonic_and_parameters"]}
{"id": "C117", "title": "A label without a definition", "statement": "If the definition of a label, an address or a constant, is taken out of an accepted program, the result is accepted exactly if no instruction names the label; otherwise the first instruction that names it is reported, with the name. If the label is instead defined under another, new name, the same instruction is reported. When a program is rejected because a label has no definition, adding one, wherever it parts no label from its constant, leaves a program that is accepted, or rejected because of that instruction or one behind it for another reason.", "quantifier": "all accepted programs and all labels of them; all programs rejected for a missing label", "why_tests_cant": "The claim relates the runs on a program with and without a definition, for every program and label.", "anchors": ["src/assembler/assembler.rs: define_labels, emit_data_ranges", "src/assembler/instruction.rs: resolve_label_with_map, from_mnemonic_and_parameters"]}
{"id": "C118", "title": "Lines that are commented out", "statement": "A text in which a semicolon is put in front of some lines is treated by the tool exactly like the text with empty lines in their place, down to the messages, whatever the lines contain. All other statements stay, at the locations they had, and the output is that of the text with the lines deleted. If the lines had the first syntax error, what is reported next is the first error of the text behind them, at its place in the file. The same holds for what is left after the last newline. The exception are lines inside a string over several lines, where a semicolon is a character like any other.", "quantifier": "all texts and all lines of them that do not begin inside a string", "why_tests_cant": "The lines may contain anything, and the claim is about all further messages and outputs of the tool.", "anchors": ["src/assembler/scanner.rs: consume_single_line_comment, next_token", "src/assembler/parser.rs: parse_statement_list", "src/main.rs: assemble_file"]}
{"id": "C119", "title": "Where line breaks are needed", "statement": "In an accepted text, the newline before a statement can be replaced by a blank, with the same statements and output, exactly if what is before the newline is accepted on its own, which is exactly if it does not end with an instruction without operands, a directive without arguments, or a comma. The same decides whether a newline is needed at the end of a text. A newline can be put between two tokens, with the same statements, exactly if what is before it and what is behind it are accepted on their own and have these statements. Lines that are accepted without their newlines and end with no comment can all be put on one line, with the same output.", "quantifier": "all token sequences and all texts", "why_tests_cant": "Whether a newline can be left out is a claim about every pair of token sequences around it; a test shows single pairs.", "anchors": ["src/assembler/parser.rs: parse_directive, parse_instruction, parse_statement_list", "src/assembler/scanner.rs: next_token"]}
{"id": "C120", "title": "Which reports can occur", "statement": "The lexical errors that occur in the tokens of some text, the syntax errors that are reported for some text and the semantic errors that are reported for some text are exactly those of a given list, with exactly the stated names, numbers and tokens in them, at some location. In particular an invalid decimal literal and an invalid identifier are never reported, the end of the file is never reported where a statement is expected, only `.db` is reported as too large or as passing the end of memory, and every report on the list is given for some text.", "quantifier": "all reports, and all texts", "why_tests_cant": "That a report never occurs is a claim about all texts; that each of infinitely many reports occurs needs a text for each.", "anchors": ["src/assembler/scanner.rs: Error, next_token", "src/assembler/parser.rs: Error, parse_statement_list", "src/assembler/assembler.rs: SemanticError, define_labels, emit_data_ranges", "src/assembler/directive.rs: Error", "src/assembler/instruction.rs: Error"]}
{"id": "C121", "title": "A constant with another value", "statement": "If the value of a constant of an accepted program is changed, the program is accepted exactly if the new value is at most the limit of every instruction that names the constant (4095 for an address, 255 or 15 for an 8-bit or a 4-bit number). Otherwise the first such instruction with a lower limit is reported, with the value. In the output all bytes keep their addresses, a statement that does not name the constant keeps its bytes, and the word of an instruction that names it changes by exactly the difference of the values. The same holds for the source file in which the lines of the definition are changed.", "quantifier": "all programs with a constant, and all values", "why_tests_cant": "How every word of every program depends on a constant is a claim about all programs and all pairs of values.", "anchors": ["src/assembler/assembler.rs: define_labels, emit_data_ranges", "src/assembler/instruction.rs: from_mnemonic_and_parameters"]}
{"id": "C122", "title": "Instructions and data taken out", "statement": "An accepted program is still accepted when any of its instructions and .db directives are taken out. Every label then has the same value or a smaller one, and the output uses no address that was not used before, nor uses one more often. When consecutive statements are taken out, the bytes behind them, up to the next .org, end earlier by their size, and all other addresses are the same. The same holds for lines that are deleted from a source file; the output has no overlap if it had none. Taking out a label or an .org can make a program invalid.", "quantifier": "all accepted programs, and all choices of statements in them", "why_tests_cant": "That no choice of statements to take out makes any program invalid is a claim about all programs.", "anchors": ["src/assembler/assembler.rs: define_labels, emit_data_ranges", "src/assembler/instruction.rs: from_mnemonic_and_parameters"]}
{"id": "C123", "title": "A label that is defined elsewhere or in another way", "statement": "If the definition of a label, an address or a constant, is taken from its place and another definition of the same name is put in at any place (not between another label and its constant), then: with the same value the result is the same, output or report, once the first pass accepts the program. With another value an accepted program is still accepted exactly if that value is at most the limit of every instruction that names the label; otherwise the first such instruction with a lower limit is reported, with the value. The bytes keep their addresses, statements that do not name the label keep their bytes, and the words of the others change by exactly the difference of the values. So it is for a source file in which the line of a label is moved further down.", "quantifier": "all programs, labels, values and places", "why_tests_cant": "Which bytes change when a label is moved depends on every use of it, in programs of any size.", "anchors": ["src/assembler/assembler.rs: define_labels, emit_data_ranges", "src/assembler/instruction.rs: from_mnemonic_and_parameters"]}
{"id": "C124", "title": "How much memory a check of the syntax needs", "statement": "Whether the parser accepts a sequence of tokens can be found out by reading them once, from left to right, with a memory of 8 states, and not with fewer. Whether scanner and parser accept a text can be found out by reading its characters once with a number of states that depends on the width of a machine word and not on the text. Whether a text can be assembled cannot: for every number of states there is a label that such a reader would have forgotten.", "quantifier": "all token sequences, all texts, all numbers of states", "why_tests_cant": "That a finite memory is enough, or is not, is a statement about all texts at once.", "anchors": ["src/assembler/parser.rs: parse, parse_directive, parse_instruction", "src/assembler/scanner.rs: scan", "src/assembler/assembler.rs: define_labels, emit_data_ranges"]}
{"id": "C125", "title": "Which files the tool can write", "statement": "A text is an object file that the tool writes for some source exactly if it consists of data records, one to a line, in upper case and with a right checksum, each of 1 to 16 bytes below address $FFF, no two of them with a byte at the same address, followed by the line :00000001FF; the records may be in any order. A source for it has an .org and a .db for each record. So taking data records out of an object file, or reordering them, gives another object file of the tool, and the records of two object files make up one exactly if no address is used by both.", "quantifier": "all texts, all object files", "why_tests_cant": "Which texts can never be written by any run is a claim about all sources.", "anchors": ["src/assembler/ihex_writer.rs: ihex_representation_of_data_ranges", "src/main.rs: main", "src/assembler/assembler.rs: emit_data_ranges"]}
{"id": "C126", "title": "A complete specification of the tool", "statement": "There is a specification, made of the rules for the lexemes, the grammar, the meaning of statements, the layout of sections, the lines of the object file, the messages and the options, that says for each command line and all answers of the file system what is printed, which files are opened, read, created and written with which bytes, in which order, and the exit status. The tool does this and nothing else: it has a behaviour exactly if the specification allows it, and the specification allows exactly one. This holds also when the arguments and the files are bytes that need not be UTF-8 and when standard output can fail. In particular each source text has either exactly one object file or exactly one report of why it has none.", "quantifier": "all command lines, all answers of the file system and of standard output, all source texts", "why_tests_cant": "That nothing is left unspecified, for every input, is not something that a finite number of runs shows.", "anchors": ["src/main.rs: main", "src/main.rs: assemble_file", "src/assembler/assembler.rs: assemble", "src/assembler/scanner.rs: Scanner", "src/assembler/parser.rs: parse", "src/assembler/ihex_writer.rs: ihex_representation_of_data_ranges"]}
{"id": "C127", "title": "A complete specification of each step", "statement": "Each step of the library yields exactly what its specification says. For every list of tokens, whether or not they come from a text, parsing yields the program they are by the grammar, or reports the first token that cannot come where it is together with the kinds of tokens that can, or reports that tokens are missing together with the kinds that can come next; there is always exactly one such result. For every program, assembling yields the data of the sections that are not empty, or what is wrong with the statement at fault. For all ranges that can be built, the hex writer yields a line for each block and the last line, or crashes; it crashes exactly if two ranges that do not reach the last address have an address in common.", "quantifier": "all token lists, all programs, all lists of ranges that can be built", "why_tests_cant": "An exact characterisation of every result, including each error, ranges over all inputs.", "anchors": ["src/assembler/parser.rs: parse", "src/assembler/assembler.rs: assemble", "src/assembler/ihex_writer.rs: ihex_representation_of_data_ranges"]}
{"id": "C128", "title": "What a run depends on", "statement": "A run depends on nothing but its command line and the answers to what it asks of the system: whether the one input can be opened, its text, and, if that has an object file, whether the one output can be created and how much of the object file can be written to it. All other files, and answers to what it does not ask, make no difference; when the command line asks for no assembly, none do, and when the source text is rejected, those about the output do not. Under another program name the tool does the same and ends in the same way, but for its name in messages and in the usage.", "quantifier": "all command lines, all pairs of systems, all program names", "why_tests_cant": "It compares runs in two arbitrary environments, which differ wherever they may.", "anchors": ["src/main.rs: main", "src/main.rs: assemble_file"]}
{"id": "C129", "title": "The specifications of the steps suffice for the tool", "statement": "A tool that does what main does, with any scanner and parser, any assembler, any search for overlaps and any hex writer that each meet their own specification, does exactly what is specified of the whole tool. The search and the writer need to meet theirs only for ranges that are not empty and end before the last address, and the writer only for those without a common address. The steps of the code meet their specifications: with a parser that asks the scanner for one token at a time, and whatever the hash function of the label table and however it grows. So every such run, also with arguments and files in bytes and a standard output that can fail, is as specified.", "quantifier": "all implementations of the steps, all hash functions and growth policies, all systems and command lines", "why_tests_cant": "Tests run one implementation with random hash seeds; this is about every implementation of every step.", "anchors": ["src/main.rs: assemble_file", "src/main.rs: main", "src/assembler/parser.rs: parse", "src/assembler/assembler.rs: assemble"]}
{"id": "C130", "title": "The tool and its documentation", "statement": "The documented behaviour, in which a binary literal has the value of its digits and is an error above 4095, is one behaviour for each command line and system. The tool does exactly this, unless the input it is asked to assemble has a binary literal above 4095 with more digits than the machine word has bits, whose last digits make a number up to 4095, after valid tokens only; then the documented behaviour is a report and status 1. So whenever success is documented the tool does what is documented, and it does so for every text in which no run of binary digits after a % is longer than the machine word. A tool made of correct steps that takes a binary literal for the value of its digits does what is documented, and the steps of the code become such steps when the scanner has words for all digits of the text: there is nothing else to repair.", "quantifier": "all systems, command lines, source texts and machine words", "why_tests_cant": "The deviation is stated exactly for all inputs; a test would have to hit literals of more than 64 digits and could not show that there is no other one.", "anchors": ["src/main.rs: main", "src/assembler/scanner.rs: parse_12_bit_bin_str", "src/assembler/scanner.rs: Scanner::consume_bin_literal"]}
{"id": "C131", "title": "A repair of one function", "statement": "With any conversion of binary digits that gives some value of theirs up to 4095 and reports a larger one, the scanner yields the tokens of the text for these values; with the conversion of the code, which gives the value modulo the machine word, it is the scanner of the code. A conversion with one test added, which reports a value over 4095 as soon as it is reached, gives the value of the digits on every machine with words of 16 bits or more. With any conversion that does, all else unchanged, the tool does what is documented and nothing else, for every command line, system and input. Nothing less will do: if the tool does what is documented with some conversion, this gives the value of all digits whose value is up to 4095, and reports all others as out of range.", "quantifier": "all conversions, systems, command lines, source texts and machine words", "why_tests_cant": "That a repair leaves no deviation, and causes none, is a statement about all inputs and all machines; tests can only show that it removes the deviations they know.", "anchors": ["src/assembler/scanner.rs: parse_12_bit_bin_str", "src/assembler/scanner.rs: Scanner::consume_bin_literal", "src/main.rs: main"]}
{"id": "C132", "title": "A repair of the disassembly", "statement": "With any formatting that writes an immediate value as one to three hexadecimal digits of that value, as padding with zeros or none does, the assembly text of an opcode assembles to the word of the opcode exactly if it is not a shift with a second register; so the text of the opcode that a word decodes to assembles to that word for exactly the words of instructions that can be written. Of all characters to pad the values with, a zero is the only one with which this holds for all of these; the code pads with blanks.", "quantifier": "all formattings, padding characters, opcodes, words, file names and machine words", "why_tests_cant": "That a formatting leaves no opcode whose text is rejected or misread, and that no other padding does, ranges over all formattings and all opcodes; tests compare a few texts.", "anchors": ["src/assembler/opcode.rs: Opcode::to_assembly_string", "src/assembler/opcode.rs: Opcode::from_instruction"]}
{"id": "C133", "title": "A repair of the overlap check", "statement": "With the ends of ranges not reduced to twelve bits, two ranges are reported as intersecting exactly if they share an address. On the ranges that can be built, any test with this property differs from that of the code exactly if an address is shared and one of the ranges reaches $FFF. With such a test, no overlap is listed exactly if no address has two bytes, and the writer yields the text of the code then and panics otherwise, where that of the code may write two bytes for $FFF. The tool does with such a test what it does without, for every command line, system and input.", "quantifier": "all tests of two ranges, lists of ranges, systems, command lines and source texts", "why_tests_cant": "That a change removes a fault of a function and yet changes nothing that a user of the tool sees is a statement about all inputs; tests can only fail to find a difference.", "anchors": ["src/assembler/data_range.rs: DataRange::intersects", "src/assembler/data_range.rs: find_overlapping_ranges", "src/assembler/ihex_writer.rs: ihex_representation_of_data_ranges", "src/main.rs: assemble_file"]}
{"id": "C134", "title": "A repair of the names of the timers", "statement": "With the names of the two timers compared in either case, re-casing the name of any register names the same register, and a name that is not that of a register in any case is still taken for a label. For every list of tokens the parser yields what it yields without this change, with the operands spelled Dt, dT, St or sT replaced by the timers and all else, errors included, the same.", "quantifier": "all lists of tokens, names, spellings and locations", "why_tests_cant": "That a change of one comparison has exactly the intended effect on every program is a statement about all token lists; tests show it for the spellings and programs tried.", "anchors": ["src/assembler/parser.rs: Parser::parse_field_list", "src/assembler/parser.rs: parse"]}
{"id": "C135", "title": "A repair of comments after directives", "statement": "With the list of the arguments of a directive stopping at a comment as it does at a newline, any newlines and comments may stand where some stand without a change of the parsed program; in particular a comment may be added and removed at the end of every line. The parser of the code accepts exactly what the changed one accepts, with the same statements, except where a comment follows a directive without arguments or with a trailing comma; where none does, the answers are the same, errors included.", "quantifier": "all lists of tokens and all newlines and comments in them", "why_tests_cant": "That a change of one test has exactly the intended effect on every program is a statement about all token lists; tests show it for the programs tried.", "anchors": ["src/assembler/parser.rs: Parser::parse_literal_list", "src/assembler/parser.rs: parse"]}
