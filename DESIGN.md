# Formal model of martinmroz/c8s in Lean 4

## Trusted base

* Lean 4.33.0's kernel. Axioms: at most `propext`, `Classical.choice`, `Quot.sound` (the list per theorem is at
  the end of this file). No axiom of our own, no `sorry`, no `native_decide`, no `bv_decide`.
* Our reading of the Rust source: every model definition cites the file and lines it models. The code was
  not run. Unit tests and fixtures of the repository are replayed on the model (see Validation).
* The statements in `Verif/Spec`. They are written from the README, the comments and the published formats, and
  use from the model its data types (tokens, nodes, ranges, events) and `LabelMap.get`. `Spec/Calls.lean` calls the iterator it is about.
* External crates and the standard library are modelled by hand from their documented behaviour:
  * `twelve_bit::U12`: `BitVec 12`. `checked_add` is `None` above 0xFFF, `wrapping_add` is modulo 4096,
    `failable_into` succeeds iff the value fits, `unchecked_into` truncates to the low bits.
  * `regex` 0.1: the scanner model uses direct matchers for the six anchored patterns of `scanner.rs`. They are
    proved (C67) to agree with the patterns as written, read by `Spec/Regex.lean`, which defines the notation and
    leftmost-first matching in general. Trusted: that definition. `\s` is the Unicode White_Space set (table in
    `Model/Scanner.lean`).
  * `ihex` 1.0: `Record` formatting and `create_object_file_representation`.
  * `getopts` 0.2.14: the theorems about the tool hold for any command-line parser (`Getopts` is a parameter).
    C63 and C64 are about the model of the crate in `Model/Options.lean`, which also gives the help text.
  * `std`: `from_str_radix`, `to_lowercase` (as far as comparisons with ASCII words can tell, C19_lowercase; trusted: outside ASCII only
    U+212A, the Kelvin sign, has a lower case that is ASCII only), `chunks`, `HashMap` (association list; the code
    never iterates over it, and C108 allows any table), `usize` has some width of at least 16 bits (the class `Target` of `Model/Basic.lean`; 64 bits in the examples), `format!` padding and radix flags, UTF-8 lengths.
* The file system and process are a parameter: any result of open, read, create and write. The model records a
  trace of events (printed, opening, reading, created, wrote) and an exit status. C107 goes down to the single calls
  of `read` and `write`, through our reading of `read_to_end`, `write_all`, `BufWriter` and `LineWriter` of `std`.
  `std` treats a standard output that is closed (`EBADF`) as one that takes everything.

Not modelled: memory exhaustion, stack overflow other than in the two list rules of the parser (C80), wall-clock
behaviour other than the number of steps (C113), derived `Debug` output. Every function of /repo/src outside `#[cfg(test)]` has a counterpart in the model.

## Layers

| Lean | Rust | content |
| --- | --- | --- |
| `Verif/Model/Basic.lean` | std | `Run` (return or panic), strings as code point lists, UTF-8 lengths, byte slicing, radix parsing and formatting |
| `Verif/Model/Token.lean` | token.rs, source_file_location.rs | locations, tokens, their display |
| `Verif/Model/Scanner.lean` | scanner.rs | byte-offset scanner with explicit panics |
| `Verif/Model/Parser.lean` | parser.rs | two-token lookahead parser over a list of tokens, with explicit fuel |
| `Verif/Model/Stream.lean` | parser.rs | the same parser over an arbitrary iterator, pulling tokens where the code does (C68 relates the two) |
| `Verif/Model/Directive.lean` | directive.rs | directive validation |
| `Verif/Model/Opcode.lean` | opcode.rs | encode, decode, disassembly |
| `Verif/Model/Instruction.lean` | instruction.rs | mnemonic matching |
| `Verif/Model/DataRange.lean` | data_range.rs | ranges, overlap |
| `Verif/Model/Assembler.lean` | assembler.rs | pass 1, pass 2 |
| `Verif/Model/Errors.lean` | parser.rs, directive.rs, instruction.rs, assembler.rs | `description` and `cause` |
| `Verif/Model/IHex.lean` | ihex_writer.rs and the ihex crate | hex output |
| `Verif/Model/Main.lean` | main.rs | the tool as a trace of events |
| `Verif/Model/Profile.lean` | all | the tool once more, with `+` and `-` on `usize` and `u16` that panic or wrap around (debug and release builds) |
| `Verif/Model/Console.lean` | main.rs | the tool on a standard output that can fail: `println!` panics |
| `Verif/Model/Bytes.lean` | main.rs, std | arguments and input as bytes, UTF-8 |
| `Verif/Model/Process.lean` | main.rs | `main` with bytes and a standard output that can fail |
| `Verif/Model/System.lean` | main.rs, std | reading and writing call by call; the line buffer of standard output |
| `Verif/Model/Table.lean` | assembler.rs, instruction.rs | the assembler with the labels in any table; a hash table |
| `Verif/Model/Stack.lean` | parser.rs | the parser with room for a given number of nested list calls |
| `Verif/Model/Work.lean` | scanner.rs, parser.rs, assembler.rs, data_range.rs | all stages with a count of their steps |
| `Verif/Model/Options.lean` | main.rs and the getopts crate | the command line |
| `Verif/Spec/*.lean` | README, comments | independent specifications, listed below |
| `Verif/Proofs/*.lean` | | lemmas |
| `Verif/Props/*.lean` | | the property theorems and their witnesses |
| `Verif/Validation/*.lean` | tests | unit tests and fixtures replayed on the model |

Panics are explicit: a Rust function that can panic returns `Run α`. Mutation through `&mut self` returns the
new state. Numbers on a machine word are unbounded except in `Model/Profile.lean`; C105 shows that this makes no
difference for texts that fit in memory. Loops and recursion over tokens take explicit fuel; running out is reported as `panic`, and the
no-panic theorems therefore also prove termination within linear fuel. `patchedLoop` and `patchedBinStr` in
`Model/Patch.lean` are a proposed change and not code of the repository; only C131 is about them. So is `textWith` in
`Model/PatchText.lean`, with other formattings than that of the code; only C132 is about it, `intersectsWide` in `Model/PatchRange.lean`, for C133 only, and
`fieldOfAnyCase` in `Model/PatchNames.lean`, for C134 only, and `parseStop` in `Model/PatchComment.lean`, for C135 only.

Specifications: `Lexical` (token grammar, maximal munch), `Pieces` (how tokens cover the text), `Locations`,
`Grammar` (statements), `Cut` (text to statements without tokens), `Source` (statements to canonical text), `Case`
(ASCII letter case), `Directive`, `Operand`, `Isa` (the README's table as patterns such as `3xkk`), `Opcode` (bit
patterns), `Layout` (addresses, faults, validity), `Memory` (images), `Overlap`, `IntelHex` (a reader of the
published format), `Tool` (event traces), `Calls` and `Stream` (iterators), `Diagnostics` (printed locations),
`Rewrite` (label renaming and program transformations), `Image` (memory contents to text), `CommandLine` (option
grammar), `Regex`, `Endings` (line endings), `Place` (where a literal may stand in a text), `Edit`
(statements of a text, parts of the same size), `Size` (number of records), `Files` (what events do to the files),
`Reports` (lines printed), `Words` (the instruction words by their digits), `Utf8`, `Depth` (list lengths),
`Complaints` (the messages and when they are the case),
`Respell` (letter case, other spellings of tokens),
`Bounds` (states a tokenizer can reach, parts of a statement),
`Blocks` (blocks of an object file, start of the last section),
`Reorder` (parts of a file),
`Insert` (places for new statements, instructions that take an address),
`Provenance` (the statement a byte comes from, order of locations),
`Listing` (texts of opcodes as lines, words as bytes),
`Aliases` (instructions that say the same),
`Flow` (steps of the machine, after the README function column, and in the source text),
`Running` (executions with effects, memory, stores),
`Slips` (one error in a text),
`Chip8` (an interpreter, and the meaning of the instructions),
`Printed` (printable characters, verbatim parts of tokens),
`Crash` (registers that do not exist),
`System` (the calls of the system under reading and writing),
`Table` (a table that finds what was inserted),
`ByLine` (the outcome of the syntax check),
`Repair` (rounds of repair),
`Link` (linking object files),
`Alphabet` (the characters of a source text),
`Work` (the size of a program),
`Packed` (where white space is needed),
`Rebased`, `GoesAlong` (a section given another address),
`Neighbours`, `CarriedOver` (pieces that change places),
`Comments` (lines turned into comments),
`Breaks` (open lists, statements on one line),
`Possible` (the reports that can occur),
`Adjust` (limits of operands, a program with a constant),
`Remove` (statements taken out),
`Transfer` (definitions of a label in other places),
`Automaton` (readers with a memory of limited size),
`Written` (the object files there can be),
`Whole` (the tool),
`Steps` (the steps),
`Depends` (what a run depends on),
`Skeleton` (the tool with its steps left open),
`Documented` (the documented behaviour, and where the tool departs from it),
`Patch` (the scanner with any conversion of binary digits, and a repaired conversion),
`PatchText` (the text of opcodes with any formatting of the values),
`PatchNames` (operands and statements with the names of the timers replaced),
`PatchComment` (the syntax in which newlines and comments are alike, and where the code differs from it).

## Plan per property

| id | model | proof |
| --- | --- | --- |
| C01 | byte-offset scanner, `scan` iterates `next_token` | invariant: position is a char boundary; refinement to a list scanner |
| C02, C03, C08, C09 | lexical grammar as an inductive relation `Lex` | `scan` returns exactly the unique `Lex` sequence |
| C04 | locations in `Lex` are computed from the consumed prefix | invariant on line and column |
| C05-C07 | positional value in the specification | induction on digits; counterexample for C07 beyond the width of the machine word |
| C10-C12, C15, C54 | parser state machine with fuel | refinement to an inductive grammar; correct-prefix property by case analysis |
| C13, C14 | renderer from statements to text | compose the two grammar theorems |
| C16, C17 | operand classification | case analysis; counterexample `Dt` |
| C18-C20 | directive validation | induction on the argument list |
| C21-C25 | matching function against an independent table of the README with patterns such as `3xkk` | case analysis on operands |
| C26, C27 | encode and decode on bit vectors | bit-field arithmetic |
| C28 | disassembly string through the real scanner and parser model | partial: full-width values; counterexamples |
| C29-C37, C51, C52 | two passes against a one-pass layout specification | induction with the invariant address = start + length |
| C38-C41 | ranges on 12-bit addresses | invariant start + length <= 4096; counterexample at $FFF |
| C42-C44 | writer against an independent Intel HEX reader | induction on chunks |
| C45-C50 | trace of events | case analysis, composition of everything above |
| C53 | `Lex` | locality of the grammar: a line break resets the column |
| C55, C56 | locations as a parameter | naturality of scanner, parser and assembler in the file name; locations of pieces |
| C57-C60 | program transformations | congruence of layout and encoding under changes of label maps |
| C61, C62 | concatenation of programs | layout of `p ++ .org :: q`; images of sections commute |
| C63, C64 | getopts | the parser accepts exactly an inductive grammar of words; case analysis of `main` |
| C65, C66 | images to source text | C13 and C33 composed; the text of an image assembles to it |
| C67 | matchers against patterns | induction on the text with the derivative-free `ends` semantics |
| C68 | iterator parser against list parser | simulation: both states have the same tokens left |
| C69 | errors | case analysis |
| C70 | texts with carriage returns | induction on `Lex`: tokens agree up to newlines and comments; the grammar does not look at those |
| C71 | programs with a replaced part | the labels agree (`labelsOf_congr`), so that all other statements emit the same bytes; texts through `Statements` of whole lines |
| C72 | first part of a program | labels of the first part have the same values in the whole; induction on the sections |
| C73 | rejected whole lines | the first deviation from the grammar is in a prefix of the tokens; `Longest` matches of finished lines do not change |
| C74 | lists of ranges, runs | sum over the records; the ranges of an assembled program are disjoint and in memory |
| C75 | files before and after runs | cases of a run; the trace of events interpreted on a map from paths to bytes |
| C76 | runs | cases of a run |
| C77 | runs on a failing standard output | induction on the trace of events |
| C78 | words | by opcode in one direction, by digits in the other; the round trip of source text |
| C79 | bytes, runs | arithmetic on code points by length of the form; cases of a run |
| C80 | token lists | induction on the room and on the statements |
| C81 | messages | case analysis over the faults of C51 and the errors of the lexical grammar |
| C82 | letter case in texts | induction over the lexical grammar, token by token, and over the statements in both passes |
| C83 | notations of numbers | tokens without locations, as for C55 |
| C84 | search and replace | induction over the grammar, then C57 and C82 |
| C85 | superfluous `.org`s | the same labels and image by induction over the statements behind it |
| C86 | bounds by the size of the source | invariant of the scanner, induction over the grammar |
| C87 | equal object files | blocks determined by the lines (C42), lines by the blocks; induction over a range |
| C88 | order of sections in a file | C52 and C53 part by part, then C45 and C47 |
| C89 | inserted statements | labels by `Reaches` over the three parts; words by encoding; bytes by unique writes |
| C90 | calls of the iterator | budgeted iterator; cost by induction over outcomes and error positions; simulation for unread answers |
| C91 | source of each byte | induction over `Writes`, with the index of the statement; locations by the text before each piece |
| C92 | listings | cut of each line, joined over whole lines; a padded line has a lexical error; the bytes by the layout relation |
| C93 | instructions with the same word | the opcode is determined by the word (C26) and determines row and operands; induction over the bytes |
| C94 | labels named like registers | operands of parsed text are formed (C13), then C60 |
| C95 | is_at_end | invariant of the reachable states of the scanner (C86) |
| C96 | order of execution | simulation between steps in the source and steps of the machine, in both directions, and induction on executions |
| C97 | running programs | the simulation of C96 with memory, intact where the instructions are; C45 for the file |
| C98 | damaged object files | a reversible automaton accepts every readable file; an error leads to another state, from which there is no way back |
| C99 | interpreter | each of the 38 forms of instruction: decoding the number and doing the operation agree; induction on the run, with C96 and C97 for the order |
| C100 | grammar | induction on the program for the place of a literal; the bytes of the changed instruction by C22, the addresses of the labels do not change |
| C101 | machine word | the tokens by induction on the lexical grammar, the longest matches of both widths agree; then the run as a function of the tokens |
| C102 | directives | three upper-case digits read as the value; a blank after $ and a digit after [ begin no token; the digits give back the number |
| C103 | messages | every part of a message is a fixed text, a number, a name of the language, or one of the two verbatim parts; the classes of messages of C76 and C81 |
| C104 | assembler | an instruction is encoded, fails, or has a missing register; the second pass goes through all statements before the first instruction without a word |
| C105 | build profiles | a second model of the tool with machine arithmetic; at every place the scanner visits, the sums are bounded by the size of the text (C86); ranges stay in memory during the second pass |
| C106 | messages | messages with a location are split into the location, one of fourteen beginnings that differ from each other within their length, and a rest whose parts end where a character of another kind comes; a message about the end of the file has no digit |
| C107 | reads and writes | induction on the answers of the system; standard output is a buffer that has no newline in it after any successful write; the object file ends in one |
| C108 | labels | the two passes over any table, related to those over the association list by induction on the statements; a chained hash table keeps every entry in the chain of its key |
| C109 | syntax | induction on the grammar: the outcome of the tokens after an accepted text that ends in a newline is that of those tokens alone; then induction on the lines |
| C110 | assembly | first-fault characterisation (C51, C104); the first pass does not look at mnemonics and operands; induction on the rounds with a rank |
| C111 | tool | C109 for the statements, joining of sections (C61), the object file as lines of blocks (C87), induction on the parts |
| C112 | scanner | induction on the lexical structure: a character that begins no token extends only comments and strings |
| C113 | all stages | an instrumented copy of every stage with the same results; potential arguments for the number of steps |
| C114 | scanner | which characters continue which tokens; induction on the tokens of a text |
| C115 | assembler | the addresses of statements and labels before, in and behind the section; C91 for the bytes |
| C116 | assembler | the addresses of the four parts in both orders; the limits of memory by the end of both pieces; C91 for the bytes |
| C117 | assembler | the label values without the definition (C60); the first instruction that has no encoding |
| C118 | scanner, parser, tool | a comment line has no statements; C109 for the text before and behind it |
| C119 | parser | the lists that are open at the end of a token sequence; the outcome of a sequence behind whole statements |
| C120 | scanner, parser, assembler | the reports are read off the specifications of C10, C11 and C104; a witness text for each report, by C13 |
| C121 | assembler, instruction | the word of each row of the table is a fixed part plus the number; label values with and without the definition (C35) |
| C122 | assembler | C89 in the other direction; an instruction can be encoded when its number gets smaller (C121) |
| C123 | assembler | both programs have the result of one with a constant in front of everything, to which C121 applies |
| C124 | syntax | an automaton on tokens that follows the grammar, another on characters that follows the tokens; pairs of texts that have to be told apart |
| C125 | output | the blocks of the ranges are the records (C87); in the other direction the source of C65 for one range per record |
| C126 | whole tool | the cases of the specification are disjoint and cover everything; each is a theorem on the runs in it (C64, C76, C81, C87, C104); reports of syntax errors are unique since the place and the kinds named are determined; in bytes by C79, on a failing standard output by C77 |
| C127 | steps | parser errors: C15, C54 and the uniqueness of the place and the kinds (C126); assembler: C34, C104; writer: C87, C42, C39 |
| C128 | dependence | the cases of the specification of the tool (C126) carry over to the other environment and the other name |
| C129 | modularity | each specification of a step has one result, so a correct step equals that of the model; composition then gives C126 |
| C130 | documentation | on a machine with words wide enough for the text the two readings of literals agree; C101 and C126 relate this machine to the given one |
| C131 | repair | the scanner proof of C03 for any conversion; the accumulator stays below 8192, so a 16-bit word loses nothing; then C130 |
| C132 | repair | the disassembly proof of C28 for any formatting of the values; for another padding the text of one jump is rejected or has another value |
| C133 | repair | C39 gives where the tests differ; assembled ranges end at $FFF at most (C37), so the steps with another exact test are correct steps (C129) |
| C134 | repair | the parser does not look at the operands it has made: by induction on its loops, replacing them commutes with parsing; then C16 |
| C135 | repair | the changed parser accepts a grammar in which newlines and comments are alike (as C11); induction on that grammar for runs of them; induction on the outcomes of the parser for the comparison |

Every property of the list can be expressed in the model; none is marked not applicable.

## What was found

Six properties do not hold as one would state them. For each the negation is proved with a witness
(`..._claim_false`), the strongest version we found is proved with the suffix `_partial`, and where the exact
boundary is known it is part of the statement.

* C07: `checked_shl(1)` never answers `None`, so a binary literal with more digits than the machine word has bits loses its high digits and
  can be accepted with a small value. So a build for a 32-bit machine accepts texts that a 64-bit build rejects (C101).
* C14: a comment may not follow an open list of literals: `.db 1, ; x` is an error, as is `cls` at the end of
  a file without line break, although `cls ; x` is accepted there.
* C16: `Dt`, `dT`, `St` and `sT` are labels, while `dt` and `DT` are registers.
* C28: `{:3x}` and `{:2x}` pad with blanks, so `jp $5` is disassembled as `jp $  5`, which does not scan; the text of
  `shr` and `shl` drops the second register.
* C102: `{:3X}` pads the values of `.org` and `.equ` with blanks in the same way, so `.org $20` displays as `.org $ 20`.
* C103: a string literal and an invalid character are printed unescaped, so a source file can send control characters to
  the terminal, and an unexpected string literal with an end of line can forge the look of a second message.
* C39: the end of a range that ends at $FFF wraps to 0, so no intersection is found. Assembled programs never reach
  $FFF (C31), so overlap detection is complete for them (C41).
* C100: README.md says that any literal can be given via a label, and of the numerals valid in directives that they may
  be labels; a label in a directive is rejected.

Other observations, each of them a theorem or an example:

* `tests/test_directives.S` is rejected (a constant without a label) although there is a fixture of its output.
* `$1234` is read as `$123` followed by `4`. Several statements may stand on one line. Strings may contain line
  breaks; a backslash at the end of a line in a string is an error, unless a carriage return follows it (C70). A
  label named like a register can be defined but not used.
* The byte at $FFF can never be emitted (C31_last_byte, C65_last).
* An empty argument vector makes the tool panic (C46_no_program_name). `-o -h` writes to the file `-h` (C64_next_word).

* The input may be named as the output, and is then replaced (C75). A byte order mark is an error (C79). The parser
  recurses once per list element, so long lists can exhaust the stack (C80).
* The API takes `s\u{212A}p`, with a Kelvin sign, for `skp`. Such a name cannot come from a source text.
* A `.db` of exactly 4096 bytes is said to exceed 4096 bytes (C81_not_larger). A literal that begins with `#` is said
  to start with `$`.
* The errors for an invalid decimal literal and an invalid identifier are never reported (C120_never).

## Validation of the model

`Verif/Validation` replays every unit test of /repo/src and the fixtures in
/repo/tests on the model; the kernel evaluates both sides. These are tests of fidelity, not proofs of properties.

## Wrong programs

`seeded/LOG.jsonl` records experiments in which one definition of a copy of the model was changed the way a
realistic mistake would change it, with the theorems that no longer proved. When a change that falsifies a claim
left its theorems provable, the theorems were tightened.

## Axioms per theorem

Written by `#print axioms` for every theorem in MANIFEST.json, all in namespace `C8S`.

* propext: `C56_unambiguous`, `C112_outside_ascii`.
* Quot.sound, propext: `C38_built_iff_inMemory`, `C38_append`, `C39_claim_false`, `C40_listing`, `C69_has_cause`, `C87_blocks`, `C95_start`, `C105_append`, `C107_read`, `C113_overlaps`, `C131_patch`, `C133_exact`.
* Classical.choice, Quot.sound, propext: `C01_total`, `C02_pieces`, `C03_grammar`, `C03_determined`, `C03_intended`, `C04_locations`, `C04_positive`, `C05_hexadecimal`, `C05_range`, `C05_value`, `C06_rejected`, `C06_accepted`, `C07_rejected`, `C07_accepted`, `C07_rejected_partial`, `C07_claim_false`, `C08_fused`, `C08_error_last`, `C08_error_once`, `C09_at_line_start`, `C09_string`, `C09_unclosed`, `C09_comment`, `C09_string_body`, `C09_comment_body`, `C10_total`, `C10_consumed`, `C11_grammar`, `C11_unique`, `C11_rejects`, `C11_append`, `C12_error`, `C13_round_trip`, `C13_formed`, `C13_format`, `C14_blank_lines`, `C14_leading`, `C14_remove_comment`, `C14_add_comment_partial`, `C14_trailing`, `C14_claim_false`, `C14_blank_separates`, `C14_respaced`, `C14_respaced_output`, `C14_amount`, `C14_lines`, `C14_comment_added_partial`, `C14_comment_removed`, `C14_comment_at_end`, `C14_comment_rejected`, `C14_text_claim_false`, `C15_token`, `C15_end`, `C15_prefix`, `C16_claim_false`, `C16_case_partial`, `C17_operand_iff`, `C17_total`, `C17_register_iff`, `C17_label`, `C18_accepted_iff`, `C18_rejected_iff`, `C18_valid_iff`, `C19_directive`, `C19_directive_error`, `C19_mnemonic`, `C19_mnemonic_error`, `C19_lowercase`, `C20_db`, `C20_bytes_unique`, `C20_others`, `C21_word_iff`, `C21_error_iff`, `C22_label_for_literal`, `C23_byte`, `C23_nibble`, `C23_value`, `C24_undefined`, `C24_defined`, `C24_lookup`, `C25_two_bytes`, `C25_panic_only`, `C26_decode_encode`, `C26_encode_injective`, `C27_encode_decode`, `C27_nop_iff`, `C28_reassembles_partial`, `C28_decoded_partial`, `C28_padded`, `C28_shift`, `C28_claim_false`, `C29_labels`, `C29_first_byte`, `C30_duplicates`, `C30_reported`, `C30_exact`, `C31_in_memory`, `C31_rejected`, `C31_last_byte`, `C32_passes_agree`, `C33_image`, `C33_labels`, `C34_valid`, `C34_invalid`, `C35_move`, `C35_unused`, `C36_stray`, `C36_reported`, `C36_located`, `C37_sections`, `C37_nonempty`, `C37_starts`, `C39_intersects_partial`, `C40_mem`, `C40_empty_iff`, `C41_overlap`, `C42_decodes`, `C42_injective`, `C43_lines`, `C43_sizes`, `C43_one_end`, `C44_panics_iff`, `C44_assembled`, `C45_failure`, `C45_output`, `C45_success`, `C45_status`, `C45_status_iff`, `C46_no_panic`, `C46_no_program_name`, `C47_iff`, `C47_content`, `C47_unique`, `C47_intended`, `C48_same_content`, `C48_destination`, `C48_stdout_only`, `C49_parse_error_display`, `C49_semantic`, `C49_printed`, `C49_overlap_reports`, `C49_range_display`, `C50_help_version`, `C50_usage`, `C50_assembles`, `C51_first_fault`, `C51_error_iff`, `C51_local`, `C51_unique`, `C52_ranges`, `C52_labels`, `C52_memory`, `C53_lines`, `C54_expected`, `C54_complete`, `C54_token_iff`, `C54_end_iff`, `C55_file_name`, `C55_parse`, `C55_assemble`, `C55_describes`, `C55_run`, `C56_token`, `C56_syntax`, `C56_semantic`, `C57_renamed`, `C57_error`, `C57_text`, `C57_needs_injective`, `C58_inlined`, `C58_error`, `C58_plain`, `C58_text`, `C59_replaced`, `C59_data`, `C59_split`, `C59_encoded`, `C60_unused`, `C60_added`, `C60_needs_place`, `C60_constant`, `C61_joined`, `C61_text`, `C62_moved`, `C62_labels`, `C63_accepted`, `C63_rejected`, `C63_one_meaning`, `C63_total`, `C64_help`, `C64_version`, `C64_assembles`, `C64_usage`, `C64_wrong`, `C64_order`, `C64_spellings`, `C64_next_word`, `C65_source`, `C65_reachable`, `C65_same_run`, `C65_memory`, `C65_last`, `C66_idempotent`, `C66_same_text`, `C66_same_program`, `C67_whitespace`, `C67_string`, `C67_hexadecimal`, `C67_binary`, `C67_decimal`, `C67_identifier`, `C68_iterator`, `C68_scanner`, `C68_interleaved`, `C69_cause`, `C69_kind`, `C69_other_kinds`, `C69_scan_kind`, `C70_statements`, `C70_removed`, `C70_output`, `C70_needs_one_line`, `C71_labels`, `C71_accepted`, `C71_bytes`, `C71_ranges`, `C71_text`, `C71_text_accepted`, `C71_needs_size`, `C72_prefix`, `C72_assembles`, `C72_text`, `C72_text_accepted`, `C72_needs_place`, `C73_tokens`, `C73_not_end`, `C73_lines`, `C73_run`, `C73_layout`, `C73_needs_closed`, `C74_length`, `C74_characters`, `C74_bytes`, `C74_bound`, `C74_tool`, `C74_attained`, `C75_others`, `C75_command_line`, `C75_success`, `C75_prefix`, `C75_again`, `C75_order`, `C75_in_place`, `C76_open`, `C76_read`, `C76_overlap`, `C76_create`, `C76_write`, `C76_silent`, `C76_failed`, `C77_files`, `C77_cases`, `C77_file_cases`, `C77_panics`, `C77_status`, `C77_assembly`, `C78_decoded`, `C78_words`, `C78_source`, `C79_decode`, `C79_arguments`, `C79_panics`, `C79_input`, `C79_iff`, `C79_status`, `C79_reads`, `C79_byte_order_mark`, `C80_same`, `C80_commas`, `C80_tokens`, `C80_enough`, `C80_needed`, `C80_unbounded`, `C81_semantic`, `C81_justified`, `C81_syntax`, `C81_not_larger`, `C82_tokens`, `C82_program`, `C82_output`, `C82_matters`, `C83_notations`, `C83_read`, `C83_number`, `C83_respelled`, `C84_replaced`, `C84_one`, `C85_dropped`, `C85_text`, `C85_needs_place`, `C85_last`, `C85_trailing`, `C85_leading`, `C85_labels`, `C85_labels_constant`, `C86_scanner`, `C86_locations`, `C86_tokens`, `C86_statements`, `C86_output`, `C86_file`, `C87_same`, `C87_cut`, `C87_org`, `C87_org_needs`, `C88_moved`, `C88_status`, `C88_memory`, `C88_needs_org`, `C89_labels`, `C89_word`, `C89_accepted`, `C89_bytes`, `C89_text`, `C89_needs_unused`, `C89_needs_address`, `C90_accepted`, `C90_rejected`, `C90_end`, `C90_unread`, `C91_bytes`, `C91_overlap`, `C91_unique`, `C91_tokens`, `C91_statements`, `C91_text`, `C92_indented`, `C92_listing`, `C92_origin`, `C92_accepted`, `C92_decoded`, `C93_one_meaning`, `C93_same_word`, `C93_programs`, `C94_not_referred`, `C94_label`, `C94_constant`, `C95_at_end`, `C95_ends`, `C95_exact`, `C95_trailing_blank`, `C96_fetches`, `C96_executes`, `C96_follows`, `C96_stays`, `C96_goes_on`, `C97_executes`, `C97_follows`, `C97_store_free`, `C97_file`, `C98_lines`, `C98_reordered`, `C98_readable`, `C98_detected`, `C98_cut_off`, `C98_followed`, `C98_complete`, `C98_missing_record`, `C99_runs`, `C99_follows`, `C99_store_free`, `C99_stops`, `C99_file`, `C100_directive`, `C100_label_partial`, `C100_text_partial`, `C100_directive_text`, `C100_claim_false`, `C101_tokens`, `C101_short`, `C101_run`, `C101_agree`, `C102_read_back`, `C102_rejected`, `C102_same`, `C103_semantic`, `C103_token`, `C103_lexical`, `C103_end`, `C103_overlap`, `C103_all`, `C104_instruction`, `C104_panic`, `C104_error`, `C105_tokens`, `C105_assemble`, `C105_file`, `C105_main`, `C105_builds`, `C105_range`, `C105_range_wraps`, `C106_one`, `C106_messages`, `C106_files`, `C106_operands`, `C107_write`, `C107_stdout`, `C107_lines`, `C107_same_run`, `C107_received`, `C107_messages`, `C107_printed`, `C108_any_table`, `C108_hash_table`, `C108_seed`, `C109_after`, `C109_statements`, `C109_first_error`, `C109_accepted`, `C109_repair`, `C110_layout`, `C110_instruction`, `C110_reported`, `C110_rounds`, `C110_places`, `C110_upwards`, `C111_linked`, `C111_unique`, `C111_shared`, `C111_missing`, `C111_alone`, `C112_reported`, `C112_where`, `C112_rejected`, `C112_byte_order_mark`, `C113_same`, `C113_scanner`, `C113_parser`, `C113_assembler`, `C113_linear`, `C113_quadratic`, `C114_runs_on`, `C114_made`, `C114_same`, `C114_packed`, `C115_labels`, `C115_accepted`, `C115_kept`, `C115_patched`, `C115_image`, `C115_distance`, `C115_text`, `C116_labels`, `C116_accepted`, `C116_kept`, `C116_patched`, `C116_image`, `C116_text`, `C117_removed`, `C117_needed`, `C117_constant`, `C117_constant_needed`, `C117_misspelt`, `C117_supplied`, `C117_supplied_constant`, `C118_empty`, `C118_run`, `C118_statements`, `C118_output`, `C118_last`, `C118_next`, `C118_needs_closed`, `C119_final`, `C119_join`, `C119_insert`, `C119_text`, `C119_one_line`, `C120_lexical`, `C120_never`, `C120_syntax`, `C120_semantic`, `C121_accepted`, `C121_reported`, `C121_addresses`, `C121_kept`, `C121_word`, `C121_text`, `C122_removed`, `C122_addresses`, `C122_text`, `C122_needs_data`, `C123_same`, `C123_accepted`, `C123_reported`, `C123_addresses`, `C123_kept`, `C123_word`, `C123_text`, `C124_tokens`, `C124_text`, `C124_tokens_least`, `C124_labels`, `C125_files`, `C125_source`, `C125_lines`, `C125_joined`, `C126_complete`, `C126_unique`, `C126_file`, `C126_text`, `C126_console`, `C126_bytes`, `C126_process`, `C126_process_unique`, `C126_builds`, `C127_parse`, `C127_parse_unique`, `C127_assemble`, `C127_write_built`, `C127_write`, `C128_answers`, `C128_asked`, `C128_touches`, `C128_none`, `C128_refused`, `C128_name`, `C129_steps`, `C129_sufficient`, `C129_code`, `C129_run`, `C129_process`, `C130_unique`, `C130_deviates`, `C130_success`, `C130_exact`, `C130_short`, `C130_repaired`, `C130_repair`, `C131_scan`, `C131_code`, `C131_tool`, `C131_patched`, `C131_needed`, `C132_code`, `C132_repaired`, `C132_decoded`, `C132_formats`, `C132_padding`, `C133_code`, `C133_differs`, `C133_listing`, `C133_writer`, `C133_tool`, `C134_code`, `C134_changes`, `C134_repaired`, `C134_labels`, `C135_grammar`, `C135_returns`, `C135_comment`, `C135_runs`, `C135_same`, `C135_exact`.
