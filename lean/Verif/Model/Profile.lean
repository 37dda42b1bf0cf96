import Verif.Model.Main

/-
The tool with the arithmetic of a machine word. In the other files of the model positions, lines, columns and lengths are
natural numbers. Here every `+` and `-` on a `usize` or `u16` in /repo/src is an operation that can leave the range of
its type. A build with overflow checks (the default of `cargo build`) then panics, a build without (`cargo build
--release`) wraps around. Functions without such arithmetic are those of the other files. The functions below are those
of the other files with the arithmetic replaced.
-/

namespace C8S

/-- The two build profiles of cargo — Cargo.toml has no section for profiles. -/
inductive Profile where
  | debug
  | release
  deriving DecidableEq, Repr

namespace Profile

/-- `a + b` on an unsigned type of `bits` bits — for example scanner.rs:404-420. -/
def addBits (p : Profile) (bits a b : Nat) : Run Nat :=
  if a + b < 2 ^ bits then .ret (a + b)
  else
    match p with
    | .debug => .panic
    | .release => .ret ((a + b) % 2 ^ bits)

/-- `a + b` on a `usize` — for example scanner.rs:393. -/
def add [Target] (p : Profile) (a b : Nat) : Run Nat := p.addBits usizeBits a b

/-- `a - b` on a `usize` — data_range.rs:29, 65-66. -/
def sub [Target] (p : Profile) (a b : Nat) : Run Nat :=
  if b ≤ a then .ret (a - b)
  else
    match p with
    | .debug => .panic
    | .release => .ret ((a + 2 ^ usizeBits - b) % 2 ^ usizeBits)

/-- `Display for SourceFileLocation` — source_file_location.rs:24-31, with the sum and the difference of line 28. -/
def showLoc [Target] (p : Profile) (l : Loc) : Run Str :=
  if l.length = 1 then
    .ret (l.fileName ++ ":".toList ++ showDec l.line ++ ":".toList ++ showDec l.location)
  else do
    let e ← p.add l.location l.length
    let last ← p.sub e 1
    return l.fileName ++ ":".toList ++ showDec l.line ++ ":".toList ++ showDec l.location ++ "-".toList ++ showDec last

/-! ### Scanner -/

/-- The sum of `advance_by` — scanner.rs:396. -/
def countBytes [Target] (p : Profile) : Str → Nat → Run Nat
  | [], acc => .ret acc
  | c :: s, acc => do
    let acc ← p.add acc c.utf8Size
    p.countBytes s acc

/-- The character loop of `advance_by` — scanner.rs:399-415, with the sums of lines 405, 408 and 412. -/
def advanceLoop [Target] (p : Profile) : Str → Nat × Nat × Nat → Run (Nat × Nat × Nat)
  | [], st => .ret st
  | c :: s, (newlines, first, offset) => do
    let offset ← p.add offset 1
    let first ← (if newlines = 0 then p.add first 1 else .ret first)
    if c = '\n' then do
      let newlines ← p.add newlines 1
      p.advanceLoop s (newlines, first, 1)
    else p.advanceLoop s (newlines, first, offset)

/-- `advance_by` — scanner.rs:392-423, with the sums of lines 393, 419 and 420. -/
def advanceBy [Target] (p : Profile) (s : Scanner) (bytes : Nat) : Run (Loc × Scanner) := do
  let sliceEnd ← p.add s.position bytes
  let range ← slice s.input s.position sliceEnd
  let total ← p.countBytes range 0
  rustAssert (total == bytes)
  let (newlines, first, offset) ← p.advanceLoop range (0, 0, s.currentLineOffset)
  let location ← Loc.new s.fileName s.currentLine s.currentLineOffset first
  let position ← p.add s.position bytes
  let line ← p.add s.currentLine newlines
  return (location, { s with position := position, currentLine := line, currentLineOffset := offset })

/-- `char_at` — scanner.rs:384-386. -/
def charAt [Target] (p : Profile) (s : Scanner) (offset : Nat) : Run Char := do
  let start ← p.add s.position offset
  let t ← sliceFrom s.input start
  rustUnwrap t.head?

/-- `consume_char` — scanner.rs:376-379. -/
def consumeChar [Target] (p : Profile) (s : Scanner) : Run (Char × Loc × Scanner) := do
  let value ← p.charAt s 0
  let (loc, s') ← p.advanceBy s value.utf8Size
  return (value, loc, s')

/-- `consume_whitespace` — scanner.rs:128-136. -/
def consumeWhitespace [Target] (p : Profile) (s : Scanner) : Run Scanner := do
  let t ← sliceFrom s.input s.position
  match reWhitespace t with
  | some n => do
    let (_, s') ← p.advanceBy s n
    return s'
  | none => return s

/-- `consume_newline` — scanner.rs:141-145. -/
def consumeNewline [Target] (p : Profile) (s : Scanner) : Run (Token × Scanner) := do
  let (value, loc, s') ← p.consumeChar s
  rustAssert (value == '\n')
  return (.newline loc, s')

/-- `consume_string_literal` — scanner.rs:151-171, with the sums and the difference of lines 158 and 159. -/
def consumeStringLiteral [Target] (p : Profile) (s : Scanner) : Run (Token × Scanner) := do
  let t ← sliceFrom s.input s.position
  match reString t with
  | some n => do
    let sliceStart ← p.add s.position '"'.utf8Size
    let matchEnd ← p.add s.position n
    let sliceEnd ← p.sub matchEnd '"'.utf8Size
    let body ← slice s.input sliceStart sliceEnd
    let (loc, s') ← p.advanceBy s n
    return (.stringLiteral body loc, s')
  | none => s.fail .invalidStringLiteral

/-- `consume_hex_literal` — scanner.rs:177-197, with the sums of lines 184 and 185. -/
def consumeHexLiteral [Target] (p : Profile) (s : Scanner) : Run (Token × Scanner) := do
  let t ← sliceFrom s.input s.position
  match reHex t with
  | some n => do
    let sliceStart ← p.add s.position '$'.utf8Size
    let sliceEnd ← p.add s.position n
    let digits ← slice s.input sliceStart sliceEnd
    let (loc, s') ← p.advanceBy s n
    let value ← rustUnwrap (fromStrRadix usizeBits 16 digits)
    return (.numericLiteral value loc, s')
  | none => s.fail .invalidHexadecimalLiteral

/-- `consume_bin_literal` — scanner.rs:204-234, with the sums of lines 211 and 212. -/
def consumeBinLiteral [Target] (p : Profile) (s : Scanner) : Run (Token × Scanner) := do
  let t ← sliceFrom s.input s.position
  match reBin t with
  | some n => do
    let sliceStart ← p.add s.position '$'.utf8Size
    let sliceEnd ← p.add s.position n
    let digits ← slice s.input sliceStart sliceEnd
    let (loc, s') ← p.advanceBy s n
    match parse12BitBinStr digits with
    | .ok value => return (.numericLiteral value loc, s')
    | .error e => return (.error e loc, { s' with position := byteLen s.input })
  | none => s.fail .invalidBinaryLiteral

/-- `consume_decimal_literal` — scanner.rs:240-272, with the sum of line 248. -/
def consumeDecimalLiteral [Target] (p : Profile) (s : Scanner) : Run (Token × Scanner) := do
  let t ← sliceFrom s.input s.position
  match reDec t with
  | some n => do
    let sliceEnd ← p.add s.position n
    let digits ← slice s.input s.position sliceEnd
    match fromStrRadix usizeBits 10 digits with
    | some value =>
      if value ≤ 4095 then do
        let (loc, s') ← p.advanceBy s n
        return (.numericLiteral value loc, s')
      else do
        let (loc, s') ← p.advanceBy s n
        return (.error (.decimalLiteralOutOfRange digits) loc, { s' with position := byteLen s.input })
    | none => do
      let (loc, s') ← p.advanceBy s n
      return (.error (.decimalLiteralOutOfRange digits) loc, { s' with position := byteLen s.input })
  | none => s.fail .invalidDecimalLiteral

/-- `consume_identifier` — scanner.rs:278-296, with the sum of line 285. -/
def consumeIdentifier [Target] (p : Profile) (s : Scanner) : Run (Token × Scanner) := do
  let t ← sliceFrom s.input s.position
  match reIdent t with
  | some n => do
    let sliceEnd ← p.add s.position n
    let name ← slice s.input s.position sliceEnd
    let (loc, s') ← p.advanceBy s n
    return (.identifier name loc, s')
  | none => s.fail .invalidIdentifier

/-- `consume_index_register_indirect` — scanner.rs:302-320, with the sum of line 312. -/
def consumeIndexRegisterIndirect [Target] (p : Profile) (s : Scanner) : Run (Token × Scanner) := do
  let t ← sliceFrom s.input s.position
  if "[i]".toList.isPrefixOf t || "[I]".toList.isPrefixOf t then do
    let length := byteLen "[i]".toList
    let sliceEnd ← p.add s.position length
    let name ← slice s.input s.position sliceEnd
    let (loc, s') ← p.advanceBy s length
    return (.identifier name loc, s')
  else s.fail .expectedRegisterIndirect

/-- The byte-counting loop of `consume_single_line_comment` — scanner.rs:331-338, with the sum of line 336. -/
def commentBytes [Target] (p : Profile) : Str → Nat → Run Nat
  | [], bytes => .ret bytes
  | c :: s, bytes =>
    if c = '\n' then .ret bytes
    else do
      let bytes ← p.add bytes c.utf8Size
      p.commentBytes s bytes

/-- `consume_single_line_comment` — scanner.rs:327-343, with the sum of line 340. -/
def consumeSingleLineComment [Target] (p : Profile) (s : Scanner) : Run (Token × Scanner) := do
  let c ← p.charAt s 0
  rustAssert (c == ';')
  let t ← sliceFrom s.input s.position
  let bytes ← p.commentBytes t 0
  let sliceEnd ← p.add s.position bytes
  let text ← slice s.input s.position sliceEnd
  let (loc, s') ← p.advanceBy s bytes
  return (.singleLineComment text loc, s')

/-- `consume_directive_marker` — scanner.rs:348-352. -/
def consumeDirectiveMarker [Target] (p : Profile) (s : Scanner) : Run (Token × Scanner) := do
  let (value, loc, s') ← p.consumeChar s
  rustAssert (value == '.')
  return (.directiveMarker loc, s')

/-- `consume_label_marker` — scanner.rs:357-361. -/
def consumeLabelMarker [Target] (p : Profile) (s : Scanner) : Run (Token × Scanner) := do
  let (value, loc, s') ← p.consumeChar s
  rustAssert (value == ':')
  return (.labelMarker loc, s')

/-- `consume_comma` — scanner.rs:366-370. -/
def consumeComma [Target] (p : Profile) (s : Scanner) : Run (Token × Scanner) := do
  let (value, loc, s') ← p.consumeChar s
  rustAssert (value == ',')
  return (.comma loc, s')

/-- The dispatch on the first character in `next_token` — scanner.rs:441-470. -/
def dispatch [Target] (p : Profile) (s : Scanner) (c : Char) : Run (Token × Scanner) :=
  if c = ';' then p.consumeSingleLineComment s
  else if c = '.' then p.consumeDirectiveMarker s
  else if c = ':' then p.consumeLabelMarker s
  else if c = ',' then p.consumeComma s
  else if c = '"' then p.consumeStringLiteral s
  else if c = '$' then p.consumeHexLiteral s
  else if c = '#' then p.consumeHexLiteral s
  else if c = '%' then p.consumeBinLiteral s
  else if c = '[' then p.consumeIndexRegisterIndirect s
  else if '0' ≤ c ∧ c ≤ '9' then p.consumeDecimalLiteral s
  else if c = '_' ∨ ('a' ≤ c ∧ c ≤ 'z') ∨ ('A' ≤ c ∧ c ≤ 'Z') then p.consumeIdentifier s
  else if c = '\n' then p.consumeNewline s
  else s.fail (.invalidCharacter c)

/-- `next_token` — scanner.rs:435-471 and 488-493. -/
def nextToken [Target] (p : Profile) (s : Scanner) : Run (Option Token × Scanner) := do
  let s ← p.consumeWhitespace s
  if s.isAtEnd then return (none, s)
  else do
    let c ← p.charAt s 0
    let (t, s') ← p.dispatch s c
    return (some t, s')

/-- Drains the iterator, as `drain` of `Scanner.lean` — scanner.rs:487-494. -/
def drain [Target] (p : Profile) : Nat → Scanner → Run (List Token)
  | 0, _ => .panic
  | fuel + 1, s => do
    let (t, s') ← p.nextToken s
    match t with
    | none => return []
    | some t => do
      let rest ← p.drain fuel s'
      return t :: rest

/-- All tokens of a source text — main.rs:53-56. -/
def scan [Target] (p : Profile) (fileName input : Str) : Run (List Token) :=
  p.drain (byteLen input + 1) (Scanner.new fileName input)

/-! ### Messages -/

/-- `Display for parser::Error` — parser.rs:42-80. -/
def showParseError [Target] (p : Profile) : ParseError → Run Str
  | .unexpectedEndOfFile expected => (ParseError.unexpectedEndOfFile expected).display
  | .unexpectedToken expected (.error reason location) => do
    let loc ← p.showLoc location
    let head := loc ++ ": error: Encountered syntax error: ".toList ++ reason.display ++ "\n".toList
    match expected with
    | [] => .panic
    | [e] => .ret (head ++ loc ++ ": error: Expecting ".toList ++ e ++ ".".toList)
    | es => .ret (head ++ loc ++ ": error: Expecting one of: ".toList ++ joinWith ", ".toList es ++ ".".toList)
  | .unexpectedToken expected found => do
    let loc ← p.showLoc found.location
    match expected with
    | [] => .panic
    | [e] => .ret (loc ++ ": error: Unexpected token found: ".toList ++ found.display
        ++ ", expecting ".toList ++ e ++ ".".toList)
    | es => .ret (loc ++ ": error: Unexpected token found: ".toList ++ found.display
        ++ ", expecting one of: ".toList ++ joinWith ", ".toList es ++ ".".toList)

/-- `Display for SemanticError` — assembler.rs:82-103. -/
def showSemanticError [Target] (p : Profile) : SemanticError → Run Str
  | .directiveInvalid loc reason => do
    let loc ← p.showLoc loc
    return loc ++ ": error: ".toList ++ reason.display
  | .directiveTooLarge loc directive => do
    let loc ← p.showLoc loc
    return loc ++ ": error: Directive (".toList ++ directive.display ++ ") size ".toList
      ++ showDec directive.size ++ " exceeds 4096 bytes.".toList
  | .directiveWouldOverflow loc directive => do
    let loc ← p.showLoc loc
    return loc ++ ": error: Directive (".toList ++ directive.display
      ++ ") would cause the 12-bit address counter to overflow.".toList
  | .redefinitionOfLabel loc label => do
    let loc ← p.showLoc loc
    return loc ++ ": error: Attempted re-definition of label '".toList ++ label ++ "'.".toList
  | .instructionWouldOverflow loc => do
    let loc ← p.showLoc loc
    return loc ++ ": error: ".toList ++ "Instruction would cause address counter to overflow $FFF".toList ++ ".".toList
  | .assemblyFailed loc reason => do
    let loc ← p.showLoc loc
    return loc ++ ": error: ".toList ++ reason.display
  | .constantWithoutLabel loc => do
    let loc ← p.showLoc loc
    return loc ++ ": error: ".toList ++ "A constant must be defined immediately following a label name".toList
      ++ ".".toList

/-! ### Data ranges -/

/-- `DataRange::bytes_remaining` — data_range.rs:64-67. -/
def bytesRemaining [Target] (p : Profile) (r : DataRange) : Run Nat := do
  let total ← p.add (0xFFF - r.startAddress.toNat) 1
  p.sub total r.len

/-- `DataRange::append` — data_range.rs:72-79. -/
def append [Target] (p : Profile) (r : DataRange) (data : List U8) : Run (Bool × DataRange) := do
  let remaining ← p.bytesRemaining r
  if remaining ≥ data.length then return (true, { r with data := r.data ++ data })
  else return (false, r)

/-- `Display for DataRange` — data_range.rs:25-32. -/
def showRange [Target] (p : Profile) (r : DataRange) : Run Str := do
  let first := r.addressRange.1.toNat
  let last ← p.sub r.addressRange.2.toNat 1
  return "$".toList ++ padLeft '0' 3 (showHexUpper first) ++ "...$".toList
    ++ padLeft '0' 3 (showHexUpper last) ++ " (".toList ++ showDec r.len ++ " bytes)".toList

/-- The outer loop of `find_overlapping_ranges` — data_range.rs:103-113, with the sum of line 104. -/
def overlapLoop [Target] (p : Profile) (ranges : List DataRange) : List Nat → Run (List (DataRange × DataRange))
  | [] => .ret []
  | i :: rest => do
    let start ← p.add i 1
    let pairs := (List.range' start (ranges.length - start)).filterMap fun j =>
      match ranges[i]?, ranges[j]? with
      | some lhs, some rhs => if lhs.intersects rhs then some (lhs, rhs) else none
      | _, _ => none
    let more ← p.overlapLoop ranges rest
    return pairs ++ more

/-- `find_overlapping_ranges` — data_range.rs:95-115. -/
def findOverlappingRanges [Target] (p : Profile) (ranges : List DataRange) : Run (List (DataRange × DataRange)) :=
  p.overlapLoop ranges (List.range ranges.length)

/-! ### Second pass -/

/-- `assert!(current_range.append(&bytes))` — assembler.rs:220 and 236. -/
def appendAsserted [Target] (p : Profile) (range : DataRange) (bytes : List U8) : Run DataRange :=
  match p.append range bytes with
  | .ret (true, range) => .ret range
  | _ => .panic

/-- The loop of `emit_data_ranges` — assembler.rs:202-251. -/
def emitLoop [Target] (p : Profile) : List Node → LabelMap → DataRange → List DataRange →
    Run (Except SemanticError (List DataRange))
  | [], _, current, ranges => .ret (.ok (if current.len > 0 then ranges ++ [current] else ranges))
  | .directive _ identifier arguments :: rest, labels, current, ranges =>
    match Directive.fromIdentifierAndParameters identifier arguments with
    | .error _ => .panic
    | .ok (.org address) =>
      p.emitLoop rest labels (DataRange.new address) (if current.len > 0 then ranges ++ [current] else ranges)
    | .ok directive =>
      match p.appendAsserted current directive.intoVec with
      | .panic => .panic
      | .ret current => p.emitLoop rest labels current ranges
  | .instruction loc mnemonic fields :: rest, labels, current, ranges =>
    match Instruction.fromMnemonicAndParameters mnemonic fields labels with
    | .error reason => .ret (.error (.assemblyFailed loc reason))
    | .ok instruction =>
      match Instruction.intoVec instruction with
      | .panic => .panic
      | .ret bytes =>
        match p.appendAsserted current bytes with
        | .panic => .panic
        | .ret current => p.emitLoop rest labels current ranges
  | .label _ _ :: rest, labels, current, ranges => p.emitLoop rest labels current ranges

/-- `assemble` — assembler.rs:259-262. -/
def assemble [Target] (p : Profile) (nodes : List Node) : Run (Except SemanticError (List DataRange)) :=
  match defineLabels nodes with
  | .error e => .ret (.error e)
  | .ok labels => p.emitLoop nodes labels (DataRange.new 0) []

/-! ### Object file -/

/-- The per-range loop of `ihex_representation_of_data_ranges` — ihex_writer.rs:36-58, with the sum of line 53 on a
`u16`. -/
def recordsOfChunks (p : Profile) : List (List U8) → Nat → Run (List Record)
  | [], _ => .ret []
  | chunk :: rest, address => do
    let next ← p.addBits 16 address chunk.length
    let records ← p.recordsOfChunks rest next
    return .data (BitVec.ofNat 16 address) chunk :: records

/-- The outer loop — ihex_writer.rs:33-61. -/
def recordsOfRanges (p : Profile) : List DataRange → Run (List Record)
  | [] => .ret []
  | range :: rest => do
    let records ← p.recordsOfChunks (chunksOf 16 range.data.length range.data) range.addressRange.1.toNat
    let more ← p.recordsOfRanges rest
    return records ++ more

/-- `ihex_representation_of_data_ranges` — ihex_writer.rs:27-68. -/
def ihexRepresentationOfDataRanges [Target] (p : Profile) (ranges : List DataRange) : Run Str := do
  let overlapping ← p.findOverlappingRanges ranges
  rustAssert (overlapping.length == 0)
  let records ← p.recordsOfRanges ranges
  let text ← rustUnwrap (createObjectFileRepresentation (records ++ [.endOfFile]))
  return text ++ "\n".toList

/-! ### Tool -/

/-- The reports of overlapping ranges — main.rs:74-77. -/
def overlapReports [Target] (p : Profile) (program : Str) : List (DataRange × DataRange) → Run (List Event)
  | [] => .ret []
  | (a, b) :: rest => do
    let da ← p.showRange a
    let db ← p.showRange b
    let more ← p.overlapReports program rest
    return logProgramError program ("  range ".toList ++ da ++ " overlaps with:".toList)
      :: logProgramError program ("  range ".toList ++ db) :: more

/-- `assemble_file` from the contents of the input file on — main.rs:52-104. -/
def assembleText [Target] (p : Profile) (env : Env) (program inputPath outputPath buffer : Str) : Outcome :=
  match p.scan inputPath buffer with
  | .panic => ⟨[], .panicked⟩
  | .ret tokens =>
    match parse tokens with
    | .panic => ⟨[], .panicked⟩
    | .ret (.error e) =>
      match p.showParseError e with
      | .panic => ⟨[], .panicked⟩
      | .ret message => ⟨[.printed (message ++ "\n".toList)], .code 1⟩
    | .ret (.ok nodes) =>
      match p.assemble nodes with
      | .panic => ⟨[], .panicked⟩
      | .ret (.error e) =>
        match p.showSemanticError e with
        | .panic => ⟨[], .panicked⟩
        | .ret message => ⟨[.printed (message ++ "\n".toList)], .code 1⟩
      | .ret (.ok ranges) =>
        match p.findOverlappingRanges ranges with
        | .panic => ⟨[], .panicked⟩
        | .ret overlapping =>
          if overlapping.length > 0 then
            let head :=
              [logProgramError program "Input file specifies overlapping data ranges.".toList,
               logProgramError program "Data from one section has overflowed into the adjacent.".toList]
            match p.overlapReports program overlapping with
            | .panic => ⟨head, .panicked⟩
            | .ret reports => ⟨head ++ reports, .code 1⟩
          else
            match p.ihexRepresentationOfDataRanges ranges with
            | .panic => ⟨[], .panicked⟩
            | .ret result => writeResult env program outputPath result

/-- `assemble_file` — main.rs:34-105. -/
def assembleFile [Target] (p : Profile) (env : Env) (program inputPath outputPath : Str) : Outcome :=
  match env.openInput inputPath with
  | .error reason =>
    ⟨[.opening inputPath, logProgramError program ("Unable to open input file '".toList ++ inputPath ++ "'".toList),
      logProgramError program reason], .code 1⟩
  | .ok () =>
    match env.readInput inputPath with
    | .error reason =>
      ⟨[.opening inputPath, .reading inputPath,
        logProgramError program ("Unable to read contents of input file '".toList ++ inputPath ++ "'".toList),
        logProgramError program reason], .code 1⟩
    | .ok buffer =>
      let outcome := p.assembleText env program inputPath outputPath buffer
      ⟨.opening inputPath :: .reading inputPath :: outcome.events, outcome.exit⟩

/-- `main` — main.rs:126-169. -/
def main [Target] (p : Profile) (getopts : Getopts) (env : Env) (arguments : List Str) : Outcome :=
  match arguments with
  | [] => ⟨[], .panicked⟩
  | program :: rest =>
    match getopts.parse rest with
    | .error reason => ⟨[.printed (program ++ ": error: ".toList ++ reason ++ "\n".toList)], .code 1⟩
    | .ok m =>
      if m.help then ⟨[printUsage getopts program], .code 0⟩
      else if m.version then ⟨[printVersion], .code 0⟩
      else
        let outputPath := m.output.getD "a.hex".toList
        match m.free with
        | [inputPath] => p.assembleFile env program inputPath outputPath
        | _ => ⟨[printUsage getopts program], .code 1⟩

end Profile

end C8S
