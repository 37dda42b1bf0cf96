import Verif.Model.Scanner
import Verif.Model.Assembler

/-
The scanner, the parser, the assembler and the search for overlaps once more, with a count of the steps they take. A step is:
a character that a pattern or a loop looks at, a slice that is taken, a character of a fixed prefix that is compared, a token
that is taken, a list or statement that is visited, a parameter or operand that is looked at, a byte of a name or string that
is compared, copied or hashed, a byte that is put into a range, or a pair of ranges that is compared. Simplification: a step
stands for any bounded amount of work. A use of the label table is taken to cost what hashing the name costs, and the time to
compile a pattern, to allocate memory or to grow a vector is not counted.
-/

namespace C8S

/-- A computation and the number of steps it takes — the functions of scanner.rs, parser.rs and assembler.rs that
follow. -/
structure Work (α : Type) where
  run : Run α
  steps : Nat

namespace Work

/-- Sequencing: the steps add up — any sequence of statements, for example assembler.rs:259-269. -/
instance : Monad Work where
  pure a := ⟨.ret a, 0⟩
  bind m f :=
    match m.run with
    | .ret a => ⟨(f a).run, m.steps + (f a).steps⟩
    | .panic => ⟨.panic, m.steps⟩

/-- So many steps — as `Work`. -/
def tick (n : Nat) : Work Unit := ⟨.ret (), n⟩

/-- A computation that takes one step — as `Work`. -/
def step {α : Type} (r : Run α) : Work α := ⟨r, 1⟩

/-- A computation that takes no step — as `Work`. -/
def free {α : Type} (r : Run α) : Work α := ⟨r, 0⟩

/-! ### Patterns and numbers -/

/-- `List.takeWhile`, as in the patterns of scanner.rs: it looks at one character more than it takes. -/
def takeRun (p : Char → Bool) : Str → Work Str
  | [] => pure []
  | c :: s => do
    tick 1
    if p c then do
      let m ← takeRun p s
      return c :: m
    else return []

/-- A non-empty greedy run: `^p+` — scanner.rs:130, 206, 242. -/
def matchRun (p : Char → Bool) (s : Str) : Work (Option Nat) := do
  let m ← takeRun p s
  match m with
  | [] => return none
  | m => return some (byteLen m)

/-- `^"(?:[^"\\]|\\.)*"` after the opening quote — scanner.rs:153. -/
def reStringTail : Str → Work (Option Nat)
  | [] => pure none
  | c :: r => do
    tick 1
    if c = '"' then return some 1
    else if c = '\\' then
      match r with
      | [] => return none
      | d :: r' => do
        tick 1
        if d = '\n' then return none
        else do
          let n ← reStringTail r'
          return n.map (· + (1 + d.utf8Size))
    else do
      let n ← reStringTail r
      return n.map (· + c.utf8Size)

/-- `^"(?:[^"\\]|\\.)*"` — scanner.rs:153. -/
def reString : Str → Work (Option Nat)
  | '"' :: r => do
    tick 1
    let n ← reStringTail r
    return n.map (· + 1)
  | _ => do
    tick 1
    return none

/-- `^[\$\#][0-9a-fA-F]{1,3}` — scanner.rs:179. -/
def reHex : Str → Work (Option Nat)
  | c :: r => do
    tick 1
    if c = '$' ∨ c = '#' then do
      let n ← matchRun isHex (r.take 3)
      return n.map (· + 1)
    else return none
  | [] => pure none

/-- `^%[01\.]+` — scanner.rs:206. -/
def reBin : Str → Work (Option Nat)
  | c :: r => do
    tick 1
    if c = '%' then do
      let n ← matchRun isBin r
      return n.map (· + 1)
    else return none
  | [] => pure none

/-- `^[_a-zA-Z][_a-zA-Z0-9]{0,}` — scanner.rs:280. -/
def reIdent : Str → Work (Option Nat)
  | c :: r => do
    tick 1
    if isIdentStart c then do
      let m ← takeRun isIdentChar r
      return some (c.utf8Size + byteLen m)
    else return none
  | [] => pure none

/-- The digit loop of `from_str_radix` (std) — scanner.rs:188, 252. -/
def radixDigits (bits radix : Nat) : Str → Nat → Work (Option Nat)
  | [], acc => pure (some acc)
  | c :: s, acc => do
    tick 1
    match toDigit radix c with
    | none => return none
    | some d => if acc * radix + d < 2 ^ bits then radixDigits bits radix s (acc * radix + d) else return none

/-- `uN::from_str_radix` (std), as called in scanner.rs:187 and 252. -/
def fromStrRadix (bits radix : Nat) (s : Str) : Work (Option Nat) := do
  tick 1
  match s with
  | [] => return none
  | ['+'] => return none
  | '+' :: rest => radixDigits bits radix rest 0
  | _ => radixDigits bits radix s 0

/-- The loop of `parse_12_bit_bin_str` — scanner.rs:90-113. -/
def binLoop [Target] : Str → Nat → Work (Except ScanError Nat)
  | [], acc => pure (.ok acc)
  | c :: s, acc => do
    tick 1
    if c = '.' then binLoop s ((acc <<< 1) % 2 ^ usizeBits ||| 0)
    else if c = '0' then binLoop s ((acc <<< 1) % 2 ^ usizeBits ||| 0)
    else if c = '1' then binLoop s ((acc <<< 1) % 2 ^ usizeBits ||| 1)
    else return .error .invalidBinaryLiteral

/-- `parse_12_bit_bin_str` — scanner.rs:89-121. -/
def parse12BitBinStr [Target] (s : Str) : Work (Except ScanError Nat) := do
  let r ← binLoop s 0
  match r with
  | .error e => return .error e
  | .ok acc => return if acc ≤ 0xFFF then .ok acc else .error (.binaryLiteralOutOfRange s)

/-! ### Scanner methods -/

/-- The character loop of `advance_by` — scanner.rs:399-415. -/
def advanceLoop : Str → Nat × Nat × Nat → Work (Nat × Nat × Nat)
  | [], st => pure st
  | c :: s, (newlines, first, offset) => do
    tick 1
    let offset := offset + 1
    let first := if newlines = 0 then first + 1 else first
    if c = '\n' then advanceLoop s (newlines + 1, first, 1) else advanceLoop s (newlines, first, offset)

/-- The byte count of `advance_by` — scanner.rs:396. -/
def countBytes : Str → Nat → Work Nat
  | [], acc => pure acc
  | c :: s, acc => do
    tick 1
    countBytes s (acc + c.utf8Size)

/-- `advance_by` — scanner.rs:392-423. -/
def advanceBy (s : Scanner) (bytes : Nat) : Work (Loc × Scanner) := do
  let range ← step (slice s.input s.position (s.position + bytes))
  let total ← countBytes range 0
  free (rustAssert (total == bytes))
  let (newlines, first, offset) ← advanceLoop range (0, 0, s.currentLineOffset)
  let location ← free (Loc.new s.fileName s.currentLine s.currentLineOffset first)
  return (location, { s with
    position := s.position + bytes
    currentLine := s.currentLine + newlines
    currentLineOffset := offset })

/-- `char_at` — scanner.rs:384-386. -/
def charAt (s : Scanner) (offset : Nat) : Work Char := do
  let t ← step (sliceFrom s.input (s.position + offset))
  step (rustUnwrap t.head?)

/-- `consume_char` — scanner.rs:376-379. -/
def consumeChar (s : Scanner) : Work (Char × Loc × Scanner) := do
  let value ← charAt s 0
  let (loc, s') ← advanceBy s value.utf8Size
  return (value, loc, s')

/-- `consume_whitespace` — scanner.rs:128-136. -/
def consumeWhitespace (s : Scanner) : Work Scanner := do
  let t ← step (sliceFrom s.input s.position)
  let m ← matchRun isBlank t
  match m with
  | some n => do
    let (_, s') ← advanceBy s n
    return s'
  | none => return s

/-- The failure branch of the `consume_*` methods (for example scanner.rs:164-169). -/
def fail (s : Scanner) (e : ScanError) : Work (Token × Scanner) := free (s.fail e)

/-- `consume_newline` — scanner.rs:141-145. -/
def consumeNewline (s : Scanner) : Work (Token × Scanner) := do
  let (value, loc, s') ← consumeChar s
  free (rustAssert (value == '\n'))
  return (.newline loc, s')

/-- `consume_string_literal` — scanner.rs:151-171. -/
def consumeStringLiteral (s : Scanner) : Work (Token × Scanner) := do
  let t ← step (sliceFrom s.input s.position)
  let m ← reString t
  match m with
  | some n => do
    let body ← step (slice s.input (s.position + '"'.utf8Size) (s.position + n - '"'.utf8Size))
    let (loc, s') ← advanceBy s n
    return (.stringLiteral body loc, s')
  | none => fail s .invalidStringLiteral

/-- `consume_hex_literal` — scanner.rs:177-197. -/
def consumeHexLiteral [Target] (s : Scanner) : Work (Token × Scanner) := do
  let t ← step (sliceFrom s.input s.position)
  let m ← reHex t
  match m with
  | some n => do
    let digits ← step (slice s.input (s.position + '$'.utf8Size) (s.position + n))
    let (loc, s') ← advanceBy s n
    let v ← fromStrRadix usizeBits 16 digits
    let value ← free (rustUnwrap v)
    return (.numericLiteral value loc, s')
  | none => fail s .invalidHexadecimalLiteral

/-- `consume_bin_literal` — scanner.rs:204-234. -/
def consumeBinLiteral [Target] (s : Scanner) : Work (Token × Scanner) := do
  let t ← step (sliceFrom s.input s.position)
  let m ← reBin t
  match m with
  | some n => do
    let digits ← step (slice s.input (s.position + '$'.utf8Size) (s.position + n))
    let (loc, s') ← advanceBy s n
    let v ← parse12BitBinStr digits
    match v with
    | .ok value => return (.numericLiteral value loc, s')
    | .error e => return (.error e loc, { s' with position := byteLen s.input })
  | none => fail s .invalidBinaryLiteral

/-- `consume_decimal_literal` — scanner.rs:240-272. -/
def consumeDecimalLiteral [Target] (s : Scanner) : Work (Token × Scanner) := do
  let t ← step (sliceFrom s.input s.position)
  let m ← matchRun isDec t
  match m with
  | some n => do
    let digits ← step (slice s.input s.position (s.position + n))
    let v ← fromStrRadix usizeBits 10 digits
    match v with
    | some value =>
      if value ≤ 4095 then do
        let (loc, s') ← advanceBy s n
        return (.numericLiteral value loc, s')
      else do
        let (loc, s') ← advanceBy s n
        return (.error (.decimalLiteralOutOfRange digits) loc, { s' with position := byteLen s.input })
    | none => do
      let (loc, s') ← advanceBy s n
      return (.error (.decimalLiteralOutOfRange digits) loc, { s' with position := byteLen s.input })
  | none => fail s .invalidDecimalLiteral

/-- `consume_identifier` — scanner.rs:278-296. -/
def consumeIdentifier (s : Scanner) : Work (Token × Scanner) := do
  let t ← step (sliceFrom s.input s.position)
  let m ← reIdent t
  match m with
  | some n => do
    let name ← step (slice s.input s.position (s.position + n))
    let (loc, s') ← advanceBy s n
    return (.identifier name loc, s')
  | none => fail s .invalidIdentifier

/-- `consume_index_register_indirect` — scanner.rs:302-320. -/
def consumeIndexRegisterIndirect (s : Scanner) : Work (Token × Scanner) := do
  let t ← step (sliceFrom s.input s.position)
  tick 6
  if "[i]".toList.isPrefixOf t || "[I]".toList.isPrefixOf t then do
    let length := byteLen "[i]".toList
    let name ← step (slice s.input s.position (s.position + length))
    let (loc, s') ← advanceBy s length
    return (.identifier name loc, s')
  else fail s .expectedRegisterIndirect

/-- The byte-counting loop of `consume_single_line_comment` — scanner.rs:331-338. -/
def commentBytes : Str → Nat → Work Nat
  | [], bytes => pure bytes
  | c :: s, bytes => do
    tick 1
    if c = '\n' then return bytes else commentBytes s (bytes + c.utf8Size)

/-- `consume_single_line_comment` — scanner.rs:327-343. -/
def consumeSingleLineComment (s : Scanner) : Work (Token × Scanner) := do
  let c ← charAt s 0
  free (rustAssert (c == ';'))
  let t ← step (sliceFrom s.input s.position)
  let bytes ← commentBytes t 0
  let text ← step (slice s.input s.position (s.position + bytes))
  let (loc, s') ← advanceBy s bytes
  return (.singleLineComment text loc, s')

/-- `consume_directive_marker` — scanner.rs:348-352. -/
def consumeDirectiveMarker (s : Scanner) : Work (Token × Scanner) := do
  let (value, loc, s') ← consumeChar s
  free (rustAssert (value == '.'))
  return (.directiveMarker loc, s')

/-- `consume_label_marker` — scanner.rs:357-361. -/
def consumeLabelMarker (s : Scanner) : Work (Token × Scanner) := do
  let (value, loc, s') ← consumeChar s
  free (rustAssert (value == ':'))
  return (.labelMarker loc, s')

/-- `consume_comma` — scanner.rs:366-370. -/
def consumeComma (s : Scanner) : Work (Token × Scanner) := do
  let (value, loc, s') ← consumeChar s
  free (rustAssert (value == ','))
  return (.comma loc, s')

/-- The dispatch on the first character in `next_token` — scanner.rs:441-470. -/
def dispatch [Target] (s : Scanner) (c : Char) : Work (Token × Scanner) :=
  if c = ';' then consumeSingleLineComment s
  else if c = '.' then consumeDirectiveMarker s
  else if c = ':' then consumeLabelMarker s
  else if c = ',' then consumeComma s
  else if c = '"' then consumeStringLiteral s
  else if c = '$' then consumeHexLiteral s
  else if c = '#' then consumeHexLiteral s
  else if c = '%' then consumeBinLiteral s
  else if c = '[' then consumeIndexRegisterIndirect s
  else if '0' ≤ c ∧ c ≤ '9' then consumeDecimalLiteral s
  else if c = '_' ∨ ('a' ≤ c ∧ c ≤ 'z') ∨ ('A' ≤ c ∧ c ≤ 'Z') then consumeIdentifier s
  else if c = '\n' then consumeNewline s
  else fail s (.invalidCharacter c)

/-- `next_token` (also `Iterator::next`) — scanner.rs:435-471 and 488-493. -/
def nextToken [Target] (s : Scanner) : Work (Option Token × Scanner) := do
  let s ← consumeWhitespace s
  if s.isAtEnd then return (none, s)
  else do
    let c ← charAt s 0
    let (t, s') ← dispatch s c
    return (some t, s')

/-- The tokens obtained by calling `next` until it answers `None`, as the parser does — parser.rs:209-223. -/
def drain [Target] : Nat → Scanner → Work (List Token)
  | 0, _ => ⟨.panic, 0⟩
  | fuel + 1, s => do
    let (t, s') ← nextToken s
    match t with
    | none => return []
    | some t => do
      let rest ← drain fuel s'
      return t :: rest

/-- All tokens of a source text — main.rs:53-56. -/
def scan [Target] (fileName input : Str) : Work (List Token) := drain (byteLen input + 1) (Scanner.new fileName input)

/-! ### The parser -/

/-- `consume_token` — parser.rs:219-223. -/
def consumeToken (p : Parser) : Work (Option Token × Parser) := do
  tick 1
  return p.consumeToken

/-- `parse_identifier` — parser.rs:245-253. -/
def parseIdentifier (p : Parser) : Work (Except ParseError ((Str × Loc) × Parser)) := do
  let t ← consumeToken p
  match t with
  | (some (.identifier id loc), p') => return .ok ((id, loc), p')
  | (unexpected, _) => return .error (Parser.syntaxError unexpected [DisplayNames.identifier])

/-- `parse_literal` — parser.rs:260-280. -/
def parseLiteral (p : Parser) : Work (Except ParseError (Literal × Parser)) :=
  match p.current with
  | some (.stringLiteral string _) => do
    let (_, p') ← consumeToken p
    return .ok (.string string, p')
  | some (.numericLiteral number _) => do
    let (_, p') ← consumeToken p
    return .ok (.numeric number, p')
  | found => pure (.error (Parser.syntaxError found [DisplayNames.numericLiteral, DisplayNames.stringLiteral]))

/-- `parse_literal_list` — parser.rs:288-307. The list is moved, not copied. -/
def parseLiteralList : Nat → Parser → List Literal → Work (Except ParseError (List Literal × Parser))
  | 0, _, _ => ⟨.panic, 0⟩
  | fuel + 1, p, list => do
    tick 1
    match p.current with
    | some (.newline _) => return .ok (list, p)
    | _ => do
      let x ← parseLiteral p
      match x with
      | .error e => return .error e
      | .ok (literal, p) =>
        match p.current with
        | some (.comma _) => do
          let (_, p) ← consumeToken p
          parseLiteralList fuel p (list ++ [literal])
        | _ => return .ok (list ++ [literal], p)

/-- `parse_directive` — parser.rs:314-328. -/
def parseDirective (p : Parser) : Work (Except ParseError (Node × Parser)) := do
  let t ← consumeToken p
  match t with
  | (some (.directiveMarker _), p) => do
    let x ← parseIdentifier p
    match x with
    | .error e => return .error e
    | .ok ((id, loc), p) => do
      let y ← parseLiteralList (p.remaining + 1) p []
      match y with
      | .error e => return .error e
      | .ok (parameters, p) => return .ok (.directive loc id parameters, p)
  | (unexpected, _) => return .error (Parser.syntaxError unexpected [DisplayNames.directiveMarker])

/-- `parse_label` — parser.rs:335-348. -/
def parseLabel (p : Parser) : Work (Except ParseError (Node × Parser)) := do
  let x ← parseIdentifier p
  match x with
  | .error e => return .error e
  | .ok ((id, loc), p) => do
    let t ← consumeToken p
    match t with
    | (some (.labelMarker _), p) => return .ok (.label loc id, p)
    | (unexpected, _) => return .error (Parser.syntaxError unexpected [DisplayNames.labelMarker])

/-- One field of `parse_field_list` — parser.rs:366-416. A name is compared with the
registers, and its characters are counted: a step for each of its bytes. -/
def parseField (p : Parser) : Work (Except ParseError (Field × Parser)) :=
  match p.current with
  | some (.numericLiteral number _) => do
    let (_, p') ← consumeToken p
    return .ok (.numericLiteral (BitVec.ofNat 12 number), p')
  | some (.identifier id _) => do
    tick (byteLen id)
    let f ← free (Parser.fieldOfIdentifier id)
    let (_, p') ← consumeToken p
    return .ok (f, p')
  | found => pure (.error (Parser.syntaxError found [DisplayNames.instructionField]))

/-- `parse_field_list` — parser.rs:358-430. The list is moved, not copied. -/
def parseFieldList : Nat → Parser → List Field → Work (Except ParseError (List Field × Parser))
  | 0, _, _ => ⟨.panic, 0⟩
  | fuel + 1, p, list => do
    tick 1
    match p.current with
    | some (.newline _) => return .ok (list, p)
    | some (.singleLineComment _ _) => return .ok (list, p)
    | _ => do
      let x ← parseField p
      match x with
      | .error e => return .error e
      | .ok (field, p) =>
        match p.current with
        | some (.comma _) => do
          let (_, p) ← consumeToken p
          parseFieldList fuel p (list ++ [field])
        | _ => return .ok (list ++ [field], p)

/-- `parse_instruction` — parser.rs:437-443. -/
def parseInstruction (p : Parser) : Work (Except ParseError (Node × Parser)) := do
  let x ← parseIdentifier p
  match x with
  | .error e => return .error e
  | .ok ((mnemonic, loc), p) => do
    let y ← parseFieldList (p.remaining + 1) p []
    match y with
    | .error e => return .error e
    | .ok (fields, p) => return .ok (.instruction loc mnemonic fields, p)

/-- `parse_statement` — parser.rs:450-470. -/
def parseStatement (p : Parser) : Work (Except ParseError (Node × Parser)) :=
  match p.current, p.next with
  | some (.directiveMarker _), _ => parseDirective p
  | some (.identifier _ _), some (.labelMarker _) => parseLabel p
  | some (.identifier _ _), _ => parseInstruction p
  | found, _ => pure (.error (Parser.syntaxError found [DisplayNames.directiveMarker, DisplayNames.identifier]))

/-- `parse_statement_list` — parser.rs:477-498. -/
def parseStatementList : Nat → Parser → List Node → Work (Except ParseError (List Node))
  | 0, _, _ => ⟨.panic, 0⟩
  | fuel + 1, p, nodes => do
    tick 1
    match p.current with
    | none => return .ok nodes
    | some (.singleLineComment _ _) => do
      let (_, p) ← consumeToken p
      parseStatementList fuel p nodes
    | some (.newline _) => do
      let (_, p) ← consumeToken p
      parseStatementList fuel p nodes
    | some _ => do
      let x ← parseStatement p
      match x with
      | .error e => return .error e
      | .ok (node, p) => parseStatementList fuel p (nodes ++ [node])

/-- `parse` — parser.rs:193-212 and 510-512: the parser first takes two tokens. -/
def parse (tokens : List Token) : Work (Except ParseError (List Node)) := do
  tick 2
  parseStatementList (tokens.length + 1) (Parser.new tokens) []

/-! ### The passes -/

/-- The steps to look at a parameter of a directive, and to copy its bytes — directive.rs:136-147. -/
def literalSteps : Literal → Nat
  | .numeric _ => 1
  | .string s => 1 + byteLen s

/-- `Directive::from_identifier_and_parameters` — directive.rs:99-177: the name is
copied to lower-case it, and every parameter is looked at at most once. -/
def readDirective (identifier : Str) (arguments : List Literal) : Work (Except DirectiveError Directive) := do
  tick (1 + byteLen identifier + (arguments.map literalSteps).sum)
  return Directive.fromIdentifierAndParameters identifier arguments

/-- The peek of `define_labels` — assembler.rs:165-171. -/
def peekConstant : List Node → Work (Option U12)
  | .directive _ identifier arguments :: _ => do
    let d ← readDirective identifier arguments
    match d with
    | .ok (.equ constant) => return some constant
    | _ => return none
  | _ => pure none

/-- The loop of `define_labels` — assembler.rs:122-190. -/
def defineLabelsLoop : List Node → U12 → LabelMap → Work (Except SemanticError LabelMap)
  | [], _, labels => pure (.ok labels)
  | .directive loc identifier arguments :: rest, current, labels => do
    tick 1
    let d ← readDirective identifier arguments
    match d with
    | .error reason => return .error (.directiveInvalid loc reason)
    | .ok directive =>
      match failableInto12 directive.size with
      | none => return .error (.directiveTooLarge loc directive)
      | some size =>
        match checkedAdd current size with
        | none => return .error (.directiveWouldOverflow loc directive)
        | some current =>
          match directive with
          | .org address => defineLabelsLoop rest address labels
          | .db _ => defineLabelsLoop rest current labels
          | .equ _ => return .error (.constantWithoutLabel loc)
  | .label loc identifier :: rest, current, labels => do
    tick 1
    let constant ← peekConstant rest
    tick (1 + byteLen identifier)
    if (labels.get identifier).isSome then return .error (.redefinitionOfLabel loc identifier)
    else do
      tick (1 + byteLen identifier)
      match constant with
      | none => defineLabelsLoop rest current ((identifier, current) :: labels)
      | some value =>
        match rest with
        | [] => return .ok ((identifier, value) :: labels)
        | _ :: rest' => defineLabelsLoop rest' current ((identifier, value) :: labels)
  | .instruction loc _ _ :: rest, current, labels => do
    tick 1
    match checkedAdd current 2 with
    | none => return .error (.instructionWouldOverflow loc)
    | some current => defineLabelsLoop rest current labels

/-- `define_labels` — assembler.rs:115-194. -/
def defineLabels (nodes : List Node) : Work (Except SemanticError LabelMap) := defineLabelsLoop nodes 0 []

/-- `assert!(current_range.append(&bytes))` — assembler.rs:220 and 236: a step for each byte. -/
def appendAsserted (range : DataRange) (bytes : List U8) : Work DataRange := do
  tick bytes.length
  free (C8S.appendAsserted range bytes)

/-- The steps to look at an operand, and at the label it names — instruction.rs:69-74. -/
def fieldSteps : Field → Nat
  | .identifier name => 1 + byteLen name
  | _ => 1

/-- The loop of `emit_data_ranges` — assembler.rs:202-251. Matching an instruction (instruction.rs:112-366) copies its name,
looks at each operand, and resolves at most the labels among them. -/
def emitLoop : List Node → LabelMap → DataRange → List DataRange → Work (Except SemanticError (List DataRange))
  | [], _, current, ranges =>
    pure (.ok (if current.len > 0 then ranges ++ [current] else ranges))
  | .directive _ identifier arguments :: rest, labels, current, ranges => do
    tick 1
    let d ← readDirective identifier arguments
    match d with
    | .error _ => free .panic
    | .ok (.org address) =>
      emitLoop rest labels (DataRange.new address) (if current.len > 0 then ranges ++ [current] else ranges)
    | .ok directive => do
      let current ← appendAsserted current directive.intoVec
      emitLoop rest labels current ranges
  | .instruction loc mnemonic fields :: rest, labels, current, ranges => do
    tick 1
    tick (1 + byteLen mnemonic + (fields.map fieldSteps).sum)
    match Instruction.fromMnemonicAndParameters mnemonic fields labels with
    | .error reason => return .error (.assemblyFailed loc reason)
    | .ok instruction => do
      let bytes ← free (Instruction.intoVec instruction)
      let current ← appendAsserted current bytes
      emitLoop rest labels current ranges
  | .label _ _ :: rest, labels, current, ranges => do
    tick 1
    emitLoop rest labels current ranges

/-- `assemble` — assembler.rs:259-262. -/
def assemble (nodes : List Node) : Work (Except SemanticError (List DataRange)) := do
  let r ← defineLabels nodes
  match r with
  | .error e => return .error e
  | .ok labels => emitLoop nodes labels (DataRange.new 0) []

/-! ### Overlaps -/

/-- The inner loop of `find_overlapping_ranges` — data_range.rs:104-111. -/
def overlapsOf (lhs : DataRange) : List DataRange → Work (List (DataRange × DataRange))
  | [] => pure []
  | rhs :: rest => do
    tick 1
    let more ← overlapsOf lhs rest
    return if lhs.intersects rhs then (lhs, rhs) :: more else more

/-- `find_overlapping_ranges` — data_range.rs:95-115. -/
def findOverlappingRanges : List DataRange → Work (List (DataRange × DataRange))
  | [] => pure []
  | lhs :: rest => do
    let here ← overlapsOf lhs rest
    let more ← findOverlappingRanges rest
    return here ++ more

end Work

end C8S
