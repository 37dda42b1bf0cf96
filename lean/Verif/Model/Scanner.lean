import Verif.Model.Token

/-
Model of /repo/src/assembler/scanner.rs. The scanner keeps a byte offset into the input, exactly as the Rust
struct does; every slice of the input is an explicit `slice`/`sliceFrom` that panics off a char boundary.
-/

namespace C8S

/-- `Scanner` — scanner.rs:74-85. `position` is a byte offset. -/
structure Scanner where
  fileName : Str
  input : Str
  position : Nat
  currentLine : Nat
  currentLineOffset : Nat
  deriving DecidableEq, Repr

/-- `Scanner::new` — scanner.rs:476-484. -/
def Scanner.new (fileName input : Str) : Scanner :=
  { fileName, input, position := 0, currentLine := 1, currentLineOffset := 1 }

/-! ### Character classes and regular expressions

The `regex` crate is external. Each pattern of scanner.rs is anchored with `^`, so `find` either returns
`Some((0, end))` or `None`; the matchers below return the byte length of that match. -/

/-- `\s` of the `regex` crate: the Unicode White_Space property — scanner.rs:130. -/
def isWhite (c : Char) : Bool :=
  let n := c.toNat
  (9 ≤ n && n ≤ 13) || n == 0x20 || n == 0x85 || n == 0xA0 || n == 0x1680 || (0x2000 ≤ n && n ≤ 0x200A)
    || n == 0x2028 || n == 0x2029 || n == 0x202F || n == 0x205F || n == 0x3000

/-- `[^\S\n]`: white space other than newline — scanner.rs:130. -/
def isBlank (c : Char) : Bool := isWhite c && c != '\n'

/-- `[0-9]` — scanner.rs:242. -/
def isDec (c : Char) : Bool := '0' ≤ c && c ≤ '9'

/-- `[0-9a-fA-F]` — scanner.rs:179. -/
def isHex (c : Char) : Bool := isDec c || ('a' ≤ c && c ≤ 'f') || ('A' ≤ c && c ≤ 'F')

/-- `[01\.]` — scanner.rs:206. -/
def isBin (c : Char) : Bool := c == '0' || c == '1' || c == '.'

/-- `[_a-zA-Z]` — scanner.rs:280. -/
def isIdentStart (c : Char) : Bool := c == '_' || ('a' ≤ c && c ≤ 'z') || ('A' ≤ c && c ≤ 'Z')

/-- `[_a-zA-Z0-9]` — scanner.rs:280. -/
def isIdentChar (c : Char) : Bool := isIdentStart c || isDec c

/-- A non-empty greedy run: `^p+` — scanner.rs:130, 206, 242. -/
def matchRun (p : Char → Bool) (s : Str) : Option Nat :=
  match s.takeWhile p with
  | [] => none
  | m => some (byteLen m)

/-- `^[^\S\n]+` — scanner.rs:130. -/
def reWhitespace (s : Str) : Option Nat := matchRun isBlank s

/-- The part of `^"(?:[^"\\]|\\.)*"` after the opening quote: bytes up to and including the closing quote. `.` does
not match a newline. The alternatives exclude each other, so there is at most one match — scanner.rs:153. -/
def reStringTail : Str → Option Nat
  | [] => none
  | c :: r =>
    if c = '"' then some 1
    else if c = '\\' then
      match r with
      | [] => none
      | d :: r' => if d = '\n' then none else (reStringTail r').map (· + (1 + d.utf8Size))
    else (reStringTail r).map (· + c.utf8Size)

/-- `^"(?:[^"\\]|\\.)*"` — scanner.rs:153. -/
def reString : Str → Option Nat
  | '"' :: r => (reStringTail r).map (· + 1)
  | _ => none

/-- `^[\$\#][0-9a-fA-F]{1,3}` — scanner.rs:179. -/
def reHex : Str → Option Nat
  | c :: r => if c = '$' ∨ c = '#' then (matchRun isHex (r.take 3)).map (· + 1) else none
  | [] => none

/-- `^%[01\.]+` — scanner.rs:206. -/
def reBin : Str → Option Nat
  | c :: r => if c = '%' then (matchRun isBin r).map (· + 1) else none
  | [] => none

/-- `^[0-9]{1,}` — scanner.rs:242. -/
def reDec (s : Str) : Option Nat := matchRun isDec s

/-- `^[_a-zA-Z][_a-zA-Z0-9]{0,}` — scanner.rs:280. -/
def reIdent : Str → Option Nat
  | c :: r => if isIdentStart c then some (c.utf8Size + byteLen (r.takeWhile isIdentChar)) else none
  | [] => none

/-! ### Scanner methods -/

/-- The loop of `parse_12_bit_bin_str` — scanner.rs:90-113. `checked_shl(1)` only fails when the shift
amount is at least the word size, so it never fails here: the top bit is lost. -/
def binLoop [Target] : Str → Nat → Except ScanError Nat
  | [], acc => .ok acc
  | c :: s, acc =>
    if c = '.' then binLoop s ((acc <<< 1) % 2 ^ usizeBits ||| 0)
    else if c = '0' then binLoop s ((acc <<< 1) % 2 ^ usizeBits ||| 0)
    else if c = '1' then binLoop s ((acc <<< 1) % 2 ^ usizeBits ||| 1)
    else .error .invalidBinaryLiteral

/-- `parse_12_bit_bin_str` — scanner.rs:89-121. -/
def parse12BitBinStr [Target] (s : Str) : Except ScanError Nat :=
  match binLoop s 0 with
  | .error e => .error e
  | .ok acc => if acc ≤ 0xFFF then .ok acc else .error (.binaryLiteralOutOfRange s)

namespace Scanner

/-- The character loop of `advance_by` — scanner.rs:399-415. State: newlines seen, characters on the first
line, new offset in the last line. -/
def advanceLoop : Str → Nat × Nat × Nat → Nat × Nat × Nat
  | [], st => st
  | c :: s, (newlines, first, offset) =>
    let offset := offset + 1
    let first := if newlines = 0 then first + 1 else first
    if c = '\n' then advanceLoop s (newlines + 1, first, 1) else advanceLoop s (newlines, first, offset)

/-- `advance_by` — scanner.rs:392-423. -/
def advanceBy (s : Scanner) (bytes : Nat) : Run (Loc × Scanner) := do
  let range ← slice s.input s.position (s.position + bytes)
  rustAssert (range.foldl (fun acc x => acc + x.utf8Size) 0 == bytes)
  let (newlines, first, offset) := advanceLoop range (0, 0, s.currentLineOffset)
  let location ← Loc.new s.fileName s.currentLine s.currentLineOffset first
  return (location, { s with
    position := s.position + bytes
    currentLine := s.currentLine + newlines
    currentLineOffset := offset })

/-- `char_at` — scanner.rs:384-386. -/
def charAt (s : Scanner) (offset : Nat) : Run Char := do
  let t ← sliceFrom s.input (s.position + offset)
  rustUnwrap t.head?

/-- `consume_char` — scanner.rs:376-379. -/
def consumeChar (s : Scanner) : Run (Char × Loc × Scanner) := do
  let value ← s.charAt 0
  let (loc, s') ← s.advanceBy value.utf8Size
  return (value, loc, s')

/-- `consume_whitespace` — scanner.rs:128-136. -/
def consumeWhitespace (s : Scanner) : Run Scanner := do
  let t ← sliceFrom s.input s.position
  match reWhitespace t with
  | some n => do
    let (_, s') ← s.advanceBy n
    return s'
  | none => return s

/-- The failure branch shared by all `consume_*` methods (for example scanner.rs:164-169): report a location
of length 1 and move to the end of the input. -/
def fail (s : Scanner) (e : ScanError) : Run (Token × Scanner) := do
  let location ← Loc.new s.fileName s.currentLine s.currentLineOffset 1
  return (.error e location, { s with position := byteLen s.input })

/-- `consume_newline` — scanner.rs:141-145. -/
def consumeNewline (s : Scanner) : Run (Token × Scanner) := do
  let (value, loc, s') ← s.consumeChar
  rustAssert (value == '\n')
  return (.newline loc, s')

/-- `consume_string_literal` — scanner.rs:151-171. -/
def consumeStringLiteral (s : Scanner) : Run (Token × Scanner) := do
  let t ← sliceFrom s.input s.position
  match reString t with
  | some n => do
    let body ← slice s.input (s.position + '"'.utf8Size) (s.position + n - '"'.utf8Size)
    let (loc, s') ← s.advanceBy n
    return (.stringLiteral body loc, s')
  | none => s.fail .invalidStringLiteral

/-- `consume_hex_literal` — scanner.rs:177-197. -/
def consumeHexLiteral [Target] (s : Scanner) : Run (Token × Scanner) := do
  let t ← sliceFrom s.input s.position
  match reHex t with
  | some n => do
    let digits ← slice s.input (s.position + '$'.utf8Size) (s.position + n)
    let (loc, s') ← s.advanceBy n
    let value ← rustUnwrap (fromStrRadix usizeBits 16 digits)
    return (.numericLiteral value loc, s')
  | none => s.fail .invalidHexadecimalLiteral

/-- `consume_bin_literal` — scanner.rs:204-234. -/
def consumeBinLiteral [Target] (s : Scanner) : Run (Token × Scanner) := do
  let t ← sliceFrom s.input s.position
  match reBin t with
  | some n => do
    let digits ← slice s.input (s.position + '$'.utf8Size) (s.position + n)
    let (loc, s') ← s.advanceBy n
    match parse12BitBinStr digits with
    | .ok value => return (.numericLiteral value loc, s')
    | .error e => return (.error e loc, { s' with position := byteLen s.input })
  | none => s.fail .invalidBinaryLiteral

/-- `consume_decimal_literal` — scanner.rs:240-272. -/
def consumeDecimalLiteral [Target] (s : Scanner) : Run (Token × Scanner) := do
  let t ← sliceFrom s.input s.position
  match reDec t with
  | some n => do
    let digits ← slice s.input s.position (s.position + n)
    match fromStrRadix usizeBits 10 digits with
    | some value =>
      if value ≤ 4095 then do
        let (loc, s') ← s.advanceBy n
        return (.numericLiteral value loc, s')
      else do
        let (loc, s') ← s.advanceBy n
        return (.error (.decimalLiteralOutOfRange digits) loc, { s' with position := byteLen s.input })
    | none => do
      let (loc, s') ← s.advanceBy n
      return (.error (.decimalLiteralOutOfRange digits) loc, { s' with position := byteLen s.input })
  | none => s.fail .invalidDecimalLiteral

/-- `consume_identifier` — scanner.rs:278-296. -/
def consumeIdentifier (s : Scanner) : Run (Token × Scanner) := do
  let t ← sliceFrom s.input s.position
  match reIdent t with
  | some n => do
    let name ← slice s.input s.position (s.position + n)
    let (loc, s') ← s.advanceBy n
    return (.identifier name loc, s')
  | none => s.fail .invalidIdentifier

/-- `consume_index_register_indirect` — scanner.rs:302-320. -/
def consumeIndexRegisterIndirect (s : Scanner) : Run (Token × Scanner) := do
  let t ← sliceFrom s.input s.position
  if "[i]".toList.isPrefixOf t || "[I]".toList.isPrefixOf t then do
    let length := byteLen "[i]".toList
    let name ← slice s.input s.position (s.position + length)
    let (loc, s') ← s.advanceBy length
    return (.identifier name loc, s')
  else s.fail .expectedRegisterIndirect

/-- The byte-counting loop of `consume_single_line_comment` — scanner.rs:331-338. -/
def commentBytes : Str → Nat → Nat
  | [], bytes => bytes
  | c :: s, bytes => if c = '\n' then bytes else commentBytes s (bytes + c.utf8Size)

/-- `consume_single_line_comment` — scanner.rs:327-343. -/
def consumeSingleLineComment (s : Scanner) : Run (Token × Scanner) := do
  let c ← s.charAt 0
  rustAssert (c == ';')
  let t ← sliceFrom s.input s.position
  let bytes := commentBytes t 0
  let text ← slice s.input s.position (s.position + bytes)
  let (loc, s') ← s.advanceBy bytes
  return (.singleLineComment text loc, s')

/-- `consume_directive_marker` — scanner.rs:348-352. -/
def consumeDirectiveMarker (s : Scanner) : Run (Token × Scanner) := do
  let (value, loc, s') ← s.consumeChar
  rustAssert (value == '.')
  return (.directiveMarker loc, s')

/-- `consume_label_marker` — scanner.rs:357-361. -/
def consumeLabelMarker (s : Scanner) : Run (Token × Scanner) := do
  let (value, loc, s') ← s.consumeChar
  rustAssert (value == ':')
  return (.labelMarker loc, s')

/-- `consume_comma` — scanner.rs:366-370. -/
def consumeComma (s : Scanner) : Run (Token × Scanner) := do
  let (value, loc, s') ← s.consumeChar
  rustAssert (value == ',')
  return (.comma loc, s')

/-- `is_at_end` — scanner.rs:428-430. -/
def isAtEnd (s : Scanner) : Bool := s.position ≥ byteLen s.input

/-- The dispatch on the first character in `next_token` — scanner.rs:441-470. -/
def dispatch [Target] (s : Scanner) (c : Char) : Run (Token × Scanner) :=
  if c = ';' then s.consumeSingleLineComment
  else if c = '.' then s.consumeDirectiveMarker
  else if c = ':' then s.consumeLabelMarker
  else if c = ',' then s.consumeComma
  else if c = '"' then s.consumeStringLiteral
  else if c = '$' then s.consumeHexLiteral
  else if c = '#' then s.consumeHexLiteral
  else if c = '%' then s.consumeBinLiteral
  else if c = '[' then s.consumeIndexRegisterIndirect
  else if '0' ≤ c ∧ c ≤ '9' then s.consumeDecimalLiteral
  else if c = '_' ∨ ('a' ≤ c ∧ c ≤ 'z') ∨ ('A' ≤ c ∧ c ≤ 'Z') then s.consumeIdentifier
  else if c = '\n' then s.consumeNewline
  else s.fail (.invalidCharacter c)

/-- `next_token` (also `Iterator::next`) — scanner.rs:435-471 and 488-493. -/
def nextToken [Target] (s : Scanner) : Run (Option Token × Scanner) := do
  let s ← s.consumeWhitespace
  if s.isAtEnd then return (none, s)
  else do
    let c ← s.charAt 0
    let (t, s') ← s.dispatch c
    return (some t, s')

end Scanner

/-- Drains the iterator: the tokens obtained by calling `next` until it answers `None`
(how the parser, parser.rs:209-223, sees the scanner). Fuel bounds the number of calls. -/
def drain [Target] : Nat → Scanner → Run (List Token)
  | 0, _ => .panic
  | fuel + 1, s => do
    let (t, s') ← s.nextToken
    match t with
    | none => return []
    | some t => do
      let rest ← drain fuel s'
      return t :: rest

/-- All tokens of a source text, as `parse(Scanner::new(path, &buffer))` sees them — main.rs:53-56.
The fuel, one call per byte plus one, is proved sufficient. -/
def scan [Target] (fileName input : Str) : Run (List Token) :=
  drain (byteLen input + 1) (Scanner.new fileName input)

end C8S
