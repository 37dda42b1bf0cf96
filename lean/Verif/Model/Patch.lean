import Verif.Model.Main

/-!
The scanner with the conversion of binary digits left open, and a conversion that stops at the first value over 4095. Only the
second is not in the repository: it is a proposed change of `parse_12_bit_bin_str`.
-/

namespace C8S

/-- The loop of `parse_12_bit_bin_str` (scanner.rs:90-113) with one test added: after each digit, a value over 4095 is reported.
The shift is that of the code, which loses the top bit of the word. -/
def patchedLoop [Target] (whole : Str) : Str → Nat → Except ScanError Nat
  | [], acc => .ok acc
  | c :: s, acc =>
    if c = '.' ∨ c = '0' then
      if (acc <<< 1) % 2 ^ usizeBits ||| 0 ≤ 0xFFF then patchedLoop whole s ((acc <<< 1) % 2 ^ usizeBits ||| 0)
      else .error (.binaryLiteralOutOfRange whole)
    else if c = '1' then
      if (acc <<< 1) % 2 ^ usizeBits ||| 1 ≤ 0xFFF then patchedLoop whole s ((acc <<< 1) % 2 ^ usizeBits ||| 1)
      else .error (.binaryLiteralOutOfRange whole)
    else .error .invalidBinaryLiteral

/-- `parse_12_bit_bin_str` (scanner.rs:89-121) with that loop. -/
def patchedBinStr [Target] (s : Str) : Except ScanError Nat := patchedLoop s s 0

namespace Scanner

/-- `consume_bin_literal` — scanner.rs:204-234 — with this conversion of the digits. -/
def consumeBinWith (conv : Str → Except ScanError Nat) (s : Scanner) : Run (Token × Scanner) := do
  let t ← sliceFrom s.input s.position
  match reBin t with
  | some n => do
    let digits ← slice s.input (s.position + '$'.utf8Size) (s.position + n)
    let (loc, s') ← s.advanceBy n
    match conv digits with
    | .ok value => return (.numericLiteral value loc, s')
    | .error e => return (.error e loc, { s' with position := byteLen s.input })
  | none => s.fail .invalidBinaryLiteral

/-- The dispatch of `next_token` — scanner.rs:441-470 — with this conversion of binary digits. -/
def dispatchWith [Target] (conv : Str → Except ScanError Nat) (s : Scanner) (c : Char) : Run (Token × Scanner) :=
  if c = '%' then s.consumeBinWith conv else s.dispatch c

/-- `next_token` — scanner.rs:435-471 — with this conversion of binary digits. -/
def nextTokenWith [Target] (conv : Str → Except ScanError Nat) (s : Scanner) : Run (Option Token × Scanner) := do
  let s ← s.consumeWhitespace
  if s.isAtEnd then return (none, s)
  else do
    let c ← s.charAt 0
    let (t, s') ← s.dispatchWith conv c
    return (some t, s')

end Scanner

/-- As `drain`, with this conversion of binary digits — parser.rs:209-223. -/
def drainWith [Target] (conv : Str → Except ScanError Nat) : Nat → Scanner → Run (List Token)
  | 0, _ => .panic
  | fuel + 1, s => do
    let (t, s') ← s.nextTokenWith conv
    match t with
    | none => return []
    | some t => do
      let rest ← drainWith conv fuel s'
      return t :: rest

/-- As `scan`, with this conversion of binary digits — main.rs:53-56. -/
def scanWith [Target] (conv : Str → Except ScanError Nat) (fileName input : Str) : Run (List Token) :=
  drainWith conv (byteLen input + 1) (Scanner.new fileName input)

end C8S
