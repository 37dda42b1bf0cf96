import Verif.Model.Parser
import Verif.Model.Scanner

/-
Second model of /repo/src/assembler/parser.rs, over an iterator instead of a list of tokens: tokens are pulled from
the iterator at the same places as in the code. `next` is the iterator's `next` function; it is arbitrary, may panic,
and need not be fused. The first model (`Parser.lean`) is proved to be this one for fused iterators.

An unbounded loop or recursion takes fuel, and running out of it is `.panic`. There is one fuel for all loops, since
the number of tokens that an iterator will yield is not known.
-/

namespace C8S

/-- `Parser<'a, I>` — parser.rs:156-163. -/
structure Stream (σ : Type) where
  scanner : σ
  current : Option Token
  next : Option Token

namespace Stream

variable {σ : Type} (next : σ → Run (Option Token × σ))

/-- `Parser::new` with `prime` — parser.rs:193-212. -/
def new (scanner : σ) : Run (Stream σ) := do
  let (current, scanner) ← next scanner
  let (following, scanner) ← next scanner
  return { scanner := scanner, current := current, next := following }

/-- `consume_token` — parser.rs:219-223. -/
def consumeToken (p : Stream σ) : Run (Option Token × Stream σ) := do
  let (following, scanner) ← next p.scanner
  return (p.current, { scanner := scanner, current := p.next, next := following })

/-- `parse_identifier` — parser.rs:245-253. -/
def parseIdentifier (p : Stream σ) : Run (Except ParseError ((Str × Loc) × Stream σ)) := do
  match ← consumeToken next p with
  | (some (.identifier id loc), p) => return .ok ((id, loc), p)
  | (unexpected, _) => return .error (Parser.syntaxError unexpected [DisplayNames.identifier])

/-- `parse_literal` — parser.rs:260-280. -/
def parseLiteral (p : Stream σ) : Run (Except ParseError (Literal × Stream σ)) :=
  match p.current with
  | some (.stringLiteral string _) => do
    let (_, p) ← consumeToken next p
    return .ok (.string string, p)
  | some (.numericLiteral number _) => do
    let (_, p) ← consumeToken next p
    return .ok (.numeric number, p)
  | found => return .error (Parser.syntaxError found [DisplayNames.numericLiteral, DisplayNames.stringLiteral])

/-- `parse_literal_list` — parser.rs:288-307. -/
def parseLiteralList : Nat → Stream σ → List Literal → Run (Except ParseError (List Literal × Stream σ))
  | 0, _, _ => .panic
  | fuel + 1, p, list =>
    match p.current with
    | some (.newline _) => return .ok (list, p)
    | _ => do
      match ← parseLiteral next p with
      | .error e => return .error e
      | .ok (literal, p) =>
        match p.current with
        | some (.comma _) => do
          let (_, p) ← consumeToken next p
          parseLiteralList fuel p (list ++ [literal])
        | _ => return .ok (list ++ [literal], p)

/-- `parse_directive` — parser.rs:314-328. -/
def parseDirective (fuel : Nat) (p : Stream σ) : Run (Except ParseError (Node × Stream σ)) := do
  match ← consumeToken next p with
  | (some (.directiveMarker _), p) =>
    match ← parseIdentifier next p with
    | .error e => return .error e
    | .ok ((id, loc), p) =>
      match ← parseLiteralList next fuel p [] with
      | .error e => return .error e
      | .ok (parameters, p) => return .ok (.directive loc id parameters, p)
  | (unexpected, _) => return .error (Parser.syntaxError unexpected [DisplayNames.directiveMarker])

/-- `parse_label` — parser.rs:335-348. -/
def parseLabel (p : Stream σ) : Run (Except ParseError (Node × Stream σ)) := do
  match ← parseIdentifier next p with
  | .error e => return .error e
  | .ok ((id, loc), p) =>
    match ← consumeToken next p with
    | (some (.labelMarker _), p) => return .ok (.label loc id, p)
    | (unexpected, _) => return .error (Parser.syntaxError unexpected [DisplayNames.labelMarker])

/-- One field of `parse_field_list` — parser.rs:366-416. The classification of an identifier, parser.rs:377-403,
pulls no token and is shared with the first model. -/
def parseField (p : Stream σ) : Run (Except ParseError (Field × Stream σ)) :=
  match p.current with
  | some (.numericLiteral number _) => do
    let (_, p) ← consumeToken next p
    return .ok (.numericLiteral (BitVec.ofNat 12 number), p)
  | some (.identifier id _) => do
    let field ← Parser.fieldOfIdentifier id
    let (_, p) ← consumeToken next p
    return .ok (field, p)
  | found => return .error (Parser.syntaxError found [DisplayNames.instructionField])

/-- `parse_field_list` — parser.rs:358-430. -/
def parseFieldList : Nat → Stream σ → List Field → Run (Except ParseError (List Field × Stream σ))
  | 0, _, _ => .panic
  | fuel + 1, p, list =>
    match p.current with
    | some (.newline _) => return .ok (list, p)
    | some (.singleLineComment _ _) => return .ok (list, p)
    | _ => do
      match ← parseField next p with
      | .error e => return .error e
      | .ok (field, p) =>
        match p.current with
        | some (.comma _) => do
          let (_, p) ← consumeToken next p
          parseFieldList fuel p (list ++ [field])
        | _ => return .ok (list ++ [field], p)

/-- `parse_instruction` — parser.rs:437-443. -/
def parseInstruction (fuel : Nat) (p : Stream σ) : Run (Except ParseError (Node × Stream σ)) := do
  match ← parseIdentifier next p with
  | .error e => return .error e
  | .ok ((mnemonic, loc), p) =>
    match ← parseFieldList next fuel p [] with
    | .error e => return .error e
    | .ok (fields, p) => return .ok (.instruction loc mnemonic fields, p)

/-- `parse_statement` — parser.rs:450-470. -/
def parseStatement (fuel : Nat) (p : Stream σ) : Run (Except ParseError (Node × Stream σ)) :=
  match p.current, p.next with
  | some (.directiveMarker _), _ => parseDirective next fuel p
  | some (.identifier _ _), some (.labelMarker _) => parseLabel next p
  | some (.identifier _ _), _ => parseInstruction next fuel p
  | found, _ => return .error (Parser.syntaxError found [DisplayNames.directiveMarker, DisplayNames.identifier])

/-- `parse_statement_list` — parser.rs:477-498. -/
def parseStatementList : Nat → Stream σ → List Node → Run (Except ParseError (List Node))
  | 0, _, _ => .panic
  | fuel + 1, p, nodes =>
    match p.current with
    | none => return .ok nodes
    | some (.singleLineComment _ _) => do
      let (_, p) ← consumeToken next p
      parseStatementList fuel p nodes
    | some (.newline _) => do
      let (_, p) ← consumeToken next p
      parseStatementList fuel p nodes
    | some _ => do
      match ← parseStatement next fuel p with
      | .error e => return .error e
      | .ok (node, p) => parseStatementList fuel p (nodes ++ [node])

end Stream

/-- `parse` — parser.rs:510-512, over an arbitrary iterator. -/
def parseStream {σ : Type} (next : σ → Run (Option Token × σ)) (fuel : Nat) (scanner : σ) :
    Run (Except ParseError (List Node)) := do
  let p ← Stream.new next scanner
  Stream.parseStatementList next fuel p []

end C8S
