import Verif.Model.Token

/-
Model of /repo/src/assembler/parser.rs. The scanner iterator is represented by the list of tokens it yields
before its first `None`; the scanner is fused (proved: `C8S.C08_fused`), so further calls yield `None`.
-/

namespace C8S

/-- `parser::Error` — parser.rs:22-28. -/
inductive ParseError where
  | unexpectedEndOfFile (expected : List Str)
  | unexpectedToken (expected : List Str) (encountered : Token)
  deriving DecidableEq, Repr

/-- `Display for parser::Error` — parser.rs:42-80 (panics on an empty expectation list). -/
def ParseError.display : ParseError → Run Str
  | .unexpectedEndOfFile expected =>
    match expected with
    | [] => .panic
    | [e] => .ret ("error: Unexpected end-of-file reached, expecting ".toList ++ e ++ ".".toList)
    | es => .ret ("error: Unexpected end-of-file reached, expecting one of: ".toList
        ++ joinWith ", ".toList es ++ ".".toList)
  | .unexpectedToken expected (.error reason location) =>
    let head := location.display ++ ": error: Encountered syntax error: ".toList ++ reason.display ++ "\n".toList
    match expected with
    | [] => .panic
    | [e] => .ret (head ++ location.display ++ ": error: Expecting ".toList ++ e ++ ".".toList)
    | es => .ret (head ++ location.display ++ ": error: Expecting one of: ".toList
        ++ joinWith ", ".toList es ++ ".".toList)
  | .unexpectedToken expected found =>
    let loc := found.location.display
    match expected with
    | [] => .panic
    | [e] => .ret (loc ++ ": error: Unexpected token found: ".toList ++ found.display
        ++ ", expecting ".toList ++ e ++ ".".toList)
    | es => .ret (loc ++ ": error: Unexpected token found: ".toList ++ found.display
        ++ ", expecting one of: ".toList ++ joinWith ", ".toList es ++ ".".toList)

/-- `Literal` — parser.rs:94-100. -/
inductive Literal where
  | string (s : Str)
  | numeric (n : Nat)
  deriving DecidableEq, Repr

/-- `InstructionField` — parser.rs:120-142. -/
inductive Field where
  | numericLiteral (value : U12)
  | generalPurposeRegister (r : U8)
  | delayTimer
  | soundTimer
  | keypadRegister
  | indexRegister
  | indexRegisterIndirect
  | identifier (name : Str)
  | bcd
  | sprite
  deriving DecidableEq, Repr

/-- `Display for InstructionField` — parser.rs:167-185. -/
def Field.display : Field → Str
  | .numericLiteral value => "literal:$".toList ++ showHexLower value.toNat
  | .generalPurposeRegister r => "register:".toList ++ showHexLower r.toNat
  | .delayTimer => "register:delay-timer".toList
  | .soundTimer => "register:sound-timer".toList
  | .keypadRegister => "register:keypad".toList
  | .indexRegister => "register:index".toList
  | .indexRegisterIndirect => "register-indirect:[index]".toList
  | .identifier id => "identifier:".toList ++ id
  | .bcd => "bcd".toList
  | .sprite => "sprite".toList

/-- `Node` with `DirectiveData`, `LabelData`, `InstructionData` — parser.rs:84-92, 102-118, 144-152. -/
inductive Node where
  | directive (location : Loc) (identifier : Str) (arguments : List Literal)
  | label (location : Loc) (identifier : Str)
  | instruction (location : Loc) (mnemonic : Str) (fields : List Field)
  deriving DecidableEq, Repr

/-- `Parser` — parser.rs:156-163. `scanner` holds the tokens the iterator has yet to yield. -/
structure Parser where
  scanner : List Token
  current : Option Token
  next : Option Token
  deriving DecidableEq, Repr

namespace Parser

/-- `Parser::new` and `prime` — parser.rs:193-212. -/
def new (scanner : List Token) : Parser :=
  { scanner := scanner.tail.tail, current := scanner.head?, next := scanner.tail.head? }

/-- `consume_token` — parser.rs:219-223. -/
def consumeToken (p : Parser) : Option Token × Parser :=
  (p.current, { scanner := p.scanner.tail, current := p.next, next := p.scanner.head? })

/-- Number of tokens not yet consumed. Only used as loop fuel — it bounds the loops and recursions of
parser.rs:288-500. -/
def remaining (p : Parser) : Nat := p.current.toList.length + p.next.toList.length + p.scanner.length

/-- `syntax_error_for_unexpected_token` — parser.rs:230-236. -/
def syntaxError (found : Option Token) (expected : List Str) : ParseError :=
  match found with
  | some token => .unexpectedToken expected token
  | none => .unexpectedEndOfFile expected

/-- `parse_identifier` — parser.rs:245-253. -/
def parseIdentifier (p : Parser) : Except ParseError ((Str × Loc) × Parser) :=
  match p.consumeToken with
  | (some (.identifier id loc), p') => .ok ((id, loc), p')
  | (unexpected, _) => .error (syntaxError unexpected [DisplayNames.identifier])

/-- `parse_literal` — parser.rs:260-280. -/
def parseLiteral (p : Parser) : Except ParseError (Literal × Parser) :=
  match p.current with
  | some (.stringLiteral string _) => .ok (.string string, p.consumeToken.2)
  | some (.numericLiteral number _) => .ok (.numeric number, p.consumeToken.2)
  | found => .error (syntaxError found [DisplayNames.numericLiteral, DisplayNames.stringLiteral])

/-- `parse_literal_list` — parser.rs:288-307. The recursion is bounded by explicit fuel. -/
def parseLiteralList : Nat → Parser → List Literal → Run (Except ParseError (List Literal × Parser))
  | 0, _, _ => .panic
  | fuel + 1, p, list =>
    match p.current with
    | some (.newline _) => .ret (.ok (list, p))
    | _ =>
      match p.parseLiteral with
      | .error e => .ret (.error e)
      | .ok (literal, p) =>
        match p.current with
        | some (.comma _) => parseLiteralList fuel p.consumeToken.2 (list ++ [literal])
        | _ => .ret (.ok (list ++ [literal], p))

/-- `parse_directive` — parser.rs:314-328. -/
def parseDirective (p : Parser) : Run (Except ParseError (Node × Parser)) :=
  match p.consumeToken with
  | (some (.directiveMarker _), p) =>
    match p.parseIdentifier with
    | .error e => .ret (.error e)
    | .ok ((id, loc), p) =>
      match parseLiteralList (p.remaining + 1) p [] with
      | .panic => .panic
      | .ret (.error e) => .ret (.error e)
      | .ret (.ok (parameters, p)) => .ret (.ok (.directive loc id parameters, p))
  | (unexpected, _) => .ret (.error (syntaxError unexpected [DisplayNames.directiveMarker]))

/-- `parse_label` — parser.rs:335-348. -/
def parseLabel (p : Parser) : Except ParseError (Node × Parser) :=
  match p.parseIdentifier with
  | .error e => .error e
  | .ok ((id, loc), p) =>
    match p.consumeToken with
    | (some (.labelMarker _), p) => .ok (.label loc id, p)
    | (unexpected, _) => .error (syntaxError unexpected [DisplayNames.labelMarker])

/-- Classification of an identifier operand — parser.rs:377-403. -/
def fieldOfIdentifier (id : Str) : Run Field :=
  if id = "dt".toList ∨ id = "DT".toList then .ret .delayTimer
  else if id = "st".toList ∨ id = "ST".toList then .ret .soundTimer
  else if id = "i".toList ∨ id = "I".toList then .ret .indexRegister
  else if id = "[i]".toList ∨ id = "[I]".toList then .ret .indexRegisterIndirect
  else if id = "k".toList ∨ id = "K".toList then .ret .keypadRegister
  else if id = "b".toList ∨ id = "B".toList then .ret .bcd
  else if id = "f".toList ∨ id = "F".toList then .ret .sprite
  else if id.length = 2 ∧ ("v".toList.isPrefixOf id ∨ "V".toList.isPrefixOf id) then do
    let numericPortion ← sliceFrom id 'v'.utf8Size
    match fromStrRadix 8 16 numericPortion with
    | some value => return .generalPurposeRegister (BitVec.ofNat 8 value)
    | none => return .identifier id
  else .ret (.identifier id)

/-- One field of `parse_field_list` — parser.rs:366-416. `unchecked_into` truncates to 12 bits. -/
def parseField (p : Parser) : Run (Except ParseError (Field × Parser)) :=
  match p.current with
  | some (.numericLiteral number _) =>
    .ret (.ok (.numericLiteral (BitVec.ofNat 12 number), p.consumeToken.2))
  | some (.identifier id _) =>
    match fieldOfIdentifier id with
    | .panic => .panic
    | .ret f => .ret (.ok (f, p.consumeToken.2))
  | found => .ret (.error (syntaxError found [DisplayNames.instructionField]))

/-- `parse_field_list` — parser.rs:358-430. The recursion is bounded by explicit fuel. -/
def parseFieldList : Nat → Parser → List Field → Run (Except ParseError (List Field × Parser))
  | 0, _, _ => .panic
  | fuel + 1, p, list =>
    match p.current with
    | some (.newline _) => .ret (.ok (list, p))
    | some (.singleLineComment _ _) => .ret (.ok (list, p))
    | _ =>
      match p.parseField with
      | .panic => .panic
      | .ret (.error e) => .ret (.error e)
      | .ret (.ok (field, p)) =>
        match p.current with
        | some (.comma _) => parseFieldList fuel p.consumeToken.2 (list ++ [field])
        | _ => .ret (.ok (list ++ [field], p))

/-- `parse_instruction` — parser.rs:437-443. -/
def parseInstruction (p : Parser) : Run (Except ParseError (Node × Parser)) :=
  match p.parseIdentifier with
  | .error e => .ret (.error e)
  | .ok ((mnemonic, loc), p) =>
    match parseFieldList (p.remaining + 1) p [] with
    | .panic => .panic
    | .ret (.error e) => .ret (.error e)
    | .ret (.ok (fields, p)) => .ret (.ok (.instruction loc mnemonic fields, p))

/-- `parse_statement` — parser.rs:450-470. -/
def parseStatement (p : Parser) : Run (Except ParseError (Node × Parser)) :=
  match p.current, p.next with
  | some (.directiveMarker _), _ => p.parseDirective
  | some (.identifier _ _), some (.labelMarker _) => .ret p.parseLabel
  | some (.identifier _ _), _ => p.parseInstruction
  | found, _ => .ret (.error (syntaxError found [DisplayNames.directiveMarker, DisplayNames.identifier]))

/-- `parse_statement_list` — parser.rs:477-498. The loop is bounded by explicit fuel. -/
def parseStatementList : Nat → Parser → List Node → Run (Except ParseError (List Node))
  | 0, _, _ => .panic
  | fuel + 1, p, nodes =>
    match p.current with
    | none => .ret (.ok nodes)
    | some (.singleLineComment _ _) => parseStatementList fuel p.consumeToken.2 nodes
    | some (.newline _) => parseStatementList fuel p.consumeToken.2 nodes
    | some _ =>
      match p.parseStatement with
      | .panic => .panic
      | .ret (.error e) => .ret (.error e)
      | .ret (.ok (node, p)) => parseStatementList fuel p (nodes ++ [node])

end Parser

/-- `parse` — parser.rs:510-512. -/
def parse (tokens : List Token) : Run (Except ParseError (List Node)) :=
  Parser.parseStatementList (tokens.length + 1) (Parser.new tokens) []

end C8S
