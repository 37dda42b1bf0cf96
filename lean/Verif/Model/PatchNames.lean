import Verif.Model.Parser

/-
The parser with another classification of names that are operands. Not the code of /repo: the functions of parser.rs:358-512
with the match of parser.rs:377-403 exchanged (`C134_code`: with it they are the functions of the code).
-/

namespace C8S

/-- `str::eq_ignore_ascii_case` of the standard library, for the change proposed for parser.rs:378-381. -/
def eqIgnoreCase (s t : Str) : Bool := s.map Char.toLower == t.map Char.toLower

/-- The classification of parser.rs:377-403 with the names of the two timers compared in either case: a proposed change. -/
def fieldOfAnyCase (id : Str) : Run Field :=
  if eqIgnoreCase id "dt".toList then .ret .delayTimer
  else if eqIgnoreCase id "st".toList then .ret .soundTimer
  else Parser.fieldOfIdentifier id

namespace Parser

/-- One field of `parse_field_list` — parser.rs:366-416, with this classification of names. -/
def parseFieldWith (classify : Str → Run Field) (p : Parser) : Run (Except ParseError (Field × Parser)) :=
  match p.current with
  | some (.numericLiteral number _) =>
    .ret (.ok (.numericLiteral (BitVec.ofNat 12 number), p.consumeToken.2))
  | some (.identifier id _) =>
    match classify id with
    | .panic => .panic
    | .ret f => .ret (.ok (f, p.consumeToken.2))
  | found => .ret (.error (syntaxError found [DisplayNames.instructionField]))

/-- `parse_field_list` — parser.rs:358-430, with this classification of names. -/
def parseFieldListWith (classify : Str → Run Field) : Nat → Parser → List Field → Run (Except ParseError (List Field × Parser))
  | 0, _, _ => .panic
  | fuel + 1, p, list =>
    match p.current with
    | some (.newline _) => .ret (.ok (list, p))
    | some (.singleLineComment _ _) => .ret (.ok (list, p))
    | _ =>
      match parseFieldWith classify p with
      | .panic => .panic
      | .ret (.error e) => .ret (.error e)
      | .ret (.ok (field, p)) =>
        match p.current with
        | some (.comma _) => parseFieldListWith classify fuel p.consumeToken.2 (list ++ [field])
        | _ => .ret (.ok (list ++ [field], p))

/-- `parse_instruction` — parser.rs:437-443, with this classification of names. -/
def parseInstructionWith (classify : Str → Run Field) (p : Parser) : Run (Except ParseError (Node × Parser)) :=
  match p.parseIdentifier with
  | .error e => .ret (.error e)
  | .ok ((mnemonic, loc), p) =>
    match parseFieldListWith classify (p.remaining + 1) p [] with
    | .panic => .panic
    | .ret (.error e) => .ret (.error e)
    | .ret (.ok (fields, p)) => .ret (.ok (.instruction loc mnemonic fields, p))

/-- `parse_statement` — parser.rs:450-470, with this classification of names. -/
def parseStatementWith (classify : Str → Run Field) (p : Parser) : Run (Except ParseError (Node × Parser)) :=
  match p.current, p.next with
  | some (.directiveMarker _), _ => p.parseDirective
  | some (.identifier _ _), some (.labelMarker _) => .ret p.parseLabel
  | some (.identifier _ _), _ => parseInstructionWith classify p
  | found, _ => .ret (.error (syntaxError found [DisplayNames.directiveMarker, DisplayNames.identifier]))

/-- `parse_statement_list` — parser.rs:477-498, with this classification of names. -/
def parseStatementListWith (classify : Str → Run Field) : Nat → Parser → List Node → Run (Except ParseError (List Node))
  | 0, _, _ => .panic
  | fuel + 1, p, nodes =>
    match p.current with
    | none => .ret (.ok nodes)
    | some (.singleLineComment _ _) => parseStatementListWith classify fuel p.consumeToken.2 nodes
    | some (.newline _) => parseStatementListWith classify fuel p.consumeToken.2 nodes
    | some _ =>
      match parseStatementWith classify p with
      | .panic => .panic
      | .ret (.error e) => .ret (.error e)
      | .ret (.ok (node, p)) => parseStatementListWith classify fuel p (nodes ++ [node])

end Parser

/-- `parse` — parser.rs:510-512, with this classification of names. -/
def parseWith (classify : Str → Run Field) (tokens : List Token) : Run (Except ParseError (List Node)) :=
  Parser.parseStatementListWith classify (tokens.length + 1) (Parser.new tokens) []

end C8S
