import Verif.Model.Parser

/-
The parser on a stack that has room for a given number of nested calls of `parse_literal_list` or `parse_field_list`, the
two rules that call themselves (parser.rs:304, 424). A call that has no room ends the process; here this is `panic`. The
other rules nest to a fixed depth. A compiler may turn the call in parser.rs:304 into a jump, but need not.
-/

namespace C8S

namespace Parser

/-- `parse_directive` — parser.rs:314-328. -/
def parseDirectiveOn (room : Nat) (p : Parser) : Run (Except ParseError (Node × Parser)) :=
  match p.consumeToken with
  | (some (.directiveMarker _), p) =>
    match p.parseIdentifier with
    | .error e => .ret (.error e)
    | .ok ((id, loc), p) =>
      match parseLiteralList room p [] with
      | .panic => .panic
      | .ret (.error e) => .ret (.error e)
      | .ret (.ok (parameters, p)) => .ret (.ok (.directive loc id parameters, p))
  | (unexpected, _) => .ret (.error (syntaxError unexpected [DisplayNames.directiveMarker]))

/-- `parse_instruction` — parser.rs:437-443. -/
def parseInstructionOn (room : Nat) (p : Parser) : Run (Except ParseError (Node × Parser)) :=
  match p.parseIdentifier with
  | .error e => .ret (.error e)
  | .ok ((mnemonic, loc), p) =>
    match parseFieldList room p [] with
    | .panic => .panic
    | .ret (.error e) => .ret (.error e)
    | .ret (.ok (fields, p)) => .ret (.ok (.instruction loc mnemonic fields, p))

/-- `parse_statement` — parser.rs:450-470. -/
def parseStatementOn (room : Nat) (p : Parser) : Run (Except ParseError (Node × Parser)) :=
  match p.current, p.next with
  | some (.directiveMarker _), _ => p.parseDirectiveOn room
  | some (.identifier _ _), some (.labelMarker _) => .ret p.parseLabel
  | some (.identifier _ _), _ => p.parseInstructionOn room
  | found, _ => .ret (.error (syntaxError found [DisplayNames.directiveMarker, DisplayNames.identifier]))

/-- `parse_statement_list` — parser.rs:477-498. The loop is bounded by explicit fuel. -/
def parseStatementListOn (room : Nat) : Nat → Parser → List Node → Run (Except ParseError (List Node))
  | 0, _, _ => .panic
  | fuel + 1, p, nodes =>
    match p.current with
    | none => .ret (.ok nodes)
    | some (.singleLineComment _ _) => parseStatementListOn room fuel p.consumeToken.2 nodes
    | some (.newline _) => parseStatementListOn room fuel p.consumeToken.2 nodes
    | some _ =>
      match p.parseStatementOn room with
      | .panic => .panic
      | .ret (.error e) => .ret (.error e)
      | .ret (.ok (node, p)) => parseStatementListOn room fuel p (nodes ++ [node])

end Parser

/-- `parse` — parser.rs:510-512. -/
def parseOn (room : Nat) (tokens : List Token) : Run (Except ParseError (List Node)) :=
  Parser.parseStatementListOn room (tokens.length + 1) (Parser.new tokens) []

end C8S
