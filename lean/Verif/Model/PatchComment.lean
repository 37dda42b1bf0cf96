import Verif.Model.Parser

/-
A proposed change of /repo/src/assembler/parser.rs, not code of the repository: the list of the arguments of a directive
stops at a comment as well as at a newline. Everything else is as in `Model/Parser.lean`.
-/

namespace C8S

namespace Parser

/-- `parse_literal_list` — parser.rs:288-307, changed to stop at a comment, as
`parse_field_list` does (parser.rs:358-364). The recursion is bounded by explicit fuel. -/
def parseLiteralListStop : Nat → Parser → List Literal → Run (Except ParseError (List Literal × Parser))
  | 0, _, _ => .panic
  | fuel + 1, p, list =>
    match p.current with
    | some (.newline _) => .ret (.ok (list, p))
    | some (.singleLineComment _ _) => .ret (.ok (list, p))
    | _ =>
      match p.parseLiteral with
      | .error e => .ret (.error e)
      | .ok (literal, p) =>
        match p.current with
        | some (.comma _) => parseLiteralListStop fuel p.consumeToken.2 (list ++ [literal])
        | _ => .ret (.ok (list ++ [literal], p))

/-- `parse_directive` — parser.rs:314-328, with the changed list. -/
def parseDirectiveStop (p : Parser) : Run (Except ParseError (Node × Parser)) :=
  match p.consumeToken with
  | (some (.directiveMarker _), p) =>
    match p.parseIdentifier with
    | .error e => .ret (.error e)
    | .ok ((id, loc), p) =>
      match parseLiteralListStop (p.remaining + 1) p [] with
      | .panic => .panic
      | .ret (.error e) => .ret (.error e)
      | .ret (.ok (parameters, p)) => .ret (.ok (.directive loc id parameters, p))
  | (unexpected, _) => .ret (.error (syntaxError unexpected [DisplayNames.directiveMarker]))

/-- `parse_statement` — parser.rs:450-470, with the changed directive. -/
def parseStatementStop (p : Parser) : Run (Except ParseError (Node × Parser)) :=
  match p.current, p.next with
  | some (.directiveMarker _), _ => p.parseDirectiveStop
  | some (.identifier _ _), some (.labelMarker _) => .ret p.parseLabel
  | some (.identifier _ _), _ => p.parseInstruction
  | found, _ => .ret (.error (syntaxError found [DisplayNames.directiveMarker, DisplayNames.identifier]))

/-- `parse_statement_list` — parser.rs:477-498, with the changed statement. The loop is bounded by explicit fuel. -/
def parseStatementListStop : Nat → Parser → List Node → Run (Except ParseError (List Node))
  | 0, _, _ => .panic
  | fuel + 1, p, nodes =>
    match p.current with
    | none => .ret (.ok nodes)
    | some (.singleLineComment _ _) => parseStatementListStop fuel p.consumeToken.2 nodes
    | some (.newline _) => parseStatementListStop fuel p.consumeToken.2 nodes
    | some _ =>
      match p.parseStatementStop with
      | .panic => .panic
      | .ret (.error e) => .ret (.error e)
      | .ret (.ok (node, p)) => parseStatementListStop fuel p (nodes ++ [node])

end Parser

/-- `parse` — parser.rs:510-512, with the changed list. -/
def parseStop (tokens : List Token) : Run (Except ParseError (List Node)) :=
  Parser.parseStatementListStop (tokens.length + 1) (Parser.new tokens) []

end C8S
