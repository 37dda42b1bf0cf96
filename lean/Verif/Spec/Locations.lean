import Verif.Spec.Calls
import Verif.Model.Assembler

/- Changing source locations in tokens, statements and errors. -/

namespace C8S.Spec

/-- The statement with its location changed. -/
def nodeMap (f : Loc → Loc) : Node → Node
  | .directive l s xs => .directive (f l) s xs
  | .label l s => .label (f l) s
  | .instruction l s fs => .instruction (f l) s fs

/-- The syntax error with its location changed. -/
def parseErrorMap (f : Loc → Loc) : ParseError → ParseError
  | .unexpectedEndOfFile names => .unexpectedEndOfFile names
  | .unexpectedToken names t => .unexpectedToken names (mapLoc f t)

/-- The semantic error with its location changed. -/
def semanticErrorMap (f : Loc → Loc) : SemanticError → SemanticError
  | .directiveInvalid l r => .directiveInvalid (f l) r
  | .directiveTooLarge l d => .directiveTooLarge (f l) d
  | .directiveWouldOverflow l d => .directiveWouldOverflow (f l) d
  | .instructionWouldOverflow l => .instructionWouldOverflow (f l)
  | .redefinitionOfLabel l s => .redefinitionOfLabel (f l) s
  | .assemblyFailed l r => .assemblyFailed (f l) r
  | .constantWithoutLabel l => .constantWithoutLabel (f l)

/-- The outcome of parsing with its locations changed. -/
def parsedMap (f : Loc → Loc) : Except ParseError (List Node) → Except ParseError (List Node)
  | .ok ns => .ok (ns.map (nodeMap f))
  | .error e => .error (parseErrorMap f e)

/-- The outcome of assembly with its locations changed. -/
def assembledMap {α : Type} (f : Loc → Loc) : Except SemanticError α → Except SemanticError α
  | .ok r => .ok r
  | .error e => .error (semanticErrorMap f e)

/-- Forgets a location. -/
def nowhere : Loc → Loc := fun _ => ⟨[], 0, 0, 0⟩

/-- The token but for its location. -/
def bare : Token → Token := mapLoc nowhere

/-- The statement but for its location. -/
def bareNode : Node → Node := nodeMap nowhere

end C8S.Spec
