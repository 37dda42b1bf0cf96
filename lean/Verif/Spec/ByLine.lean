import Verif.Spec.Locations
import Verif.Spec.Calls

/- Specification of the syntax of a text line by line. -/

namespace C8S.Spec

/-- The outcome of the syntax check of a text: its statements, or a syntax error. -/
def SyntaxOf [Target] (file text : Str) (out : Except ParseError (List Node)) : Prop :=
  ∃ tokens, scan file text = .ret tokens ∧ parse tokens = .ret out

/-- No string is left open at the end of the text. -/
def StringsClosed [Target] (text : Str) : Prop :=
  ∀ file tokens l, scan file text = .ret tokens → .error .invalidStringLiteral l ∉ tokens

/-- So many lines further down. -/
def further (n : Nat) : Loc → Loc := fun l => { l with line := l.line + n }

end C8S.Spec
