import Verif.Model.Token

/- The characters of messages. -/

namespace C8S.Spec

/-- A printable character of ASCII, or a blank. -/
def Printable (c : Char) : Prop := ' ' ≤ c ∧ c ≤ '~'

instance (c : Char) : Decidable (Printable c) := by unfold Printable; infer_instance

/-- All characters of the text are printable, or from another text. -/
def PlainBut (extra text : Str) : Prop := ∀ c ∈ text, Printable c ∨ c ∈ extra

/-- The characters of the file that a message about a token can show whatever they are: those of a string literal, and
a character that begins no token. -/
def verbatim : Token → Str
  | .stringLiteral s _ => s
  | .error (.invalidCharacter c) _ => [c]
  | _ => []

end C8S.Spec
