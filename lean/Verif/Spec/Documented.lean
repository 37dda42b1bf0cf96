import Verif.Spec.Whole
import Verif.Spec.Depends

/-! The behaviour that is documented, where a binary literal has the value of its digits whatever the machine is. -/

namespace C8S.Spec

/-- What the tool should do with a command line: a binary literal has the value of its digits. -/
def Documented (env : Env) (args : List Str) (events : List Event) (exit : Exit) : Prop :=
  Behaves trueBinary env args events exit

/-- The text has a binary literal over 4095 with more digits than a word has bits, of which the last ones are a number up to
4095. All tokens before it are valid. -/
def Misread (bits : Nat) (file text : Str) : Prop :=
  ∃ before digits l, Lex trueBinary file [] text (before ++ [.error (.binaryLiteralOutOfRange digits) l]) ∧
    bits < digits.length ∧ 4095 < positional 2 digits ∧ positional 2 digits % 2 ^ bits ≤ 4095

end C8S.Spec
