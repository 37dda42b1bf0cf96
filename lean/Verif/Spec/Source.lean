import Verif.Spec.Lexical
import Verif.Spec.Operand
import Verif.Model.Parser

/- A canonical source text for every list of well-formed statements. -/

namespace C8S.Spec

/-- A letter or underscore, then letters, digits and underscores. -/
def PlainName (s : Str) : Prop := ∃ c t, s = c :: t ∧ NameStart c ∧ ∀ d ∈ t, NameChar d

/-- What the tokenizer yields as an identifier. -/
def IsName (s : Str) : Prop := PlainName s ∨ s = "[i]".toList ∨ s = "[I]".toList

def hexDigits : Str := "0123456789abcdef".toList

/-- The operand in source text. Numbers are written in decimal. -/
def operandText : Field → Str
  | .numericLiteral w => Nat.toDigits 10 w.toNat
  | .generalPurposeRegister r => ['v', hexDigits.getD r.toNat '?']
  | .delayTimer => "dt".toList
  | .soundTimer => "st".toList
  | .keypadRegister => "k".toList
  | .indexRegister => "i".toList
  | .indexRegisterIndirect => "[i]".toList
  | .identifier s => s
  | .bcd => "b".toList
  | .sprite => "f".toList

/-- The argument in source text. -/
def argumentText : Literal → Str
  | .string s => '"' :: (s ++ ['"'])
  | .numeric n => Nat.toDigits 10 n

/-- Separated by a comma and a space. -/
def separated : List Str → Str
  | [] => []
  | [s] => s
  | s :: t :: r => s ++ ", ".toList ++ separated (t :: r)

/-- The statement in source text, on a line of its own. -/
def lineText : Node → Str
  | .label _ s => s ++ ":\n".toList
  | .directive _ s xs => '.' :: s ++ " ".toList ++ separated (xs.map argumentText) ++ "\n".toList
  | .instruction _ s fs => s ++ " ".toList ++ separated (fs.map operandText) ++ "\n".toList

/-- The statements in source text. -/
def sourceText (ns : List Node) : Str := ns.flatMap lineText

/-- Operands that can be written. -/
def OperandFormed : Field → Prop
  | .generalPurposeRegister r => r.toNat ≤ 15
  | .identifier s => IsName s ∧ ∀ f, ¬ RegisterNamed s f
  | _ => True

/-- Arguments that can be written. -/
def ArgumentFormed : Literal → Prop
  | .string s => StringBody s
  | .numeric n => n ≤ 4095

/-- Statements that can be written. -/
def Formed : Node → Prop
  | .label _ s => IsName s
  | .directive _ s xs => IsName s ∧ ∀ x ∈ xs, ArgumentFormed x
  | .instruction _ s fs => IsName s ∧ ∀ f ∈ fs, OperandFormed f

end C8S.Spec
