import Verif.Model.Parser

/- How operands are shown in messages. -/

namespace C8S.Spec

/-- Texts put together. -/
def say (parts : List Str) : Str := parts.flatMap id

/-- How an operand is shown. -/
def shownOperand : Field → Str
  | .numericLiteral v => say ["literal:$".toList, Nat.toDigits 16 v.toNat]
  | .generalPurposeRegister r => say ["register:".toList, Nat.toDigits 16 r.toNat]
  | .delayTimer => "register:delay-timer".toList
  | .soundTimer => "register:sound-timer".toList
  | .keypadRegister => "register:keypad".toList
  | .indexRegister => "register:index".toList
  | .indexRegisterIndirect => "register-indirect:[index]".toList
  | .identifier name => say ["identifier:".toList, name]
  | .bcd => "bcd".toList
  | .sprite => "sprite".toList

/-- How operands are shown. -/
def shownOperands : List Field → Str
  | [] => []
  | [f] => shownOperand f
  | f :: g :: fs => say [shownOperand f, ", ".toList, shownOperands (g :: fs)]

end C8S.Spec
