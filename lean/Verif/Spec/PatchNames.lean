import Verif.Model.Parser

/- Specification vocabulary for C134. -/

namespace C8S.Spec

/-- The operand as it is meant when the names of the timers may be written in mixed case. -/
def meant : Field → Field
  | .identifier name =>
    if name = "Dt".toList ∨ name = "dT".toList then .delayTimer
    else if name = "St".toList ∨ name = "sT".toList then .soundTimer
    else .identifier name
  | f => f

/-- The statement with its operands replaced. -/
def replaceOperands (g : Field → Field) : Node → Node
  | .instruction location mnemonic fields => .instruction location mnemonic (fields.map g)
  | n => n

/-- The outcome with the value replaced: panics and errors are the same. -/
def replaceValue {ε α β : Type} (g : α → β) : Run (Except ε α) → Run (Except ε β)
  | .panic => .panic
  | .ret (.error e) => .ret (.error e)
  | .ret (.ok a) => .ret (.ok (g a))

end C8S.Spec
