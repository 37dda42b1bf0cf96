import Verif.Spec.Isa
import Verif.Spec.Layout

/- Vocabulary on a constant that is given another value. -/

namespace C8S.Spec

/-- The largest number that can be put in the place, for the places that take a number. -/
def Slot.limit : Slot → Option Nat
  | .addr => some 4095
  | .nn => some 255
  | .n => some 15
  | _ => none

/-- The instruction takes numbers up to the limit. -/
def TakesUpTo (m : Str) (fs : List Field) (limit : Nat) : Prop :=
  ∃ row s, Selects row m fs ∧ s ∈ row.slots ∧ s.limit = some limit

/-- The program `nodes` has the statements `A`, the definition of the constant `name` as `v`, and the statements `B`. -/
def WithConstant (nodes A : List Node) (name : Str) (v : U12) (B : List Node) : Prop :=
  ∃ l l' en args, nodes = A ++ .label l name :: .directive l' en args :: B ∧ DirectiveMeans en args (.equ v)

end C8S.Spec
