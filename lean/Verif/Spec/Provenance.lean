import Verif.Spec.Layout
import Verif.Spec.Tool

/- Which statement a byte of the output comes from. -/

namespace C8S.Spec

/-- Statement number `i` puts the byte `b` at address `x`. -/
def Puts (labels : LabelMap) (nodes : List Node) (i x : Nat) (b : U8) : Prop :=
  ∃ pre n post a bytes, nodes = pre ++ n :: post ∧ pre.length = i ∧ Reaches pre 0 a ∧ Emits labels n bytes ∧
    a ≤ x ∧ bytes[x - a]? = some b

/-- The first location is on an earlier line, or on the same one and ends before the second begins. -/
def Earlier (l l' : Loc) : Prop := l.line < l'.line ∨ l.line = l'.line ∧ l.location + l.length ≤ l'.location

end C8S.Spec
