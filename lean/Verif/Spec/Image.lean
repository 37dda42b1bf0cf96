import Verif.Spec.Source
import Verif.Spec.Memory

/- A source text for given memory contents. -/

namespace C8S.Spec

/-- The number in decimal. -/
def decimal (n : Nat) : Str := Nat.toDigits 10 n

/-- Two lines placing the bytes of the range. -/
def rangeText (r : DataRange) : Str :=
  ".org ".toList ++ decimal r.startAddress.toNat ++ "\n.db ".toList ++
    separated (r.data.map fun b => decimal b.toNat) ++ "\n".toList

/-- A source text placing the bytes of the ranges. -/
def imageText (ranges : List DataRange) : Str := ranges.flatMap rangeText

/-- The range holds at least one byte, and does not reach the last address. -/
def Placeable (r : DataRange) : Prop := r.data ≠ [] ∧ rangeEnd r ≤ 0xFFF

end C8S.Spec
