import Verif.Spec.Memory
import Verif.Spec.Rewrite

/- The blocks of an object file: what its data records hold. -/

namespace C8S.Spec

/-- The bytes from address `a` in blocks of 16, and a last one of 1 to 16. -/
inductive RangeBlocks : Nat → List U8 → List (Nat × List U8) → Prop where
  | empty {a : Nat} : RangeBlocks a [] []
  | last {a : Nat} {bytes : List U8} : 1 ≤ bytes.length → bytes.length ≤ 16 → RangeBlocks a bytes [(a, bytes)]
  | more {a : Nat} {bytes rest : List U8} {bs : List (Nat × List U8)} : bytes.length = 16 → rest ≠ [] →
    RangeBlocks (a + 16) rest bs → RangeBlocks a (bytes ++ rest) ((a, bytes) :: bs)

/-- The blocks of the ranges, in order. -/
inductive AllBlocks : List DataRange → List (Nat × List U8) → Prop where
  | nil : AllBlocks [] []
  | cons {r : DataRange} {rs : List DataRange} {bs bs' : List (Nat × List U8)} :
    RangeBlocks r.startAddress.toNat r.data bs → AllBlocks rs bs' → AllBlocks (r :: rs) (bs ++ bs')

/-- The section in which the statements end starts at address `u`: that of the last `.org`, or 0. -/
inductive SectionStart : List Node → U12 → Prop where
  | first {Q : List Node} : NoOrg Q → SectionStart Q 0
  | org {P Q : List Node} {l : Loc} {s : Str} {xs : List Literal} {u : U12} : DirectiveMeans s xs (.org u) → NoOrg Q →
    SectionStart (P ++ .directive l s xs :: Q) u

end C8S.Spec
