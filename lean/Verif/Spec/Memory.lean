import Verif.Model.DataRange

/-
Specification vocabulary for memory contents: plain natural-number addresses, no wrap-around.
-/

namespace C8S.Spec

/-- Number of addressable bytes. -/
def memorySize : Nat := 4096

/-- The bytes `bs` placed at consecutive addresses from `a`. -/
def placeAt : Nat → List U8 → List (Nat × U8)
  | _, [] => []
  | a, b :: bs => (a, b) :: placeAt (a + 1) bs

/-- The address just past the last byte of a range, not reduced modulo anything. -/
def rangeEnd (r : DataRange) : Nat := r.startAddress.toNat + r.data.length

/-- A range lies inside the address space. Every range built by `new` and `append` does. -/
def InMemory (r : DataRange) : Prop := rangeEnd r ≤ memorySize

instance (r : DataRange) : Decidable (InMemory r) := inferInstanceAs (Decidable (_ ≤ _))

/-- Address `a` holds a byte of the range. -/
def Occupies (r : DataRange) (a : Nat) : Prop := r.startAddress.toNat ≤ a ∧ a < rangeEnd r

/-- Some address belongs to both ranges. -/
def Shares (r s : DataRange) : Prop := ∃ a, Occupies r a ∧ Occupies s a

/-- The addressed bytes of a list of ranges, in order. -/
def image (ranges : List DataRange) : List (Nat × U8) :=
  ranges.flatMap fun r => placeAt r.startAddress.toNat r.data

end C8S.Spec
