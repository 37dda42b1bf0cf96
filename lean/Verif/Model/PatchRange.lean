import Verif.Model.IHex

/-
The overlap check with another test of two ranges. Not the code of /repo: `find_overlapping_ranges` and the writer with
`intersects` of data_range.rs:82-88 exchanged (`C133_code`: with it they are the functions of the code).
-/

namespace C8S

/-- `DataRange::intersects` — data_range.rs:82-88, with the ends not reduced to twelve bits: a proposed change. -/
def DataRange.intersectsWide (lhs rhs : DataRange) : Bool :=
  max lhs.startAddress.toNat rhs.startAddress.toNat <
    min (lhs.startAddress.toNat + lhs.len) (rhs.startAddress.toNat + rhs.len)

/-- `find_overlapping_ranges` — data_range.rs:95-115, with this test of two ranges. -/
def overlapsWith (meet : DataRange → DataRange → Bool) (ranges : List DataRange) : List (DataRange × DataRange) :=
  (List.range ranges.length).flatMap fun i =>
    (List.range' (i + 1) (ranges.length - (i + 1))).filterMap fun j =>
      match ranges[i]?, ranges[j]? with
      | some lhs, some rhs => if meet lhs rhs then some (lhs, rhs) else none
      | _, _ => none

/-- `ihex_representation_of_data_ranges` — ihex_writer.rs:27-68, with this test of two ranges in its assertion. -/
def ihexWith (meet : DataRange → DataRange → Bool) (ranges : List DataRange) : Run Str := do
  rustAssert ((overlapsWith meet ranges).length == 0)
  let records ← recordsOfRanges ranges
  let text ← rustUnwrap (createObjectFileRepresentation (records ++ [.endOfFile]))
  return text ++ "\n".toList

end C8S
