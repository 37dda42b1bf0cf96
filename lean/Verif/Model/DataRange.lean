import Verif.Model.Basic

/- Model of /repo/src/assembler/data_range.rs. -/

namespace C8S

/-- `DataRange` — data_range.rs:17-23. -/
structure DataRange where
  startAddress : U12
  data : List U8
  deriving DecidableEq, Repr

namespace DataRange

/-- `DataRange::new` — data_range.rs:38-43. -/
def new (startAddress : U12) : DataRange := { startAddress, data := [] }

/-- `DataRange::len` — data_range.rs:46-48. -/
def len (r : DataRange) : Nat := r.data.length

/-- `DataRange::address_range` — data_range.rs:56-61. `unchecked_into` truncates, `wrapping_add` is modulo 4096. -/
def addressRange (r : DataRange) : U12 × U12 := (r.startAddress, r.startAddress + BitVec.ofNat 12 r.len)

/-- `DataRange::bytes_remaining` — data_range.rs:64-67. The `usize` subtraction panics on underflow. -/
def bytesRemaining (r : DataRange) : Run Nat :=
  let total := (0xFFF - r.startAddress.toNat) + 1
  if r.len ≤ total then .ret (total - r.len) else .panic

/-- `DataRange::append` — data_range.rs:72-79. -/
def append (r : DataRange) (data : List U8) : Run (Bool × DataRange) := do
  let remaining ← r.bytesRemaining
  if remaining ≥ data.length then return (true, { r with data := r.data ++ data })
  else return (false, r)

/-- `DataRange::intersects` — data_range.rs:82-88. -/
def intersects (lhs rhs : DataRange) : Bool :=
  let l := lhs.addressRange
  let r := rhs.addressRange
  max l.1.toNat r.1.toNat < min l.2.toNat r.2.toNat

/-- `Display for DataRange` — data_range.rs:25-32. The subtraction `end - 1` panics when the end is 0. -/
def display (r : DataRange) : Run Str :=
  let first := r.addressRange.1.toNat
  let last := r.addressRange.2.toNat
  if last = 0 then .panic
  else .ret ("$".toList ++ padLeft '0' 3 (showHexUpper first) ++ "...$".toList
    ++ padLeft '0' 3 (showHexUpper (last - 1)) ++ " (".toList ++ showDec r.len ++ " bytes)".toList)

end DataRange

/-- `find_overlapping_ranges` — data_range.rs:95-115: pairs `(i, j)`, `i < j`, in lexicographic order. -/
def findOverlappingRanges (ranges : List DataRange) : List (DataRange × DataRange) :=
  (List.range ranges.length).flatMap fun i =>
    (List.range' (i + 1) (ranges.length - (i + 1))).filterMap fun j =>
      match ranges[i]?, ranges[j]? with
      | some lhs, some rhs => if lhs.intersects rhs then some (lhs, rhs) else none
      | _, _ => none

end C8S
