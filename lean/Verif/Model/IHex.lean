import Verif.Model.DataRange

/-
Model of /repo/src/assembler/ihex_writer.rs and of the two functions of the external crate `ihex` it calls
(`Record::to_record_string` and `writer::create_object_file_representation`); those two are modelled from the
crate's documented behaviour.
-/

namespace C8S

/-- `ihex::record::Record`, restricted to the two variants built by ihex_writer.rs:49 and 64. -/
inductive Record where
  | data (offset : U16) (value : List U8)
  | endOfFile
  deriving DecidableEq, Repr

/-- One byte as two upper-case hexadecimal digits (`{:02X}`, used by crate `ihex`) — ihex_writer.rs:67. -/
def hexByte (b : U8) : Str := padLeft '0' 2 (showHexUpper b.toNat)

/-- The checksum of crate `ihex`: two's complement of the sum of the bytes — ihex_writer.rs:67. -/
def ihexChecksum (bytes : List U8) : U8 := 0 - bytes.foldl (· + ·) 0

/-- Crate `ihex`: a record line `:LLAAAATT<data>CC`; an error when the payload exceeds 255 bytes — ihex_writer.rs:67.
-/
def formatRecord (recordType : U8) (address : U16) (data : List U8) : Option Str :=
  if data.length > 0xFF then none
  else
    let region : List U8 :=
      [BitVec.ofNat 8 data.length, (address >>> 8).setWidth 8, address.setWidth 8, recordType] ++ data
    some (":".toList ++ (region ++ [ihexChecksum region]).flatMap hexByte)

/-- `Record::to_record_string` of crate `ihex` — ihex_writer.rs:67. -/
def Record.toRecordString : Record → Option Str
  | .data offset value => formatRecord 0x00 offset value
  | .endOfFile => formatRecord 0x01 0 []

/-- `writer::create_object_file_representation` of crate `ihex`: the last record and only the last must be EOF; lines
are joined with newlines — ihex_writer.rs:67. -/
def createObjectFileRepresentation (records : List Record) : Option Str :=
  if records.getLast? ≠ some .endOfFile then none
  else if (records.filter (· = .endOfFile)).length > 1 then none
  else (records.mapM Record.toRecordString).map (joinWith "\n".toList)

/-- `[T]::chunks(16)`: consecutive chunks, the last one possibly shorter; fuel bounds the number of chunks —
ihex_writer.rs:46. -/
def chunksOf (n : Nat) : Nat → List U8 → List (List U8)
  | 0, _ => []
  | fuel + 1, data => if data = [] then [] else data.take n :: chunksOf n fuel (data.drop n)

/-- The per-range loop of `ihex_representation_of_data_ranges` — ihex_writer.rs:36-58. The running
`u16` address panics on overflow. -/
def recordsOfChunks : List (List U8) → Nat → Run (List Record)
  | [], _ => .ret []
  | chunk :: rest, address =>
    if address + chunk.length < 2 ^ 16 then
      match recordsOfChunks rest (address + chunk.length) with
      | .ret records => .ret (.data (BitVec.ofNat 16 address) chunk :: records)
      | .panic => .panic
    else .panic

/-- The outer loop — ihex_writer.rs:33-61. -/
def recordsOfRanges : List DataRange → Run (List Record)
  | [] => .ret []
  | range :: rest =>
    match recordsOfChunks (chunksOf 16 range.data.length range.data) range.addressRange.1.toNat with
    | .panic => .panic
    | .ret records =>
      match recordsOfRanges rest with
      | .panic => .panic
      | .ret more => .ret (records ++ more)

/-- `ihex_representation_of_data_ranges` — ihex_writer.rs:27-68. -/
def ihexRepresentationOfDataRanges (ranges : List DataRange) : Run Str := do
  rustAssert ((findOverlappingRanges ranges).length == 0)
  let records ← recordsOfRanges ranges
  let text ← rustUnwrap (createObjectFileRepresentation (records ++ [.endOfFile]))
  return text ++ "\n".toList

end C8S
