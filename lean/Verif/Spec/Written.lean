import Verif.Spec.Image
import Verif.Spec.IntelHex
import Verif.Spec.Link
import Verif.Spec.Respell

/- Specification of the object files there can be. -/

namespace C8S.Spec

/-- What a data record can hold: 1 to 16 bytes, none of them at the last address. -/
def Recordable (record : Nat × List U8) : Prop :=
  1 ≤ record.2.length ∧ record.2.length ≤ 16 ∧ record.1 + record.2.length ≤ 0xFFF

/-- The addressed bytes of the records, in order. -/
def recordBytes (records : List (Nat × List U8)) : List (Nat × U8) := records.flatMap fun b => placeAt b.1 b.2

/-- The text has one line for each of the records, and then the last line. -/
def FileOf (records : List (Nat × List U8)) (text : Str) : Prop :=
  ∃ lines : List Str, Each (fun b line => IsDataLine b.1 b.2 line) records lines ∧
    text = lines.flatMap (· ++ ['\n']) ++ lastLine

/-- A source text with an `.org` and a `.db` for each of the records. -/
def recordsSource (records : List (Nat × List U8)) : Str :=
  imageText (records.map fun b => ⟨BitVec.ofNat 12 b.1, b.2⟩)

end C8S.Spec
