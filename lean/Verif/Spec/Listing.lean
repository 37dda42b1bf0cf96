import Verif.Spec.Image
import Verif.Spec.Opcode

/- Listings: the texts of opcodes as lines of a source file. -/

namespace C8S.Spec

/-- The texts of the opcodes, each on its line and indented by a number of blanks. -/
def listing (lines : List (Nat × Opcode)) : Str :=
  lines.flatMap fun p => p.2.toFormattedAssemblyString p.1 ++ "\n".toList

/-- A line that sets the address. -/
def orgLine (a : U12) : Str := ".org ".toList ++ decimal a.toNat ++ "\n".toList

/-- The words of the opcodes, each as two bytes. -/
inductive WordBytes : List Opcode → List U8 → Prop where
  | nil : WordBytes [] []
  | cons {op : Opcode} {ops : List Opcode} {w : U16} {hi lo : U8} {bytes : List U8} :
    op.asInstruction = .ret w → w.toNat = hi.toNat * 256 + lo.toNat → WordBytes ops bytes →
    WordBytes (op :: ops) (hi :: lo :: bytes)

/-- The bytes, two at a time, decoded. -/
inductive Decoded : List U8 → List Opcode → Prop where
  | nil : Decoded [] []
  | cons {w : U16} {hi lo : U8} {bytes : List U8} {ops : List Opcode} : w.toNat = hi.toNat * 256 + lo.toNat →
    Decoded bytes ops → Decoded (hi :: lo :: bytes) (Opcode.fromInstruction w :: ops)

/-- The words of the bytes. -/
inductive HasWord : List U8 → U16 → Prop where
  | here {w : U16} {hi lo : U8} {bytes : List U8} : w.toNat = hi.toNat * 256 + lo.toNat → HasWord (hi :: lo :: bytes) w
  | later {w : U16} {hi lo : U8} {bytes : List U8} : HasWord bytes w → HasWord (hi :: lo :: bytes) w

end C8S.Spec
