import Verif.Spec.Lexical
import Verif.Spec.Grammar
import Verif.Spec.Layout
import Verif.Spec.IntelHex
import Verif.Model.Main

/- Specification of the tool: what a source text describes, and vocabulary on the effects of a run. -/

namespace C8S.Spec

/-- An address below 4096 as three upper-case digits. -/
def upperTriple (a : Nat) : Str := [upperDigit (a / 256), upperDigit (a / 16 % 16), upperDigit (a % 16)]

/-- How a non-empty range of bytes is shown: its first address, its last address and its size. -/
def shownRange (r : DataRange) : Str :=
  "$".toList ++ upperTriple r.startAddress.toNat ++ "...$".toList ++
    upperTriple (r.startAddress.toNat + r.data.length - 1) ++ " (".toList ++ Nat.toDigits 10 r.data.length ++
    " bytes)".toList

/-- The source text is that of a valid program with these addressed bytes. `bin` is the reading of binary digits. -/
def Describes (bin : Str → Nat) (file text : Str) (bytes : List (Nat × U8)) : Prop :=
  ∃ tokens nodes labels, Lex bin file [] text tokens ∧ Program tokens nodes ∧ Valid nodes labels ∧
    Writes labels nodes 0 bytes

/-- No address receives two bytes. -/
def NoCollision (bytes : List (Nat × U8)) : Prop := (bytes.map Prod.fst).Nodup

/-- The text is the Intel HEX file of these bytes. -/
def HexOf (hex : Str) (bytes : List (Nat × U8)) : Prop := readHex hex = some (bytes.map fun p => (p.1, p.2.toNat))

/-- Nothing but printing has happened. -/
def PrintsOnly (events : List Event) : Prop := ∀ e ∈ events, ∃ text, e = .printed text

/-- No output has been created or written. -/
def NoOutput (events : List Event) : Prop := ∀ e ∈ events, (∀ p, e ≠ .created p) ∧ ∀ d b, e ≠ .wrote d b

/-- All bytes written to a destination. -/
def bytesTo (d : Dest) (events : List Event) : List U8 :=
  events.flatMap fun
    | .wrote d' bytes => if d' = d then bytes else []
    | _ => []

/-- Where the output goes. -/
def destination (output : Str) : Dest := if output = "-".toList then .stdout else .file output

/-- Creating and writing the output succeeds. -/
def CanWrite (env : Env) (output : Str) : Prop :=
  (output ≠ "-".toList → env.createOutput output = .ok ()) ∧ ∀ bytes, env.writeOutput (destination output) bytes = .ok ()

/-- The location of a statement. -/
def nodeLocation : Node → Loc
  | .directive l _ _ => l
  | .label l _ => l
  | .instruction l _ _ => l

/-- The statement after `pre` is the one at fault, with the given error: it is the first one with a layout fault, or there
is none and it is the first instruction that cannot be encoded. -/
def AtFault (nodes pre : List Node) (n : Node) (e : SemanticError) : Prop :=
  ∃ post, nodes = pre ++ n :: post ∧
    ((Clean pre ∧ Faulty pre n e) ∨
      ∃ labels loc m fields reason, Clean nodes ∧ LabelsOf nodes labels ∧ n = .instruction loc m fields ∧
        (∀ l m f, .instruction l m f ∈ pre → ∃ w, Encodes labels m f w) ∧
        InstructionFails labels m fields reason ∧ e = .assemblyFailed loc reason)

end C8S.Spec
