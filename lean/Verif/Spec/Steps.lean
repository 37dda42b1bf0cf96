import Verif.Spec.Complaints
import Verif.Spec.Tool
import Verif.Spec.Overlap
import Verif.Spec.Blocks
import Verif.Spec.Written

/- Specification of the steps: what each of them yields. -/

namespace C8S.Spec

/-- The tokens are not a program, and this is the error. -/
inductive Rejects (tokens : List Token) : ParseError → Prop where
  /-- The token cannot come after the ones before it, which are the beginning of a program. -/
  | token {pre post : List Token} {t : Token} {names : List Str} : tokens = pre ++ t :: post → Completable pre →
    ¬ Completable (pre ++ [t]) → MayFollow pre names → Rejects tokens (.unexpectedToken names t)
  /-- The tokens are the beginning of a program. -/
  | endOfFile {names : List Str} : Completable tokens → (¬ ∃ ns, Program tokens ns) → MayFollow tokens names →
    Rejects tokens (.unexpectedEndOfFile names)

/-- What the tokens are parsed to. -/
def ParsesTo (tokens : List Token) : Except ParseError (List Node) → Prop
  | .ok nodes => Program tokens nodes
  | .error e => Rejects tokens e

/-- What the program is assembled to. -/
def AssemblesTo (nodes : List Node) : Except SemanticError (List DataRange) → Prop
  | .ok ranges => ∃ labels sections, Valid nodes labels ∧ Sections labels 0 nodes sections ∧
      ranges = sections.filter fun r => decide (r.data ≠ [])
  | .error e => ∃ pre n, AtFault nodes pre n e

/-- The two ranges have an address in common, and none of them reaches the last address. -/
def Noticed (a b : DataRange) : Prop := Shares a b ∧ ¬ Occupies a 0xFFF ∧ ¬ Occupies b 0xFFF

/-- The text that is written for the ranges. -/
def WrittenAs (ranges : List DataRange) (text : Str) : Prop := ∃ blocks, AllBlocks ranges blocks ∧ FileOf blocks text

end C8S.Spec
