import Verif.Spec.Edit
import Verif.Spec.Calls
import Verif.Spec.Tool

/- Vocabulary on parts of a file that can change places. -/

namespace C8S.Spec

/-- Whole lines that, read as a file of their own, are statements that begin with an `.org`. -/
def SectionText [Target] (part : Str) : Prop := WholeLines part ∧ ∃ nodes, Statements part nodes ∧ StartsWithOrg nodes

/-- The texts describe the same bytes, perhaps in another order, or both none. -/
def SameMemory [Target] (file text file' text' : Str) : Prop :=
  (∀ bytes, Describes wordBinary file text bytes → ∃ bytes', Describes wordBinary file' text' bytes' ∧ bytes.Perm bytes') ∧
  ∀ bytes', Describes wordBinary file' text' bytes' → ∃ bytes, Describes wordBinary file text bytes ∧ bytes.Perm bytes'

end C8S.Spec
