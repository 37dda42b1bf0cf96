import Verif.Spec.Edit

/- Vocabulary on statements put into a program. -/

namespace C8S.Spec

/-- The statements define the label as an address, not as a constant. -/
def AddressLabel (nodes : List Node) (name : Str) : Prop :=
  ∃ p loc q, nodes = p ++ .label loc name :: q ∧ ∀ c, ¬ ConstantNext q c

/-- A place in a program for statements of `k` bytes: `A` stands before it, `B` behind it up to the next `.org`, `C` is the
remainder. It is not between a label and its constant. -/
structure Gap (A X B C : List Node) (k : Nat) : Prop where
  data : DataOnly X
  nonEmpty : X ≠ []
  size : Reaches X 0 k
  section_end : NoOrg B
  remainder : C = [] ∨ StartsWithOrg C
  whole : ∀ c, ¬ ConstantNext (B ++ C) c

/-- Instructions that take the label as an address, with the word for address 0. -/
inductive TakesAddress : Str → List Field → Str → Nat → Prop where
  | jp {m s : Str} : SameLetters m "jp".toList → TakesAddress m [.identifier s] s 0x1000
  | call {m s : Str} : SameLetters m "call".toList → TakesAddress m [.identifier s] s 0x2000
  | ld {m s : Str} : SameLetters m "ld".toList → TakesAddress m [.indexRegister, .identifier s] s 0xA000
  | jpOffset {m s : Str} : SameLetters m "jp".toList → TakesAddress m [.generalPurposeRegister 0, .identifier s] s 0xB000

end C8S.Spec
