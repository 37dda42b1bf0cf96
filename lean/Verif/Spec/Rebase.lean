import Verif.Spec.Insert
import Verif.Spec.Provenance

/- Vocabulary on a section that is given another address. -/

namespace C8S.Spec

/-- A section of a program begins with the `.org` statement `o` for address `k`, or with `o'` for `k'` instead. `A` stands
before it, `B` are the statements of the section behind its `.org`, `C` is the remainder. -/
structure Rebased (A : List Node) (o o' : Node) (B C : List Node) (k k' : U12) : Prop where
  old : ∃ l s xs, o = .directive l s xs ∧ DirectiveMeans s xs (.org k)
  new : ∃ l s xs, o' = .directive l s xs ∧ DirectiveMeans s xs (.org k')
  section_end : NoOrg B
  remainder : C = [] ∨ StartsWithOrg C

/-- Statement number `i` of `A ++ o :: (B ++ C)` is one of `B`. -/
def WithinSection (A B : List Node) (i : Nat) : Prop := A.length < i ∧ i ≤ A.length + B.length

/-- An address `x` for statement number `i` when the section is at `k`, and `x'` when it is at `k'`: the statements of the
section go along with it, all others stay. -/
def GoesAlong (A B : List Node) (k k' : U12) (i x x' : Nat) : Prop :=
  (WithinSection A B i → x + k'.toNat = x' + k.toNat) ∧ (¬ WithinSection A B i → x = x')

/-- Statement number `i` is not an instruction that names a label defined as an address in `B`. -/
def NamesNone (nodes B : List Node) (i : Nat) : Prop :=
  ∀ l m fs s, nodes[i]? = some (.instruction l m fs) → .identifier s ∈ fs → ¬ AddressLabel B s

/-- Labels defined as addresses in `B` are only used as addresses. -/
def UsedAsAddresses (nodes B : List Node) : Prop :=
  ∀ l m fs s, .instruction l m fs ∈ nodes → .identifier s ∈ fs → AddressLabel B s → ∃ base, TakesAddress m fs s base

end C8S.Spec
