import Verif.Spec.Adjust

/- Vocabulary on labels that are defined elsewhere, or in another way. -/

namespace C8S.Spec

/-- The program `N` has the statements `M` and a definition of `name`, as an address or as a constant, with the value `v`. -/
inductive Defines : List Node → List Node → Str → U12 → Prop where
  | address {A B : List Node} {l : Loc} {name : Str} {v : U12} :
    (∀ c, ¬ ConstantNext B c) → Reaches A 0 v.toNat → Defines (A ++ .label l name :: B) (A ++ B) name v
  | constant {A B : List Node} {l l' : Loc} {name en : Str} {args : List Literal} {v : U12} :
    DirectiveMeans en args (.equ v) → ¬ (EndsWithLabel A ∧ ∃ c, ConstantNext B c) →
    Defines (A ++ .label l name :: .directive l' en args :: B) (A ++ B) name v

end C8S.Spec
