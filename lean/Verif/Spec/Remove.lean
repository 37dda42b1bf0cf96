import Verif.Spec.Rewrite

/- Vocabulary on statements that are taken out of a program. -/

namespace C8S.Spec

/-- The second program has the statements of the first one, in order, but for any number of instructions and `.db`. -/
inductive Thinned : List Node → List Node → Prop where
  | nil : Thinned [] []
  | keep {n : Node} {ns ns' : List Node} : Thinned ns ns' → Thinned (n :: ns) (n :: ns')
  | drop {n : Node} {ns ns' : List Node} : DataOnly [n] → Thinned ns ns' → Thinned (n :: ns) ns'

end C8S.Spec
