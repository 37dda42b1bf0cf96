import Verif.Spec.Memory

namespace C8S.Spec

/-- The pairs of list elements at distinct positions satisfying `p`, in lexicographic order of positions:
the first element with each later one, then the pairs among the later ones. -/
def pairsWhere {α : Type} (p : α → α → Bool) : List α → List (α × α)
  | [] => []
  | a :: rest => ((rest.filter (p a)).map fun b => (a, b)) ++ pairsWhere p rest

end C8S.Spec
