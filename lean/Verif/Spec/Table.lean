import Verif.Model.Table

/- Specification of a table of labels. -/

namespace C8S.Spec

/-- A table that finds the value that was inserted for a key. What happens if a key is inserted that is there is left
open. `good` holds of the tables that can arise. -/
structure IsMap (M : Type) [LabelTable M] (good : M → Prop) : Prop where
  empty_good : good LabelTable.empty
  insert_good : ∀ t key value, good t → LabelTable.get t key = none → good (LabelTable.insert t key value)
  get_empty : ∀ key, LabelTable.get (LabelTable.empty : M) key = none
  get_insert : ∀ t key value key', good t → LabelTable.get t key = none →
    LabelTable.get (LabelTable.insert t key value) key' = if key' = key then some value else LabelTable.get t key'
  contains : ∀ t key, good t → LabelTable.containsKey t key = (LabelTable.get t key).isSome

end C8S.Spec
