import Verif.Proofs.Table

/- Property C108: the table of labels. -/

namespace C8S

open Spec

/-! ### C108 -/

/-- C108: the result of assembling is the same for any table that finds what was inserted, even if it does not allow for
a key to be inserted twice. -/
theorem C108_any_table (M : Type) [LabelTable M] (good : M → Prop) (h : IsMap M good) (nodes : List Node) :
    Table.assemble M nodes = assemble nodes := Table.assemble_eq h nodes

/-- C108: a hash table is such a table, whatever the hash function is and however it grows. -/
theorem C108_hash_table (hash : Str → Nat) (grow : Nat → Nat) : ∃ good, IsMap (Buckets hash grow) good :=
  ⟨_, Buckets.isMap hash grow⟩

/-- C108: the hash function and the growth have no influence on the result. -/
theorem C108_seed (hash hash' : Str → Nat) (grow grow' : Nat → Nat) (nodes : List Node) :
    Table.assemble (Buckets hash grow) nodes = Table.assemble (Buckets hash' grow') nodes := by
  obtain ⟨_, h⟩ := C108_hash_table hash grow
  obtain ⟨_, h'⟩ := C108_hash_table hash' grow'
  rw [C108_any_table _ _ h, C108_any_table _ _ h']

namespace TableExample

/-- `a: JP b`, `b: JP a`. -/
def program : List Node :=
  [.label ⟨[], 1, 0, 1⟩ "a".toList, .instruction ⟨[], 1, 0, 1⟩ "jp".toList [.identifier "b".toList],
    .label ⟨[], 2, 0, 1⟩ "b".toList, .instruction ⟨[], 2, 0, 1⟩ "jp".toList [.identifier "a".toList]]

end TableExample

/-- All keys in one chain, and keys spread by length in a table that grows. -/
example : (Table.assemble (Buckets (fun _ => 7) id) TableExample.program =
      .ret (.ok [⟨0, [0x10, 0x02, 0x10, 0x00]⟩])) ∧
    Table.assemble (Buckets List.length (2 * · + 1)) TableExample.program =
      .ret (.ok [⟨0, [0x10, 0x02, 0x10, 0x00]⟩]) := ⟨rfl, rfl⟩

end C8S
