import Verif.Model.System

/- Specification of reading and writing in pieces. -/

namespace C8S.Spec

/-- The answers to reading a file of these bytes: pieces of it, and its end, with interruptions between. -/
inductive Delivers : List ReadAnswer → List U8 → Prop where
  | ended {more : List ReadAnswer} : Delivers (.bytes [] :: more) []
  | piece {b rest : List U8} {more : List ReadAnswer} : b ≠ [] → Delivers more rest → Delivers (.bytes b :: more) (b ++ rest)
  | again {rest : List U8} {more : List ReadAnswer} : Delivers more rest → Delivers (.interrupted :: more) rest

/-- Reading fails for this reason before the end of the file. -/
inductive Breaks : List ReadAnswer → Str → Prop where
  | now {reason : Str} {more : List ReadAnswer} : Breaks (.failed reason :: more) reason
  | piece {b : List U8} {reason : Str} {more : List ReadAnswer} : b ≠ [] → Breaks more reason → Breaks (.bytes b :: more) reason
  | again {reason : Str} {more : List ReadAnswer} : Breaks more reason → Breaks (.interrupted :: more) reason

/-- The system takes so many bytes, however it divides them. -/
inductive RoomFor : List WriteAnswer → Nat → Prop where
  | enough {more : List WriteAnswer} : RoomFor more 0
  | some {n k : Nat} {more : List WriteAnswer} : 0 < n → RoomFor more (k - n) → RoomFor (.upTo n :: more) k
  | again {k : Nat} {more : List WriteAnswer} : RoomFor more k → RoomFor (.interrupted :: more) k

/-- Two systems with the same files, that both take any object file. -/
structure SameFiles (sys sys' : System) : Prop where
  opened : ∀ path, sys.openInput path = sys'.openInput path
  created : ∀ path, sys.createOutput path = sys'.createOutput path
  delivered : ∀ path bytes, Delivers (sys.reads path) bytes ↔ Delivers (sys'.reads path) bytes
  broken : ∀ path reason, Breaks (sys.reads path) reason ↔ Breaks (sys'.reads path) reason
  taken : ∀ dest k, k ≤ 57342 → RoomFor (sys.writes dest) k ∧ RoomFor (sys'.writes dest) k

end C8S.Spec
