import Verif.Spec.Flow

/-
Running a program: the order of execution of `Flow`, together with what the instructions do to registers, timers, screen and
memory. What they do is left open.
-/

namespace C8S.Spec

/-- The contents of memory. -/
abbrev Memory := Nat → U8

/-- The 4096 bytes of memory, with their addresses. -/
def contents (mem : Memory) : List (Nat × U8) := (List.range 4096).map fun a => (a, mem a)

/-- The bytes are in memory. -/
def Loaded (bytes : List (Nat × U8)) (mem : Memory) : Prop := ∀ p ∈ bytes, mem p.1 = p.2

/-- What the operations do. `D` is everything in the machine but memory, program counter and return addresses. -/
structure Semantics (D : Type) where
  /-- What an operation can do to the machine and its memory. -/
  does : Operation → D → Memory → D → Memory → Prop
  /-- Whether the test of a skipping operation succeeds. -/
  test : Operation → D → Prop
  /-- The value of the register `V0`. -/
  v0 : D → Nat

/-- Whether execution goes on in this way, as far as it depends on the state. -/
inductive Takes {D : Type} (sem : Semantics D) (d : D) : Executed → Prop where
  | next {op : Operation} : (op.1 ∈ skipping → ¬ sem.test op d) → Takes sem d (op, .next)
  | skip {op : Operation} : sem.test op d → Takes sem d (op, .skip)
  | jump {op : Operation} : Takes sem d (op, .jump)
  | offset {op : Operation} : Takes sem d (op, .offset (sem.v0 d))
  | call {op : Operation} : Takes sem d (op, .call)
  | ret {op : Operation} : Takes sem d (op, .ret)

/-- The operations are executed in turn, from a place, a state and a memory to others. `move` is how to get from place to
place; before each operation the memory meets `ok`. -/
inductive Execution {D : Type} (sem : Semantics D) (move : Memory → Executed → Nat × List Nat → Nat × List Nat → Prop)
    (ok : Memory → Prop) : List Executed → (Nat × List Nat) × D × Memory → (Nat × List Nat) × D × Memory → Prop where
  | nil {s : (Nat × List Nat) × D × Memory} : Execution sem move ok [] s s
  | cons {e : Executed} {es : List Executed} {p p' : Nat × List Nat} {d d' : D} {mem mem' : Memory}
    {s : (Nat × List Nat) × D × Memory} : ok mem → move mem e p p' → Takes sem d e → sem.does e.1 d mem d' mem' →
    Execution sem move ok es (p', d', mem') s → Execution sem move ok (e :: es) (p, d, mem) s

/-- The machine takes its instructions from memory, as it is at the time. -/
def byMachine (mem : Memory) : Executed → Nat × List Nat → Nat × List Nat → Prop := MachineStep (contents mem)

/-- A reader takes the instructions from the source text. -/
def byReader (nodes : List Node) (_ : Memory) : Executed → Nat × List Nat → Nat × List Nat → Prop := SourceStep nodes

/-- Where the instructions of the program are, nothing has been overwritten. -/
def Intact (nodes : List Node) (start mem : Memory) : Prop :=
  ∀ i a, InstructionAt nodes i a → mem a = start a ∧ mem (a + 1) = start (a + 1)

/-- The operations that store into memory, `LD [I], Vx` and `LD B, Vx`. -/
def Stores (op : Operation) : Prop :=
  op.1 = "ld".toList ∧ (op.2.head? = some .indexRegisterIndirect ∨ op.2.head? = some .bcd)

/-- No instruction of the program stores into memory. -/
def StoreFree (nodes : List Node) : Prop := ∀ i op, Spells nodes i op → ¬ Stores op

/-- No operation but those that store into memory changes it. -/
def Semantics.Regular {D : Type} (sem : Semantics D) : Prop :=
  ∀ op d mem d' mem', sem.does op d mem d' mem' → ¬ Stores op → mem' = mem

end C8S.Spec
