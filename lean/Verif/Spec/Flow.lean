import Verif.Spec.Layout
import Verif.Spec.Rewrite

/-
The order in which instructions are executed, by the machine (from the "Function" column of the tables of README.md,
lines 74-119) and in the source text.
-/

namespace C8S.Spec

/-- An instruction of the machine: a mnemonic of the tables and operands without labels. -/
abbrev Operation := Str × List Field

/-- The mnemonic is one of the tables, as written there. -/
def Mnemonic (m : Str) : Prop := ∃ row ∈ table, m = row.mnemonic

/-- "Skip the next instruction if ...". -/
def skipping : List Str := ["se".toList, "sne".toList, "skp".toList, "sknp".toList]

/-- The instructions after which execution does not go on with the next one. -/
def leaving : List Str := ["jp".toList, "call".toList, "ret".toList, "trap".toList, "trapret".toList]

/-- The two bytes in memory at `pc` are the operation. -/
def Fetches (mem : List (Nat × U8)) (pc : Nat) (op : Operation) : Prop :=
  ∃ hi lo : U8, (pc, hi) ∈ mem ∧ (pc + 1, lo) ∈ mem ∧ Mnemonic op.1 ∧ Encodes [] op.1 op.2 (hi.toNat * 256 + lo.toNat)

/-- How execution goes on after an instruction. -/
inductive How where
  | next | skip | jump | offset (x : Nat) | call | ret

/-- An operation executed, and how execution goes on after it. -/
abbrev Executed := Operation × How

/-- The machine, with the given program counter and return addresses, can execute the operation and come to another
program counter and other return addresses. Registers, timers and keys are left out: both outcomes of a test, and all values
of a register, are possible. Traps end the execution. -/
inductive MachineStep (mem : List (Nat × U8)) : Executed → Nat × List Nat → Nat × List Nat → Prop where
  | next {op : Operation} {pc : Nat} {st : List Nat} : Fetches mem pc op → op.1 ∉ leaving →
    MachineStep mem (op, .next) (pc, st) (pc + 2, st)
  | skip {op : Operation} {pc : Nat} {st : List Nat} : Fetches mem pc op → op.1 ∈ skipping →
    MachineStep mem (op, .skip) (pc, st) (pc + 4, st)
  | jump {pc : Nat} {st : List Nat} {v : U12} : Fetches mem pc ("jp".toList, [.numericLiteral v]) →
    MachineStep mem (("jp".toList, [.numericLiteral v]), .jump) (pc, st) (v.toNat, st)
  | jumpV0 {pc x : Nat} {st : List Nat} {v : U12} :
    Fetches mem pc ("jp".toList, [.generalPurposeRegister 0, .numericLiteral v]) → x ≤ 255 →
    MachineStep mem (("jp".toList, [.generalPurposeRegister 0, .numericLiteral v]), .offset x) (pc, st) (v.toNat + x, st)
  | call {pc : Nat} {st : List Nat} {v : U12} : Fetches mem pc ("call".toList, [.numericLiteral v]) →
    MachineStep mem (("call".toList, [.numericLiteral v]), .call) (pc, st) (v.toNat, (pc + 2) :: st)
  | ret {pc r : Nat} {st : List Nat} : Fetches mem pc ("ret".toList, []) →
    MachineStep mem (("ret".toList, []), .ret) (pc, r :: st) (r, st)

/-- Statement number `i` is an instruction that spells the operation, the labels standing for their values. -/
def Spells (nodes : List Node) (i : Nat) (op : Operation) : Prop :=
  ∃ labels loc m fs, LabelsOf nodes labels ∧ nodes[i]? = some (.instruction loc m fs) ∧ Mnemonic op.1 ∧
    SameWord m op.1 ∧ op.2 = fs.map (inlineField labels)

/-- From statement number `i` on, `j` is the number of the first statement other than a label or a constant, and it is an
instruction. -/
inductive Lands (nodes : List Node) : Nat → Nat → Prop where
  | here {i : Nat} {loc : Loc} {m : Str} {fs : List Field} : nodes[i]? = some (.instruction loc m fs) → Lands nodes i i
  | label {i j : Nat} {loc : Loc} {name : Str} : nodes[i]? = some (.label loc name) → Lands nodes (i + 1) j →
    Lands nodes i j
  | constant {i j : Nat} {loc : Loc} {name : Str} {args : List Literal} {v : U12} :
    nodes[i]? = some (.directive loc name args) → DirectiveMeans name args (.equ v) → Lands nodes (i + 1) j →
    Lands nodes i j

/-- Statement number `d` is the definition of the label, without a constant. -/
def Marks (nodes : List Node) (name : Str) (d : Nat) : Prop :=
  (∃ loc, nodes[d]? = some (.label loc name)) ∧ ∀ c, ¬ ConstantNext (nodes.drop (d + 1)) c

/-- Statement number `i` is an instruction at address `a`. -/
def InstructionAt (nodes : List Node) (i a : Nat) : Prop :=
  (∃ loc m fs, nodes[i]? = some (.instruction loc m fs)) ∧ Reaches (nodes.take i) 0 a

/-- Statement number `i` has one operand. It is a label, and `j` is the number of the first instruction after the definition
of this label; or `j` is at the address that is the value of the operand. -/
def Targets (nodes : List Node) (i j : Nat) : Prop :=
  (∃ loc m name d, nodes[i]? = some (.instruction loc m [.identifier name]) ∧ Marks nodes name d ∧ Lands nodes d j) ∨
  (∃ op v, Spells nodes i op ∧ op.2 = [.numericLiteral v] ∧ InstructionAt nodes j v.toNat)

/-- Statement number `j` is `n` instructions after number `i`. -/
inductive Further (nodes : List Node) : Nat → Nat → Nat → Prop where
  | here {i : Nat} : Further nodes 0 i i
  | next {n i j k : Nat} : Lands nodes (i + 1) k → Further nodes n k j → Further nodes (n + 1) i j

/-- Statement number `i` has two operands. The second is a label, `x` is `2 * n` and `j` is `n` instructions after the first
instruction after the definition of this label; or `j` is at the address that is `x` plus the value of this operand. -/
def TargetsV0 (nodes : List Node) (i x j : Nat) : Prop :=
  (∃ loc m f name d n k, nodes[i]? = some (.instruction loc m [f, .identifier name]) ∧ Marks nodes name d ∧
    Lands nodes d k ∧ x = 2 * n ∧ Further nodes n k j) ∨
  (∃ op f v, Spells nodes i op ∧ op.2 = [f, .numericLiteral v] ∧ InstructionAt nodes j (v.toNat + x))

/-- Reading the source text, with the number of a statement and the numbers of the statements to return to, one can do the
operation and come to other numbers. -/
inductive SourceStep (nodes : List Node) : Executed → Nat × List Nat → Nat × List Nat → Prop where
  | next {op : Operation} {i j : Nat} {st : List Nat} : Spells nodes i op → op.1 ∉ leaving → Lands nodes (i + 1) j →
    SourceStep nodes (op, .next) (i, st) (j, st)
  | skip {op : Operation} {i j k : Nat} {st : List Nat} : Spells nodes i op → op.1 ∈ skipping → Lands nodes (i + 1) j →
    Lands nodes (j + 1) k → SourceStep nodes (op, .skip) (i, st) (k, st)
  | jump {op : Operation} {i j : Nat} {st : List Nat} : Spells nodes i op → op.1 = "jp".toList → Targets nodes i j →
    SourceStep nodes (op, .jump) (i, st) (j, st)
  | jumpV0 {op : Operation} {i j x : Nat} {st : List Nat} : Spells nodes i op → op.1 = "jp".toList → x ≤ 255 →
    TargetsV0 nodes i x j → SourceStep nodes (op, .offset x) (i, st) (j, st)
  | call {op : Operation} {i j r : Nat} {st : List Nat} : Spells nodes i op → op.1 = "call".toList → Targets nodes i j →
    Lands nodes (i + 1) r → SourceStep nodes (op, .call) (i, st) (j, r :: st)
  | ret {op : Operation} {i r : Nat} {st : List Nat} : Spells nodes i op → op.1 = "ret".toList →
    SourceStep nodes (op, .ret) (i, r :: st) (r, st)

/-- What happens in several steps. -/
inductive Trace {S : Type} (step : Executed → S → S → Prop) : List Executed → S → S → Prop where
  | nil {s : S} : Trace step [] s s
  | cons {e : Executed} {es : List Executed} {s t u : S} : step e s t → Trace step es t u → Trace step (e :: es) s u

/-- The instructions with these numbers are at these addresses. -/
inductive InstructionsAt (nodes : List Node) : List Nat → List Nat → Prop where
  | nil : InstructionsAt nodes [] []
  | cons {i a : Nat} {is as : List Nat} : InstructionAt nodes i a → InstructionsAt nodes is as →
    InstructionsAt nodes (i :: is) (a :: as)

/-- The machine is at the address of the statement, and has the addresses of the statements to return to. -/
def Placed (nodes : List Node) (s t : Nat × List Nat) : Prop := InstructionAt nodes s.1 t.1 ∧ InstructionsAt nodes s.2 t.2

/-- Execution does not leave the instructions of the text: jumps and calls are to instructions, and each instruction after
which execution goes on is followed by another one (two, if it can skip one). For jumps by `V0`, the values of `V0` with
`tables` are taken into account. -/
structure ClosedFlow (nodes : List Node) (tables : Nat → Prop) : Prop where
  next : ∀ i op, Spells nodes i op → op.1 ∉ leaving → ∃ j, Lands nodes (i + 1) j
  skip : ∀ i op j, Spells nodes i op → op.1 ∈ skipping → Lands nodes (i + 1) j → ∃ k, Lands nodes (j + 1) k
  jump : ∀ i op, Spells nodes i op → op.1 = "jp".toList → op.2.length = 1 → ∃ j, Targets nodes i j
  jumpV0 : ∀ i op x, Spells nodes i op → op.1 = "jp".toList → op.2.length = 2 → x ≤ 255 → tables x →
    ∃ j, TargetsV0 nodes i x j
  call : ∀ i op, Spells nodes i op → op.1 = "call".toList → ∃ j r, Targets nodes i j ∧ Lands nodes (i + 1) r

/-- The values of `V0` in the jumps by `V0` that are executed. -/
def Jumping (tables : Nat → Prop) (es : List Executed) : Prop := ∀ op x, (op, How.offset x) ∈ es → tables x

end C8S.Spec
