import Verif.Spec.Directive
import Verif.Spec.Isa
import Verif.Spec.Memory
import Verif.Model.Assembler

/-
Specification of program layout: where statements are placed, what labels stand for, which programs are valid
and which statement is at fault in an invalid one. Addresses are plain natural numbers.
-/

namespace C8S.Spec

/-- A statement moves the address counter from `a` to `b`. -/
inductive Moves : Node → Nat → Nat → Prop where
  | org {loc : Loc} {name : Str} {args : List Literal} {v : U12} {a : Nat} :
    DirectiveMeans name args (.org v) → Moves (.directive loc name args) a v.toNat
  | db {loc : Loc} {name : Str} {args : List Literal} {bytes : List U8} {a : Nat} :
    DirectiveMeans name args (.db bytes) → Moves (.directive loc name args) a (a + bytes.length)
  | equ {loc : Loc} {name : Str} {args : List Literal} {v : U12} {a : Nat} :
    DirectiveMeans name args (.equ v) → Moves (.directive loc name args) a a
  | label {loc : Loc} {name : Str} {a : Nat} : Moves (.label loc name) a a
  | instruction {loc : Loc} {m : Str} {fields : List Field} {a : Nat} :
    Moves (.instruction loc m fields) a (a + 2)

/-- The statements move the address counter from `a` to `b`. -/
inductive Reaches : List Node → Nat → Nat → Prop where
  | nil {a : Nat} : Reaches [] a a
  | cons {n : Node} {ns : List Node} {a b c : Nat} : Moves n a b → Reaches ns b c → Reaches (n :: ns) a c

/-- The statements begin with the constant definition `.equ v`. -/
inductive ConstantNext : List Node → U12 → Prop where
  | intro {loc : Loc} {name : Str} {args : List Literal} {v : U12} {rest : List Node} :
    DirectiveMeans name args (.equ v) → ConstantNext (.directive loc name args :: rest) v

/-- The value of the label named `name` defined in a program: the constant that follows its definition, or else
the address reached there. -/
inductive LabelValue : List Node → Str → U12 → Prop where
  | constant {pre post : List Node} {loc : Loc} {name : Str} {v : U12} :
    ConstantNext post v → LabelValue (pre ++ .label loc name :: post) name v
  | address {pre post : List Node} {loc : Loc} {name : Str} {v : U12} :
    (∀ c, ¬ ConstantNext post c) → Reaches pre 0 v.toNat → LabelValue (pre ++ .label loc name :: post) name v

/-- The map gives each label of the program its value, and nothing else. -/
def LabelsOf (nodes : List Node) (labels : LabelMap) : Prop :=
  ∀ name v, labels.get name = some v ↔ LabelValue nodes name v

/-- The statements end with a label. -/
def EndsWithLabel (nodes : List Node) : Prop := ∃ pre loc name, nodes = pre ++ [.label loc name]

/-- The statement, coming after `pre`, has a layout fault, reported as the given error. -/
inductive Faulty (pre : List Node) : Node → SemanticError → Prop where
  | invalid {loc : Loc} {name : Str} {args : List Literal} {reason : DirectiveError} :
    DirectiveFails name args reason → Faulty pre (.directive loc name args) (.directiveInvalid loc reason)
  | tooLarge {loc : Loc} {name : Str} {args : List Literal} {bytes : List U8} :
    DirectiveMeans name args (.db bytes) → 0xFFF < bytes.length →
    Faulty pre (.directive loc name args) (.directiveTooLarge loc (.db bytes))
  | overflow {loc : Loc} {name : Str} {args : List Literal} {bytes : List U8} {a : Nat} :
    DirectiveMeans name args (.db bytes) → bytes.length ≤ 0xFFF → Reaches pre 0 a → 0xFFF < a + bytes.length →
    Faulty pre (.directive loc name args) (.directiveWouldOverflow loc (.db bytes))
  | stray {loc : Loc} {name : Str} {args : List Literal} {v : U12} :
    DirectiveMeans name args (.equ v) → ¬ EndsWithLabel pre →
    Faulty pre (.directive loc name args) (.constantWithoutLabel loc)
  | redefined {loc loc' : Loc} {name : Str} :
    .label loc' name ∈ pre → Faulty pre (.label loc name) (.redefinitionOfLabel loc name)
  | instructionOverflow {loc : Loc} {m : Str} {fields : List Field} {a : Nat} :
    Reaches pre 0 a → 0xFFF < a + 2 → Faulty pre (.instruction loc m fields) (.instructionWouldOverflow loc)

/-- No statement has a layout fault. -/
def Clean (nodes : List Node) : Prop :=
  ∀ pre n post, nodes = pre ++ n :: post → ∀ e, ¬ Faulty pre n e

/-- The bytes a statement other than `.org` stands for. -/
inductive Emits (labels : LabelMap) : Node → List U8 → Prop where
  | db {loc : Loc} {name : Str} {args : List Literal} {bytes : List U8} :
    DirectiveMeans name args (.db bytes) → Emits labels (.directive loc name args) bytes
  | equ {loc : Loc} {name : Str} {args : List Literal} {v : U12} :
    DirectiveMeans name args (.equ v) → Emits labels (.directive loc name args) []
  | label {loc : Loc} {name : Str} : Emits labels (.label loc name) []
  | instruction {loc : Loc} {m : Str} {fields : List Field} {hi lo : U8} :
    Encodes labels m fields (hi.toNat * 256 + lo.toNat) → Emits labels (.instruction loc m fields) [hi, lo]

/-- The addressed bytes of the statements, in order, when the first one is at address `a`. -/
inductive Writes (labels : LabelMap) : List Node → Nat → List (Nat × U8) → Prop where
  | nil {a : Nat} : Writes labels [] a []
  | org {loc : Loc} {name : Str} {args : List Literal} {v : U12} {a : Nat} {ns : List Node}
    {ws : List (Nat × U8)} : DirectiveMeans name args (.org v) → Writes labels ns v.toNat ws →
    Writes labels (.directive loc name args :: ns) a ws
  | emit {n : Node} {bytes : List U8} {a : Nat} {ns : List Node} {ws : List (Nat × U8)} :
    Emits labels n bytes → Writes labels ns (a + bytes.length) ws → Writes labels (n :: ns) a (placeAt a bytes ++ ws)

/-- The sections of the statements, the first of which starts at `start`: one more for each `.org`. -/
inductive Sections (labels : LabelMap) : U12 → List Node → List DataRange → Prop where
  | nil {start : U12} : Sections labels start [] [⟨start, []⟩]
  | org {start v : U12} {loc : Loc} {name : Str} {args : List Literal} {ns : List Node} {secs : List DataRange} :
    DirectiveMeans name args (.org v) → Sections labels v ns secs →
    Sections labels start (.directive loc name args :: ns) (⟨start, []⟩ :: secs)
  | emit {start : U12} {n : Node} {bytes data : List U8} {ns : List Node} {secs : List DataRange} :
    Emits labels n bytes → Sections labels start ns (⟨start, data⟩ :: secs) →
    Sections labels start (n :: ns) (⟨start, bytes ++ data⟩ :: secs)

/-- The names of the labels defined, in order. -/
def labelNames : List Node → List Str
  | [] => []
  | .label _ name :: ns => name :: labelNames ns
  | _ :: ns => labelNames ns

/-- A valid program, with the values of its labels. -/
structure Valid (nodes : List Node) (labels : LabelMap) : Prop where
  /-- Every directive is valid. -/
  directives : ∀ loc name args, .directive loc name args ∈ nodes → ∃ d, DirectiveMeans name args d
  /-- Every constant directly follows a label. -/
  constants : ∀ pre post v, nodes = pre ++ post → ConstantNext post v → EndsWithLabel pre
  /-- No label is defined twice. -/
  unique : (labelNames nodes).Nodup
  /-- The address counter never passes $FFF. -/
  fits : ∀ pre post a, nodes = pre ++ post → Reaches pre 0 a → a ≤ 0xFFF
  labelValues : LabelsOf nodes labels
  /-- Every instruction matches a form with resolvable, fitting operands. -/
  instructions : ∀ loc m fields, .instruction loc m fields ∈ nodes → ∃ w, Encodes labels m fields w

/-- The register numbers of all instructions are below 16, as for every program the parser produces. -/
def FourBitProgram (nodes : List Node) : Prop :=
  ∀ loc m fields, .instruction loc m fields ∈ nodes → FourBitRegisters fields

/-- The statements begin with an `.org`. -/
def StartsWithOrg (nodes : List Node) : Prop :=
  ∃ loc name args v body, DirectiveMeans name args (.org v) ∧ nodes = .directive loc name args :: body

end C8S.Spec
