import Verif.Spec.Layout
import Verif.Spec.Operand

/- Specification vocabulary: when two instructions say the same thing. -/

namespace C8S.Spec

/-- The operands are the same register, or stand for the same number. -/
inductive SameOperand (labels labels' : LabelMap) : Field → Field → Prop where
  | value {f f' : Field} {n : Nat} : Denotes labels f n → Denotes labels' f' n → SameOperand labels labels' f f'
  | register {f : Field} : (∀ v, f ≠ .numericLiteral v) → (∀ s, f ≠ .identifier s) → SameOperand labels labels' f f

/-- The same operands, one by one. -/
inductive SameOperands (labels labels' : LabelMap) : List Field → List Field → Prop where
  | nil : SameOperands labels labels' [] []
  | cons {f f' : Field} {fs fs' : List Field} : SameOperand labels labels' f f' → SameOperands labels labels' fs fs' →
    SameOperands labels labels' (f :: fs) (f' :: fs')

/-- The instructions of a program: mnemonics and operands. -/
def instructionsOf : List Node → List (Str × List Field)
  | [] => []
  | .instruction _ m fs :: ns => (m, fs) :: instructionsOf ns
  | _ :: ns => instructionsOf ns

/-- The same instructions, one by one. -/
inductive SameCode (labels labels' : LabelMap) : List (Str × List Field) → List (Str × List Field) → Prop where
  | nil : SameCode labels labels' [] []
  | cons {m m' : Str} {fs fs' : List Field} {is is' : List (Str × List Field)} : SameWord m m' →
    SameOperands labels labels' fs fs' → SameCode labels labels' is is' →
    SameCode labels labels' ((m, fs) :: is) ((m', fs') :: is')

/-- The program has no directives other than constants. -/
def CodeOnly (nodes : List Node) : Prop :=
  ∀ loc name args, .directive loc name args ∈ nodes → ∃ v, DirectiveMeans name args (.equ v)

end C8S.Spec
