import Verif.Spec.Layout

/- Changes of a program that are meant to leave its output as it is. -/

namespace C8S.Spec

/-- The program defines or uses the label. -/
def Mentions (nodes : List Node) (s : Str) : Prop :=
  (∃ l, .label l s ∈ nodes) ∨ ∃ l m fs, .instruction l m fs ∈ nodes ∧ .identifier s ∈ fs

/-- The operand with labels renamed. -/
def renameField (f : Str → Str) : Field → Field
  | .identifier s => .identifier (f s)
  | x => x

/-- The statement with labels renamed, in definitions and uses. -/
def renameNode (f : Str → Str) : Node → Node
  | .label l s => .label l (f s)
  | .instruction l m fs => .instruction l m (fs.map (renameField f))
  | .directive l s xs => .directive l s xs

/-- The errors are the same, except for the name of a label they report, and for the text of operands that no
instruction has. -/
inductive SameError (f : Str → Str) : SemanticError → SemanticError → Prop where
  | directiveInvalid {l : Loc} {r : DirectiveError} : SameError f (.directiveInvalid l r) (.directiveInvalid l r)
  | directiveTooLarge {l : Loc} {d : Directive} : SameError f (.directiveTooLarge l d) (.directiveTooLarge l d)
  | directiveWouldOverflow {l : Loc} {d : Directive} :
    SameError f (.directiveWouldOverflow l d) (.directiveWouldOverflow l d)
  | instructionWouldOverflow {l : Loc} : SameError f (.instructionWouldOverflow l) (.instructionWouldOverflow l)
  | constantWithoutLabel {l : Loc} : SameError f (.constantWithoutLabel l) (.constantWithoutLabel l)
  | redefinition {l : Loc} {s : Str} : SameError f (.redefinitionOfLabel l s) (.redefinitionOfLabel l (f s))
  | unresolved {l : Loc} {s : Str} :
    SameError f (.assemblyFailed l (.unableToResolveLabel s)) (.assemblyFailed l (.unableToResolveLabel (f s)))
  | eightBit {l : Loc} {n : Nat} :
    SameError f (.assemblyFailed l (.expectingEightBitValue n)) (.assemblyFailed l (.expectingEightBitValue n))
  | fourBit {l : Loc} {n : Nat} :
    SameError f (.assemblyFailed l (.expectingFourBitValue n)) (.assemblyFailed l (.expectingFourBitValue n))
  | noMatch {l : Loc} {m : Str} {d d' : Option Str} :
    SameError f (.assemblyFailed l (.noMatchingFormat m d)) (.assemblyFailed l (.noMatchingFormat m d'))

/-- The operand with a defined label replaced by its value. -/
def inlineField (labels : LabelMap) : Field → Field
  | .identifier s =>
    match labels.get s with
    | some v => .numericLiteral v
    | none => .identifier s
  | x => x

/-- The statement with uses of defined labels replaced by their values. -/
def inlineNode (labels : LabelMap) : Node → Node
  | .instruction l m fs => .instruction l m (fs.map (inlineField labels))
  | n => n

/-- The statement emits or places code: it is neither a label nor a constant. -/
def Places : Node → Prop
  | .label _ _ => False
  | .directive _ s _ => ¬ SameLetters s "equ".toList
  | .instruction _ _ _ => True

instance : DecidablePred Places := fun n => by cases n <;> unfold Places <;> infer_instance

/-- The program without labels and constants, whose values are put in their place. -/
def withoutLabels (labels : LabelMap) (nodes : List Node) : List Node :=
  (nodes.filter (fun n => decide (Places n))).map (inlineNode labels)

/-- Only instructions and `.db`s. -/
def DataOnly (nodes : List Node) : Prop :=
  ∀ n ∈ nodes, (∃ l m fs, n = .instruction l m fs) ∨ ∃ l s xs, n = .directive l s xs ∧ SameLetters s "db".toList

/-- The bytes of consecutive statements. -/
inductive EmitsBlock (labels : LabelMap) : List Node → List U8 → Prop where
  | nil : EmitsBlock labels [] []
  | cons {n : Node} {ns : List Node} {a b : List U8} : Emits labels n a → EmitsBlock labels ns b →
    EmitsBlock labels (n :: ns) (a ++ b)

/-- No `.org`. -/
def NoOrg (nodes : List Node) : Prop := ∀ l s xs, .directive l s xs ∈ nodes → ¬ SameLetters s "org".toList

end C8S.Spec
