import Verif.Spec.Tool

/- Specification of repairing a program statement by statement. -/

namespace C8S.Spec

/-- Where an error is reported. -/
def faultLocation : SemanticError → Loc
  | .directiveInvalid l _ => l
  | .directiveTooLarge l _ => l
  | .directiveWouldOverflow l _ => l
  | .instructionWouldOverflow l => l
  | .redefinitionOfLabel l _ => l
  | .assemblyFailed l _ => l
  | .constantWithoutLabel l => l

/-- The error is about the words of an instruction, not about directives, labels and addresses. -/
def InstructionFault : SemanticError → Prop
  | .assemblyFailed _ _ => True
  | _ => False

/-- Each statement has a place of its own. -/
def OwnPlaces (nodes : List Node) : Prop := (nodes.map nodeLocation).Nodup

/-- One round of repair: the statement that is reported, and nothing else, is replaced by another one, an instruction by an
instruction if it was its words that were wrong; and it is not reported again for the same kind of error. -/
inductive Repaired : List Node → List Node → Prop where
  | intro {pre post : List Node} {n n' : Node} {e : SemanticError} :
    assemble (pre ++ n :: post) = .ret (.error e) → faultLocation e = nodeLocation n →
    (InstructionFault e → ∃ l m f, n' = .instruction l m f) →
    OwnPlaces (pre ++ n' :: post) →
    (∀ e', assemble (pre ++ n' :: post) = .ret (.error e') → faultLocation e' = nodeLocation n' →
      InstructionFault e' ∧ ¬ InstructionFault e) →
    Repaired (pre ++ n :: post) (pre ++ n' :: post)

/-- So many rounds of repair. -/
inductive Rounds : List Node → Nat → List Node → Prop where
  | none {p : List Node} : Rounds p 0 p
  | more {p q r : List Node} {k : Nat} : Repaired p q → Rounds q k r → Rounds p (k + 1) r

end C8S.Spec
