import Verif.Spec.Grammar

/- Specification of the syntax in which newlines and comments are alike. -/

namespace C8S.Spec

/-- The token sequence is a program of the syntax in which an open list, of arguments or of operands, has to be followed by
a newline or a comment. -/
inductive FreeProgram : List Token → List Node → Prop where
  | empty : FreeProgram [] []
  | blank {t : Token} {ts : List Token} {ns : List Node} : IsNewline t ∨ IsComment t → FreeProgram ts ns → FreeProgram (t :: ts) ns
  | label {s : Str} {l l' : Loc} {ts : List Token} {ns : List Node} : FreeProgram ts ns →
    FreeProgram (.identifier s l :: .labelMarker l' :: ts) (.label l s :: ns)
  | directive {s : Str} {l l' : Loc} {isOpen : Bool} {args ts : List Token} {xs : List Literal} {ns : List Node} :
    ItemList LiteralTok isOpen args xs → (isOpen → ∃ t r, ts = t :: r ∧ (IsNewline t ∨ IsComment t)) → FreeProgram ts ns →
    FreeProgram (.directiveMarker l' :: .identifier s l :: (args ++ ts)) (.directive l s xs :: ns)
  | instruction {s : Str} {l : Loc} {isOpen : Bool} {args ts : List Token} {fs : List Field} {ns : List Node} :
    ItemList OperandTok isOpen args fs → (isOpen → ∃ t r, ts = t :: r ∧ (IsNewline t ∨ IsComment t)) → FreeProgram ts ns →
    FreeProgram (.identifier s l :: (args ++ ts)) (.instruction l s fs :: ns)

/-- A comment follows a directive whose list of arguments is empty or ends in a comma. -/
def OpenBeforeComment (ts : List Token) : Prop :=
  ∃ p l' s l args xs c b, ts = p ++ .directiveMarker l' :: .identifier s l :: (args ++ c :: b) ∧
    ItemList LiteralTok true args xs ∧ IsComment c

end C8S.Spec
