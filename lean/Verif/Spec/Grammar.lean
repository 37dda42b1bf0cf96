import Verif.Spec.Operand

/-
Specification of the syntax: which token sequences are programs, and of which statements. From the grammar in
README.md and in the comments of parser.rs.
-/

namespace C8S.Spec

/-- A literal argument of a directive. -/
inductive LiteralTok : Token → Literal → Prop where
  | string {s : Str} {l : Loc} : LiteralTok (.stringLiteral s l) (.string s)
  | numeric {n : Nat} {l : Loc} : LiteralTok (.numericLiteral n l) (.numeric n)

/-- An operand of an instruction. Numbers are taken modulo 4096 (the scanner only yields smaller ones). -/
inductive OperandTok : Token → Field → Prop where
  | numeric {n : Nat} {l : Loc} {w : U12} : w.toNat = n % 4096 → OperandTok (.numericLiteral n l) (.numericLiteral w)
  | name {s : Str} {l : Loc} {f : Field} : OperandOf s f → OperandTok (.identifier s l) f

/-- A list of items separated by commas. An open list is empty or ends in a comma. -/
inductive ItemList {α : Type} (item : Token → α → Prop) : Bool → List Token → List α → Prop where
  | empty : ItemList item true [] []
  | one {t : Token} {x : α} : item t x → ItemList item false [t] [x]
  | more {b : Bool} {t : Token} {x : α} {l : Loc} {ts : List Token} {xs : List α} : item t x → ItemList item b ts xs →
    ItemList item b (t :: .comma l :: ts) (x :: xs)

def IsNewline (t : Token) : Prop := ∃ l, t = .newline l

def IsComment (t : Token) : Prop := ∃ s l, t = .singleLineComment s l

/-- The token sequence is a program. Newlines and comments may stand between statements, and several statements may
stand on a line. An open argument list has to be followed by a newline; an open operand list by a newline or a
comment. -/
inductive Program : List Token → List Node → Prop where
  | empty : Program [] []
  | blank {t : Token} {ts : List Token} {ns : List Node} : IsNewline t ∨ IsComment t → Program ts ns → Program (t :: ts) ns
  | label {s : Str} {l l' : Loc} {ts : List Token} {ns : List Node} : Program ts ns →
    Program (.identifier s l :: .labelMarker l' :: ts) (.label l s :: ns)
  | directive {s : Str} {l l' : Loc} {isOpen : Bool} {args ts : List Token} {xs : List Literal} {ns : List Node} :
    ItemList LiteralTok isOpen args xs → (isOpen → ∃ t r, ts = t :: r ∧ IsNewline t) → Program ts ns →
    Program (.directiveMarker l' :: .identifier s l :: (args ++ ts)) (.directive l s xs :: ns)
  | instruction {s : Str} {l : Loc} {isOpen : Bool} {args ts : List Token} {fs : List Field} {ns : List Node} :
    ItemList OperandTok isOpen args fs → (isOpen → ∃ t r, ts = t :: r ∧ (IsNewline t ∨ IsComment t)) → Program ts ns →
    Program (.identifier s l :: (args ++ ts)) (.instruction l s fs :: ns)

/-- The token sequence can be continued to a program. -/
def Completable (ts : List Token) : Prop := ∃ ext ns, Program (ts ++ ext) ns

/-- The tokens meant by the name of an expectation in an error message. -/
inductive Expected : Str → Token → Prop where
  | identifier {s : Str} {l : Loc} : Expected "identifier".toList (.identifier s l)
  | string {s : Str} {l : Loc} : Expected "string literal".toList (.stringLiteral s l)
  | numeric {n : Nat} {l : Loc} : Expected "numeric literal".toList (.numericLiteral n l)
  | directiveMarker {l : Loc} : Expected "directive marker".toList (.directiveMarker l)
  | field {s : Str} {l : Loc} : Expected "instruction field".toList (.identifier s l)
  | fieldNumeric {n : Nat} {l : Loc} : Expected "instruction field".toList (.numericLiteral n l)

/-- The tokens that end or divide something: newlines, comments, commas and label markers. -/
def Separates (t : Token) : Prop := IsNewline t ∨ IsComment t ∨ (∃ l, t = .comma l) ∨ ∃ l, t = .labelMarker l

end C8S.Spec
