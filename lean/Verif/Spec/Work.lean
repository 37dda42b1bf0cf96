import Verif.Model.Parser

/- Vocabulary for the amount of work. -/

namespace C8S.Spec

/-- The size of a parameter: one, and the bytes of a string. -/
def literalSize : Literal → Nat
  | .numeric _ => 1
  | .string s => 1 + byteLen s

/-- The size of an operand: one, and the bytes of a name. -/
def fieldSize : Field → Nat
  | .identifier name => 1 + byteLen name
  | _ => 1

/-- The size of a statement: one, the bytes of its name, and its parameters or operands. -/
def nodeSize : Node → Nat
  | .label _ name => 1 + byteLen name
  | .directive _ name xs => 1 + byteLen name + (xs.map literalSize).sum
  | .instruction _ name fs => 1 + byteLen name + (fs.map fieldSize).sum

/-- The size of a program. -/
def programSize (nodes : List Node) : Nat := (nodes.map nodeSize).sum

end C8S.Spec
