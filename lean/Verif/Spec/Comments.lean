import Verif.Spec.ByLine

/- Specification of lines that are turned into comments. -/

namespace C8S.Spec

/-- The lines (given without their newlines), one after the other. -/
def joinLines (lines : List Str) : Str := lines.flatMap (· ++ ['\n'])

/-- The lines, each with a semicolon put in front of it. -/
def commentedOut (lines : List Str) : Str := joinLines (lines.map (';' :: ·))

/-- So many empty lines. -/
def emptyLines (n : Nat) : Str := List.replicate n '\n'

end C8S.Spec
