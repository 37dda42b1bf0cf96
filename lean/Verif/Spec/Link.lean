import Verif.Spec.Reorder

/- Specification of linking object files. -/

namespace C8S.Spec

/-- The last line of an object file. -/
def lastLine : Str := ":00000001FF\n".toList

/-- The lines of the object files one after the other, but for their last lines, and then one last line. -/
def Linked (files : List Str) (whole : Str) : Prop :=
  ∃ bodies : List Str, files = bodies.map (· ++ lastLine) ∧ whole = bodies.flatten ++ lastLine

/-- A run of the tool on a file with this text succeeds and writes this object file. -/
def Builds [Target] (text hex : Str) : Prop :=
  ∃ env program input output, env.readInput input = .ok text ∧ (assembleFile env program input output).exit = .code 0 ∧
    bytesTo (destination output) (assembleFile env program input output).events = utf8 hex

/-- No label is defined in both texts. -/
def NoSharedLabel [Target] (a b : Str) : Prop :=
  ∀ ns ms, Statements a ns → Statements b ms → ∀ s ∈ labelNames ns, s ∉ labelNames ms

/-- The addresses an object file puts bytes at. -/
def loadedAddresses (hex : Str) : List Nat := ((readHex hex).getD []).map Prod.fst

end C8S.Spec
