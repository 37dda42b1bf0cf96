import Verif.Spec.Case
import Verif.Model.Directive

/- Specification of the directives, from README.md ("Directives"): which are valid, and the bytes they emit. -/

namespace C8S.Spec

/-- The UTF-8 encoding of a string (Lean's own). -/
def utf8 (s : Str) : List U8 := (String.ofList s).toByteArray.data.toList.map UInt8.toBitVec

/-- The bytes emitted for a list of `.db` arguments: one byte of the same value for each number, the UTF-8
encoding for each string, in order, with nothing in between. -/
inductive EmitsAll : List Literal → List U8 → Prop where
  | nil : EmitsAll [] []
  | number {b : U8} {args : List Literal} {bytes : List U8} :
    EmitsAll args bytes → EmitsAll (.numeric b.toNat :: args) (b :: bytes)
  | string {s : Str} {args : List Literal} {bytes : List U8} :
    EmitsAll args bytes → EmitsAll (.string s :: args) (utf8 s ++ bytes)

/-- The valid directives and their meaning. -/
inductive DirectiveMeans : Str → List Literal → Directive → Prop where
  | org {name : Str} (address : U12) :
    SameLetters name "org".toList → DirectiveMeans name [.numeric address.toNat] (.org address)
  | equ {name : Str} (value : U12) :
    SameLetters name "equ".toList → DirectiveMeans name [.numeric value.toNat] (.equ value)
  | db {name : Str} {args : List Literal} {bytes : List U8} :
    SameLetters name "db".toList → args ≠ [] → EmitsAll args bytes → DirectiveMeans name args (.db bytes)

/-- The errors of invalid directives. -/
inductive DirectiveFails : Str → List Literal → DirectiveError → Prop where
  | count {name : Str} {args : List Literal} {canonical : Str} :
    canonical = "org".toList ∨ canonical = "equ".toList → SameLetters name canonical → args.length ≠ 1 →
    DirectiveFails name args (.incorrectNumberOfParameters canonical args.length 1 false)
  | string {name : Str} {s : Str} {canonical : Str} :
    canonical = "org".toList ∨ canonical = "equ".toList → SameLetters name canonical →
    DirectiveFails name [.string s] (.directiveRequiresOneNumericLiteral canonical)
  | range {name : Str} {n : Nat} {canonical : Str} :
    canonical = "org".toList ∨ canonical = "equ".toList → SameLetters name canonical → 0xFFF < n →
    DirectiveFails name [.numeric n] (.directiveRequiresOneNumericLiteral canonical)
  | dbEmpty {name : Str} :
    SameLetters name "db".toList → DirectiveFails name [] (.incorrectNumberOfParameters "db".toList 0 1 true)
  | dbByte {name : Str} {before after : List Literal} {bytes : List U8} {n : Nat} :
    SameLetters name "db".toList → EmitsAll before bytes → 0xFF < n →
    DirectiveFails name (before ++ .numeric n :: after)
      (.allNumericParametersMustBeByteLiterals "db".toList n)
  | unknown {name : Str} {args : List Literal} :
    ¬ SameLetters name "org".toList → ¬ SameLetters name "db".toList → ¬ SameLetters name "equ".toList →
    DirectiveFails name args (.unrecognizedDirective name)

end C8S.Spec
