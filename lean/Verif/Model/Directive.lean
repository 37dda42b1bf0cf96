import Verif.Model.Parser

/- Model of /repo/src/assembler/directive.rs. -/

namespace C8S

/-- `directive::Error` — directive.rs:17-27. -/
inductive DirectiveError where
  | incorrectNumberOfParameters (directive : Str) (count needed : Nat) (orMore : Bool)
  | directiveRequiresOneNumericLiteral (directive : Str)
  | allNumericParametersMustBeByteLiterals (directive : Str) (value : Nat)
  | unrecognizedDirective (identifier : Str)
  deriving DecidableEq, Repr

/-- `Display for directive::Error` — directive.rs:43-60. -/
def DirectiveError.display : DirectiveError → Str
  | .incorrectNumberOfParameters directive count needed false =>
    "Incorrect number of parameters (".toList ++ showDec count ++ ") for directive .".toList ++ directive
      ++ ", expecting ".toList ++ showDec needed ++ ".".toList
  | .incorrectNumberOfParameters directive count needed true =>
    "Incorrect number of parameters (".toList ++ showDec count ++ ") for directive .".toList ++ directive
      ++ ", expecting ".toList ++ showDec needed ++ " or more.".toList
  | .directiveRequiresOneNumericLiteral directive =>
    "Directive .".toList ++ directive ++ " requires 1 numeric literal in the range $000-$FFF.".toList
  | .allNumericParametersMustBeByteLiterals directive value =>
    "All numeric parameters to .".toList ++ directive ++ " must be 1-byte literals ($".toList
      ++ showHexUpper value ++ " > $FF).".toList
  | .unrecognizedDirective identifier => "Unrecognized directive '.".toList ++ identifier ++ "'.".toList

/-- `Directive` — directive.rs:62-70. -/
inductive Directive where
  | org (address : U12)
  | db (bytes : List U8)
  | equ (value : U12)
  deriving DecidableEq, Repr

/-! `names` — directive.rs:82-89. -/
namespace DirectiveNames
/-- `names::ORG` — directive.rs:84. -/
def org : Str := "org".toList
/-- `names::DB` — directive.rs:86. -/
def db : Str := "db".toList
/-- `names::EQU` — directive.rs:88. -/
def equ : Str := "equ".toList
end DirectiveNames

namespace Directive

/-- `Display for Directive` — directive.rs:72-80 (`{:3X}` pads with blanks). -/
def display : Directive → Str
  | .org location => ".".toList ++ DirectiveNames.org ++ " $".toList ++ padLeft ' ' 3 (showHexUpper location.toNat)
  | .db bytes => ".".toList ++ DirectiveNames.db ++ " [".toList ++ showDec bytes.length ++ " bytes]".toList
  | .equ value => ".".toList ++ DirectiveNames.equ ++ " $".toList ++ padLeft ' ' 3 (showHexUpper value.toNat)

/-- The byte-collecting loop of `.db` — directive.rs:132-148. -/
def dbLoop : List Literal → List U8 → Except DirectiveError (List U8)
  | [], bytes => .ok bytes
  | .numeric value :: rest, bytes =>
    if value > 0xFF then .error (.allNumericParametersMustBeByteLiterals DirectiveNames.db value)
    else dbLoop rest (bytes ++ [BitVec.ofNat 8 (value &&& 0x00FF)])
  | .string string :: rest, bytes => dbLoop rest (bytes ++ utf8Bytes string)

/-- `Directive::from_identifier_and_parameters` — directive.rs:99-173. -/
def fromIdentifierAndParameters (inputIdentifier : Str) (arguments : List Literal) :
    Except DirectiveError Directive :=
  let identifier := toLowercase inputIdentifier
  if identifier = DirectiveNames.org then
    match arguments with
    | [.numeric a] =>
      if a ≤ 0xFFF then .ok (.org (BitVec.ofNat 12 a))
      else .error (.directiveRequiresOneNumericLiteral DirectiveNames.org)
    | [_] => .error (.directiveRequiresOneNumericLiteral DirectiveNames.org)
    | _ => .error (.incorrectNumberOfParameters DirectiveNames.org arguments.length 1 false)
  else if identifier = DirectiveNames.db then
    if arguments.length = 0 then .error (.incorrectNumberOfParameters DirectiveNames.db 0 1 true)
    else
      match dbLoop arguments [] with
      | .error e => .error e
      | .ok bytes => .ok (.db bytes)
  else if identifier = DirectiveNames.equ then
    match arguments with
    | [.numeric a] =>
      if a ≤ 0xFFF then .ok (.equ (BitVec.ofNat 12 a))
      else .error (.directiveRequiresOneNumericLiteral DirectiveNames.equ)
    | [_] => .error (.directiveRequiresOneNumericLiteral DirectiveNames.equ)
    | _ => .error (.incorrectNumberOfParameters DirectiveNames.equ arguments.length 1 false)
  else .error (.unrecognizedDirective inputIdentifier)

/-- `Directive::size` — directive.rs:178-184. -/
def size : Directive → Nat
  | .org _ => 0
  | .db data => data.length
  | .equ _ => 0

/-- `Directive::into_vec` — directive.rs:190-196. -/
def intoVec : Directive → List U8
  | .org _ => []
  | .db data => data
  | .equ _ => []

end Directive

end C8S
