import Verif.Model.Main

/- What a message tells of what is wrong with a file. -/

namespace C8S.Spec

/-- What is wrong with a file that is rejected: what the parser answers, or the assembler, or the ranges that overlap. -/
inductive Mistake where
  | syntactic (e : ParseError)
  | semantic (e : SemanticError)
  | overlap (pairs : List (DataRange × DataRange))
  deriving DecidableEq

/-- What is wrong with the text. -/
inductive HasMistake [Target] (input text : Str) : Mistake → Prop where
  | syntactic {tokens : List Token} {e : ParseError} : scan input text = .ret tokens → parse tokens = .ret (.error e) →
    HasMistake input text (.syntactic e)
  | semantic {tokens : List Token} {nodes : List Node} {e : SemanticError} : scan input text = .ret tokens →
    parse tokens = .ret (.ok nodes) → assemble nodes = .ret (.error e) → HasMistake input text (.semantic e)
  | overlap {tokens : List Token} {nodes : List Node} {ranges : List DataRange} : scan input text = .ret tokens →
    parse tokens = .ret (.ok nodes) → assemble nodes = .ret (.ok ranges) → findOverlappingRanges ranges ≠ [] →
    HasMistake input text (.overlap (findOverlappingRanges ranges))

/-- The bytes are blotted out, but for their number. -/
def blot (bytes : List U8) : List U8 := List.replicate bytes.length 0

/-- The token without what messages do not show: the text of a comment, and the digits of a binary number that is out of
range. -/
def toldToken : Token → Token
  | .singleLineComment _ l => .singleLineComment [] l
  | .error (.binaryLiteralOutOfRange _) l => .error (.binaryLiteralOutOfRange []) l
  | t => t

/-- The directive without the bytes. -/
def toldDirective : Directive → Directive
  | .db bytes => .db (blot bytes)
  | d => d

def toldRange (r : DataRange) : DataRange := ⟨r.startAddress, blot r.data⟩

/-- What is wrong, without what messages do not show. -/
def told : Mistake → Mistake
  | .syntactic (.unexpectedToken names t) => .syntactic (.unexpectedToken names (toldToken t))
  | .semantic (.directiveTooLarge l d) => .semantic (.directiveTooLarge l (toldDirective d))
  | .semantic (.directiveWouldOverflow l d) => .semantic (.directiveWouldOverflow l (toldDirective d))
  | .overlap pairs => .overlap (pairs.map fun p => (toldRange p.1, toldRange p.2))
  | f => f

end C8S.Spec
