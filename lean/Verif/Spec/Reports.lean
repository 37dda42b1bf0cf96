import Verif.Spec.Tool
import Verif.Model.Console

/- Vocabulary on what is printed. -/

namespace C8S.Spec

/-- All text printed on standard output, without the object file. -/
def printedBy (events : List Event) : Str :=
  events.flatMap fun
    | .printed text => text
    | _ => []

/-- A report of the tool: the name of the program, and the message, on a line. -/
def report (program : Str) (message : Str) : Event := .printed (program ++ (": error: ".toList ++ (message ++ "\n".toList)))

/-- The text is one or more lines. -/
def IsLines (text : Str) : Prop := ∃ s, text = s ++ "\n".toList

/-- Standard output takes every text printed by these events, when they come after `before`. -/
def Shows (console : Console) (before events : List Event) : Prop :=
  ∀ p text rest, events = p ++ .printed text :: rest → console.print (before ++ p) text = .ok ()

end C8S.Spec
