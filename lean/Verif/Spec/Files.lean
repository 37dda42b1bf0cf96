import Verif.Spec.Tool

/- Vocabulary on the files: what they hold, and what the effects of a run make of them. -/

namespace C8S.Spec

/-- The files, with their contents. Paths are taken as they are: two paths name two files. -/
abbrev Files := Str → Option (List U8)

/-- The files, with one of them given a new content. -/
def Files.put (w : Files) (path : Str) (content : List U8) : Files := fun p => if p = path then some content else w p

/-- What an effect makes of the files: a created file is empty, and writing appends. -/
def Files.step (w : Files) : Event → Files
  | .created path => w.put path []
  | .wrote (.file path) bytes => w.put path ((w path).getD [] ++ bytes)
  | _ => w

/-- What the effects of a run make of the files. -/
def Files.after (w : Files) (events : List Event) : Files := events.foldl Files.step w

/-- What is read is what the files hold, in UTF-8. Opening and reading may fail at any time. -/
def Reads (env : Env) (w : Files) : Prop :=
  ∀ path text, env.openInput path = .ok () → env.readInput path = .ok text → w path = some (utf8 text)

end C8S.Spec
