import Verif.Model.Main

/-
Standard output that can fail. `println!` and `print!` (main.rs:57, 63, 116, 123, 137, 167) panic when standard output
reports an error; what had been printed until then stays, and nothing that follows happens. `main` leaves this out:
here it is added to the effects of `main`.
-/

namespace C8S

/-- Standard output: whether a text can be printed, after what has happened before. A failure tells how many
characters of the text got through — main.rs:57, 63, 116, 123, 137, 167. -/
structure Console where
  print : List Event → Str → Except Nat Unit

/-- The effects of a run, one after the other, on this standard output — the panic of `println!` and `print!` —
main.rs:57, 63, 116, 123, 137, 167. -/
def onConsole (console : Console) (before : List Event) : List Event → Exit → Outcome
  | [], exit => ⟨before, exit⟩
  | .printed text :: rest, exit =>
    match console.print before text with
    | .ok () => onConsole console (before ++ [.printed text]) rest exit
    | .error k => ⟨before ++ [.printed (text.take k)], .panicked⟩
  | e :: rest, exit => onConsole console (before ++ [e]) rest exit

/-- `assemble_file` on this standard output — main.rs:34-105. -/
def assembleFileOn [Target] (console : Console) (env : Env) (program inputPath outputPath : Str) : Outcome :=
  let o := assembleFile env program inputPath outputPath
  onConsole console [] o.events o.exit

/-- `main` on this standard output — main.rs:126-169. -/
def mainOn [Target] (console : Console) (getopts : Getopts) (env : Env) (arguments : List Str) : Outcome :=
  let o := main getopts env arguments
  onConsole console [] o.events o.exit

end C8S
