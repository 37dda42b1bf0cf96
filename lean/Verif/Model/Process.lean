import Verif.Model.Bytes
import Verif.Model.Console

/-! The process: arguments and files in bytes, and a standard output that can fail. -/

namespace C8S

/-- `main` with the arguments and the files in bytes on this standard output; nothing is printed before the arguments are
collected — main.rs:126-169. -/
def process [Target] (console : Console) (getopts : Getopts) (raw : RawEnv) (arguments : List (List U8)) : Outcome :=
  let o := mainRaw getopts raw arguments
  onConsole console [] o.events o.exit

end C8S
