import Verif.Model.Main

/-
The command line of the tool as a user reads it in the usage text (README.md:11-18) and in the documentation of
`getopts`: what a list of words says, and which words cannot be understood. No reference to the option parser.
-/

namespace C8S.Spec

/-- One thing said on the command line. -/
inductive Said where
  /-- Write the output to this file. -/
  | output (path : Str)
  /-- Show the available options. -/
  | help
  /-- Show the version. -/
  | version
  /-- A word that is not an option: a file to assemble. -/
  | word (w : Str)
  deriving DecidableEq, Repr

/-- Letters of options without an argument, in any number, and what they say. -/
inductive Flags : Str → List Said → Prop where
  | nil : Flags [] []
  | help {letters said} : Flags letters said → Flags ('h' :: letters) (.help :: said)
  | version {letters said} : Flags letters said → Flags ('v' :: letters) (.version :: said)

/-- A word that is not an option: it does not start with a dash, or is a single dash. -/
def Plain (w : Str) : Prop := w = "-".toList ∨ w.head? ≠ some '-'

/-- `Item words said rest`: the words start with an item that says `said`, and `rest` is left after it. -/
inductive Item : List Str → List Said → List Str → Prop where
  /-- A word that is not an option. -/
  | word {w rest} : Plain w → Item (w :: rest) [.word w] rest
  /-- `--help`. -/
  | help {rest} : Item ("--help".toList :: rest) [.help] rest
  /-- `--version`. -/
  | version {rest} : Item ("--version".toList :: rest) [.version] rest
  /-- `--output FILE`, whatever the next word is. -/
  | output {path rest} : Item ("--output".toList :: path :: rest) [.output path] rest
  /-- `--output=FILE`. -/
  | outputEq {path rest} : Item (("--output=".toList ++ path) :: rest) [.output path] rest
  /-- `-h`, `-v`, `-hv` and so on. -/
  | flags {letters said rest} : Flags letters said → letters ≠ [] → Item (('-' :: letters) :: rest) said rest
  /-- `-o FILE`, `-ho FILE` and so on, whatever the next word is. -/
  | short {letters said path rest} : Flags letters said →
    Item (('-' :: letters ++ "o".toList) :: path :: rest) (said ++ [.output path]) rest
  /-- `-oFILE`, `-hoFILE` and so on. -/
  | attached {letters said path rest} : Flags letters said → path ≠ [] →
    Item (('-' :: letters ++ "o".toList ++ path) :: rest) (said ++ [.output path]) rest

/-- `Says words said`: what the whole command line says. -/
inductive Says : List Str → List Said → Prop where
  | nil : Says [] []
  /-- After `--`, every word is a file. -/
  | stop {rest} : Says ("--".toList :: rest) (rest.map .word)
  | item {words said rest more} : Item words said rest → Says rest more → Says words (said ++ more)

/-- These words are complete items, none of them `--`; more words may follow. -/
inductive Complete : List Str → List Said → Prop where
  | nil : Complete [] []
  | item {words said rest more} : Item words said rest → Complete rest more → Complete words (said ++ more)

/-- Something wrong with a command line, with the option it is about. -/
inductive Fault where
  | unknown (name : Str)
  | needsArgument (name : Str)
  | takesNoArgument (name : Str)
  | repeated (name : Str)
  deriving DecidableEq, Repr

/-- The message shown. -/
def Fault.message : Fault → Str
  | .unknown name => "Unrecognized option: '".toList ++ name ++ "'.".toList
  | .needsArgument name => "Argument to option '".toList ++ name ++ "' missing.".toList
  | .takesNoArgument name => "Option '".toList ++ name ++ "' does not take an argument.".toList
  | .repeated name => "Option '".toList ++ name ++ "' given more than once.".toList

/-- The long names. -/
def longNames : List Str := ["output".toList, "help".toList, "version".toList]

/-- The words start with something that cannot be understood. -/
inductive BadItem : List Str → Fault → Prop where
  /-- `--name` for another name. -/
  | long {name rest} : name ≠ [] → '=' ∉ name → name ∉ longNames →
    BadItem (("--".toList ++ name) :: rest) (.unknown name)
  /-- `--name=value` for another name, even the empty one. -/
  | longEq {name value rest} : '=' ∉ name → name ∉ longNames →
    BadItem (("--".toList ++ name ++ "=".toList ++ value) :: rest) (.unknown name)
  /-- `--help=value`. -/
  | help {value rest} : BadItem (("--help=".toList ++ value) :: rest) (.takesNoArgument "help".toList)
  /-- `--version=value`. -/
  | version {value rest} : BadItem (("--version=".toList ++ value) :: rest) (.takesNoArgument "version".toList)
  /-- `--output` as the last word. -/
  | output : BadItem ["--output".toList] (.needsArgument "output".toList)
  /-- `-hx` for another letter than `o`, `h`, `v` — the first dash of a long name is not one. -/
  | letter {letters said c more rest} : Flags letters said → c ∉ "ohv".toList → (letters = [] → c ≠ '-') →
    BadItem (('-' :: letters ++ c :: more) :: rest) (.unknown [c])
  /-- `-o`, `-ho` and so on as the last word. -/
  | short {letters said} : Flags letters said → BadItem ['-' :: letters ++ "o".toList] (.needsArgument "o".toList)

/-- The first thing that cannot be understood, reading from the left. -/
inductive Unreadable : List Str → Fault → Prop where
  | here {words fault} : BadItem words fault → Unreadable words fault
  | later {words said rest fault} : Item words said rest → Unreadable rest fault → Unreadable words fault

/-- How often an output file is named. -/
def outputs (said : List Said) : List Str := said.filterMap (fun | .output path => some path | _ => none)

/-- The files to assemble. -/
def files (said : List Said) : List Str := said.filterMap (fun | .word w => some w | _ => none)

/-- No option is given twice. -/
def Once (said : List Said) : Prop :=
  (outputs said).length ≤ 1 ∧ said.count .help ≤ 1 ∧ said.count .version ≤ 1

/-- The option complained about when one is given twice: the first in the order of the usage text. -/
inductive Twice (said : List Said) : Fault → Prop where
  | output : 1 < (outputs said).length → Twice said (.repeated "output".toList)
  | help : (outputs said).length ≤ 1 → 1 < said.count .help → Twice said (.repeated "help".toList)
  | version : (outputs said).length ≤ 1 → said.count .help ≤ 1 → 1 < said.count .version →
    Twice said (.repeated "version".toList)

/-- The fault of a command line. -/
inductive Wrong : List Str → Fault → Prop where
  | unreadable {words fault} : Unreadable words fault → Wrong words fault
  | twice {words said fault} : Says words said → Twice said fault → Wrong words fault

/-- The usage text of README.md:12-17, with its trailing newline. -/
def usageText (program : Str) : Str :=
  "USAGE: ".toList ++ program ++
  " [options] <input>\n\nOptions:\n    -o, --output <file> Write output to <file>\n    -h, --help          Display available options\n    -v, --version       Display version information\n".toList

end C8S.Spec
