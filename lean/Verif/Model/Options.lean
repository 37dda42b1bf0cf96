import Verif.Model.Main

/-
Model of the command line of the tool: the options declared at /repo/src/main.rs:130-133 and crate `getopts`
0.2.14 (/repo/Cargo.toml:9), of which `Options::parse`, the display of `Fail`, `Matches::opt_present`,
`Matches::opt_str` and `Options::usage` are modelled from the crate's source as we know it; the crate is not in
/repo. Everything proved about `main` elsewhere holds for any command-line parser; only the theorems that name
`getopts0214` rest on this file.
-/

namespace C8S

namespace Options

/-- `getopts::Name`: the name of an option as found on the command line — main.rs:136. -/
inductive Name where
  | long (s : Str)
  | short (c : Char)
  deriving DecidableEq, Repr

/-- `Name::to_string` — main.rs:137. -/
def Name.show : Name → Str
  | .long s => s
  | .short c => [c]

/-- `getopts::Opt`: an option with a long name and a one-letter alias. `hasArg` is `HasArg::Yes` or `HasArg::No`;
`Maybe` is not used by the tool. All options of the tool occur optionally (`Occur::Optional`) — main.rs:131-133. -/
structure Opt where
  long : Str
  short : Char
  hasArg : Bool
  hint : Str
  desc : Str
  deriving DecidableEq, Repr

/-- The options of the tool — main.rs:130-133. -/
def table : List Opt :=
  [⟨"output".toList, 'o', true, "<file>".toList, "Write output to <file>".toList⟩,
   ⟨"help".toList, 'h', false, [], "Display available options".toList⟩,
   ⟨"version".toList, 'v', false, [], "Display version information".toList⟩]

/-- `getopts::find_opt`, answering the option itself instead of its index — main.rs:136. -/
def findOpt (nm : Name) : Option Opt :=
  match nm with
  | .long s => table.find? (fun o => o.long = s)
  | .short c => table.find? (fun o => o.short = c)

/-- `getopts::Fail`, the variants that can occur (no option of the tool is required) — main.rs:136. -/
inductive Fail where
  | argumentMissing (nm : Str)
  | unrecognizedOption (nm : Str)
  | optionDuplicated (nm : Str)
  | unexpectedArgument (nm : Str)
  deriving DecidableEq, Repr

/-- `Display for Fail` — main.rs:137. -/
def Fail.display : Fail → Str
  | .argumentMissing nm => "Argument to option '".toList ++ nm ++ "' missing.".toList
  | .unrecognizedOption nm => "Unrecognized option: '".toList ++ nm ++ "'.".toList
  | .optionDuplicated nm => "Option '".toList ++ nm ++ "' given more than once.".toList
  | .unexpectedArgument nm => "Option '".toList ++ nm ++ "' does not take an argument.".toList

/-- `getopts::is_arg`: does the word name options? — main.rs:136. -/
def isArg (word : Str) : Bool :=
  match word with
  | '-' :: _ :: _ => true
  | _ => false

/-- `tail.splitn(2, '=')`: the part before the first `=` and the part after it, if there is one — main.rs:136. -/
def splitEq : Str → Str × Option Str
  | [] => ([], none)
  | c :: r => if c = '=' then ([], some r) else let (a, b) := splitEq r; (c :: a, b)

/-- The loop over the letters of a word such as `-hofile`: the names and the argument, if it is in the word —
main.rs:136. -/
def cluster : Str → Except Fail (List Name × Option Str)
  | [] => .ok ([], none)
  | c :: r =>
    match findOpt (.short c) with
    | none => .error (.unrecognizedOption [c])
    | some opt =>
      if opt.hasArg = true ∧ r ≠ [] then .ok ([.short c], some r)
      else
        match cluster r with
        | .error e => .error e
        | .ok (names, arg) => .ok (.short c :: names, arg)

/-- The names in a word, and the argument, if it is in the word — main.rs:136. -/
def namesOf (word : Str) : Except Fail (List Name × Option Str) :=
  match word with
  | '-' :: '-' :: tail => let (name, arg) := splitEq tail; .ok ([.long name], arg)
  | '-' :: letters => cluster letters
  | _ => .ok ([], none)

/-- What the parser has collected: `vals`, as one list of options with their values in order of occurrence (`None` is
`Optval::Given`), and `free` — main.rs:136. -/
structure Collected where
  vals : List (Opt × Option Str)
  free : List Str
  deriving DecidableEq, Repr

/-- The loop over the names of one word. Answers the words left — main.rs:136. -/
def applyNames : List Name → Option Str → List Str → Collected → Except Fail (Collected × List Str)
  | [], _, rest, acc => .ok (acc, rest)
  | nm :: more, arg, rest, acc =>
    match findOpt nm with
    | none => .error (.unrecognizedOption nm.show)
    | some opt =>
      if opt.hasArg then
        match arg with
        | some value => applyNames more arg rest { acc with vals := acc.vals ++ [(opt, some value)] }
        | none =>
          match rest with
          | [] => .error (.argumentMissing nm.show)
          | value :: rest => applyNames more arg rest { acc with vals := acc.vals ++ [(opt, some value)] }
      else if more = [] ∧ arg ≠ none then .error (.unexpectedArgument nm.show)
      else applyNames more arg rest { acc with vals := acc.vals ++ [(opt, none)] }

/-- The loop over the words (`ParsingStyle::FloatingFrees`). Fuel bounds the number of words — main.rs:136. -/
def collect : Nat → List Str → Collected → Run (Except Fail Collected)
  | 0, _, _ => .panic
  | _ + 1, [], acc => .ret (.ok acc)
  | fuel + 1, word :: rest, acc =>
    if isArg word = false then collect fuel rest { acc with free := acc.free ++ [word] }
    else if word = "--".toList then .ret (.ok { acc with free := acc.free ++ rest })
    else
      match namesOf word with
      | .error e => .ret (.error e)
      | .ok (names, arg) =>
        match applyNames names arg rest acc with
        | .error e => .ret (.error e)
        | .ok (acc, rest) => collect fuel rest acc

/-- `vals[i]` of an option — main.rs:136, 142-154. -/
def valuesOf (acc : Collected) (opt : Opt) : List (Opt × Option Str) := acc.vals.filter (fun v => v.1 = opt)

/-- The final check: no option twice. The options are checked in the order of their declaration — main.rs:136. -/
def firstDuplicated (acc : Collected) : Option Opt := table.find? (fun o => (valuesOf acc o).length > 1)

/-- `Matches::opt_present` of a one-letter name — main.rs:142, 148. -/
def optPresent (acc : Collected) (c : Char) : Bool :=
  match findOpt (.short c) with
  | some opt => (valuesOf acc opt).length > 0
  | none => false

/-- `Matches::opt_str` of a one-letter name — main.rs:154. -/
def optStr (acc : Collected) (c : Char) : Option Str :=
  match findOpt (.short c) with
  | some opt =>
    match valuesOf acc opt with
    | (_, value) :: _ => value
    | [] => none
  | none => none

/-- `Options::parse` — main.rs:136. -/
def parseArguments (arguments : List Str) : Run (Except Fail Collected) :=
  match collect (arguments.length + 1) arguments ⟨[], []⟩ with
  | .panic => .panic
  | .ret (.error e) => .ret (.error e)
  | .ret (.ok acc) =>
    match firstDuplicated acc with
    | some opt => .ret (.error (.optionDuplicated opt.long))
    | none => .ret (.ok acc)

/-- One row of `Options::usage`. The descriptions of the tool are single lines of less than 54 characters with single
spaces, so that they are neither normalised nor wrapped — main.rs:116. -/
def usageRow (opt : Opt) : Str :=
  let row := "    -".toList ++ [opt.short] ++ ", --".toList ++ opt.long ++ " ".toList ++ opt.hint
  row ++ List.replicate (24 - row.length) ' ' ++ opt.desc

/-- `Options::usage` — main.rs:116. -/
def usage (brief : Str) : Str :=
  brief ++ "\n\nOptions:\n".toList ++ joinWith "\n".toList (table.map usageRow) ++ "\n".toList

end Options

/-- Crate `getopts` 0.2.14 as `main` uses it — main.rs:130-148. A run out of fuel, proved not to happen, would
appear as an error. -/
def getopts0214 : Getopts where
  parse := fun arguments =>
    match Options.parseArguments arguments with
    | .panic => .error []
    | .ret (.error e) => .error e.display
    | .ret (.ok acc) =>
      .ok { help := Options.optPresent acc 'h', version := Options.optPresent acc 'v',
            output := Options.optStr acc 'o', free := acc.free }
  usage := Options.usage

end C8S
