import Verif.Model.Scanner
import Verif.Model.Assembler
import Verif.Model.IHex

/-
Model of /repo/src/main.rs. The operating system is an arbitrary oracle (`Env`), the command-line parser of
crate `getopts` is an arbitrary function (`Getopts`), and the observable behaviour is a trace of events and an
exit status. Here writing to standard output does not fail for diagnostics; `Console.lean` adds the panic of `println!`.
-/

namespace C8S

/-- Where the object file goes — main.rs:86-97. -/
inductive Dest where
  | stdout
  | file (path : Str)
  deriving DecidableEq, Repr

/-- Observable effects of one run — main.rs:34-169. -/
inductive Event where
  /-- A line printed with `println!` or `print!` on standard output. -/
  | printed (text : Str)
  /-- `File::open` was called. -/
  | opening (path : Str)
  /-- `read_to_string` was called. -/
  | reading (path : Str)
  /-- `File::create` succeeded: the file exists and is empty. -/
  | created (path : Str)
  /-- These bytes of the object file were written to the destination. -/
  | wrote (dest : Dest) (bytes : List U8)
  deriving DecidableEq, Repr

/-- How the process ends — main.rs:40, 49, 58, 64, 79, 93, 103, 138, 161. -/
inductive Exit where
  | code (n : Nat)
  | panicked
  deriving DecidableEq, Repr

/-- The file system, as the answers to the calls of `assemble_file`. Errors carry their message — main.rs:37, 46, 90,
100. -/
structure Env where
  /-- `File::open` — main.rs:37. -/
  openInput : Str → Except Str Unit
  /-- `read_to_string` (fails on invalid UTF-8 too) — main.rs:46. -/
  readInput : Str → Except Str Str
  /-- `File::create` — main.rs:90. -/
  createOutput : Str → Except Str Unit
  /-- `write_all` — main.rs:100. A failure reports how many bytes had been written before it. -/
  writeOutput : Dest → List U8 → Except (Str × Nat) Unit

/-- Effects and exit status of a run — main.rs:34-169. -/
structure Outcome where
  events : List Event
  exit : Exit
  deriving DecidableEq, Repr

/-- The logger closure — main.rs:166-168. -/
def logProgramError (program reason : Str) : Event :=
  .printed (program ++ ": error: ".toList ++ reason ++ "\n".toList)

/-- The reports of overlapping ranges — main.rs:74-77. -/
def overlapReports (program : Str) : List (DataRange × DataRange) → Run (List Event)
  | [] => .ret []
  | (a, b) :: rest => do
    let da ← a.display
    let db ← b.display
    let more ← overlapReports program rest
    return logProgramError program ("  range ".toList ++ da ++ " overlaps with:".toList)
      :: logProgramError program ("  range ".toList ++ db) :: more

/-- The part of `assemble_file` after the object file text is known — main.rs:85-104. -/
def writeResult (env : Env) (program outputPath result : Str) : Outcome :=
  let dest := if outputPath = "-".toList then Dest.stdout else Dest.file outputPath
  let create : Except Str (List Event) :=
    if outputPath = "-".toList then .ok []
    else
      match env.createOutput outputPath with
      | .error reason => .error reason
      | .ok () => .ok [.created outputPath]
  match create with
  | .error reason =>
    ⟨[logProgramError program ("Unable to create output file '".toList ++ outputPath ++ "'".toList),
      logProgramError program reason], .code 1⟩
  | .ok createEvents =>
    match env.writeOutput dest (utf8Bytes result) with
    | .ok () => ⟨createEvents ++ [.wrote dest (utf8Bytes result)], .code 0⟩
    | .error (reason, written) =>
      ⟨createEvents ++ [.wrote dest ((utf8Bytes result).take written),
        logProgramError program ("Unable to write result to output file '".toList ++ outputPath ++ "'".toList),
        logProgramError program reason], .code 1⟩

/-- `assemble_file` from the contents of the input file on — main.rs:52-104. -/
def assembleText [Target] (env : Env) (program inputPath outputPath buffer : Str) : Outcome :=
  match scan inputPath buffer with
  | .panic => ⟨[], .panicked⟩
  | .ret tokens =>
    match parse tokens with
    | .panic => ⟨[], .panicked⟩
    | .ret (.error e) =>
      match e.display with
      | .panic => ⟨[], .panicked⟩
      | .ret message => ⟨[.printed (message ++ "\n".toList)], .code 1⟩
    | .ret (.ok nodes) =>
      match assemble nodes with
      | .panic => ⟨[], .panicked⟩
      | .ret (.error e) => ⟨[.printed (e.display ++ "\n".toList)], .code 1⟩
      | .ret (.ok ranges) =>
        let overlapping := findOverlappingRanges ranges
        if overlapping.length > 0 then
          let head :=
            [logProgramError program "Input file specifies overlapping data ranges.".toList,
             logProgramError program "Data from one section has overflowed into the adjacent.".toList]
          match overlapReports program overlapping with
          | .panic => ⟨head, .panicked⟩
          | .ret reports => ⟨head ++ reports, .code 1⟩
        else
          match ihexRepresentationOfDataRanges ranges with
          | .panic => ⟨[], .panicked⟩
          | .ret result => writeResult env program outputPath result

/-- `assemble_file` — main.rs:34-105. -/
def assembleFile [Target] (env : Env) (program inputPath outputPath : Str) : Outcome :=
  match env.openInput inputPath with
  | .error reason =>
    ⟨[.opening inputPath, logProgramError program ("Unable to open input file '".toList ++ inputPath ++ "'".toList),
      logProgramError program reason], .code 1⟩
  | .ok () =>
    match env.readInput inputPath with
    | .error reason =>
      ⟨[.opening inputPath, .reading inputPath,
        logProgramError program ("Unable to read contents of input file '".toList ++ inputPath ++ "'".toList),
        logProgramError program reason], .code 1⟩
    | .ok buffer =>
      let outcome := assembleText env program inputPath outputPath buffer
      ⟨.opening inputPath :: .reading inputPath :: outcome.events, outcome.exit⟩

/-- What `main` uses of `getopts::Matches` — main.rs:141-163. -/
structure Matches where
  help : Bool
  version : Bool
  output : Option Str
  free : List Str
  deriving DecidableEq, Repr

/-- Crate `getopts` as configured in main.rs:130-133. -/
structure Getopts where
  /-- `options.parse` — main.rs:136; the error is its display text. -/
  parse : List Str → Except Str Matches
  /-- `options.usage(brief)` — main.rs:116. -/
  usage : Str → Str

/-- `env!("CARGO_PKG_VERSION")` — /repo/Cargo.toml:3. -/
def packageVersion : Str := "0.1.3".toList

/-- `print_usage` — main.rs:114-117. -/
def printUsage (getopts : Getopts) (program : Str) : Event :=
  .printed (getopts.usage ("USAGE: ".toList ++ program ++ " [options] <input>".toList))

/-- `print_version` — main.rs:122-124. -/
def printVersion : Event := .printed ("c8s version ".toList ++ packageVersion ++ "\n".toList)

/-- `main` — main.rs:126-169. `arguments[0]` panics when the argument vector is empty. -/
def main [Target] (getopts : Getopts) (env : Env) (arguments : List Str) : Outcome :=
  match arguments with
  | [] => ⟨[], .panicked⟩
  | program :: rest =>
    match getopts.parse rest with
    | .error reason => ⟨[.printed (program ++ ": error: ".toList ++ reason ++ "\n".toList)], .code 1⟩
    | .ok m =>
      if m.help then ⟨[printUsage getopts program], .code 0⟩
      else if m.version then ⟨[printVersion], .code 0⟩
      else
        let outputPath := m.output.getD "a.hex".toList
        match m.free with
        | [inputPath] => assembleFile env program inputPath outputPath
        | _ => ⟨[printUsage getopts program], .code 1⟩

end C8S
