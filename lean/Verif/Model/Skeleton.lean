import Verif.Model.Main
import Verif.Model.Stream
import Verif.Model.Table
import Verif.Model.Process

/-! The tool with its steps left open: what `main.rs` does with whatever the modules of the assembler yield. -/

namespace C8S

/-- What `assemble_file` calls — main.rs:53, 56, 62, 68, 83. -/
structure Steps where
  /-- `Scanner::new` and `parse` — main.rs:53, 56. -/
  front : (file text : Str) → Run (Except ParseError (List Node))
  /-- `assemble` — main.rs:62. -/
  assemble : List Node → Run (Except SemanticError (List DataRange))
  /-- `find_overlapping_ranges` — main.rs:68. -/
  overlapping : List DataRange → List (DataRange × DataRange)
  /-- `ihex_representation_of_data_ranges` — main.rs:83. -/
  write : List DataRange → Run Str

namespace Steps

/-- `assemble_file` from the contents of the input file on, with these steps — main.rs:52-104. -/
def assembleText (s : Steps) (env : Env) (program inputPath outputPath buffer : Str) : Outcome :=
  match s.front inputPath buffer with
  | .panic => ⟨[], .panicked⟩
  | .ret (.error e) =>
    match e.display with
    | .panic => ⟨[], .panicked⟩
    | .ret message => ⟨[.printed (message ++ "\n".toList)], .code 1⟩
  | .ret (.ok nodes) =>
    match s.assemble nodes with
    | .panic => ⟨[], .panicked⟩
    | .ret (.error e) => ⟨[.printed (e.display ++ "\n".toList)], .code 1⟩
    | .ret (.ok ranges) =>
      let overlapping := s.overlapping ranges
      if overlapping.length > 0 then
        let head :=
          [logProgramError program "Input file specifies overlapping data ranges.".toList,
           logProgramError program "Data from one section has overflowed into the adjacent.".toList]
        match overlapReports program overlapping with
        | .panic => ⟨head, .panicked⟩
        | .ret reports => ⟨head ++ reports, .code 1⟩
      else
        match s.write ranges with
        | .panic => ⟨[], .panicked⟩
        | .ret result => writeResult env program outputPath result

/-- `assemble_file` with these steps — main.rs:34-105. -/
def assembleFile (s : Steps) (env : Env) (program inputPath outputPath : Str) : Outcome :=
  match env.openInput inputPath with
  | .error reason =>
    ⟨[.opening inputPath, logProgramError program ("Unable to open input file '".toList ++ inputPath ++ "'".toList),
      logProgramError program reason], .code 1⟩
  | .ok () =>
    match env.readInput inputPath with
    | .error reason =>
      ⟨[.opening inputPath, .reading inputPath,
        logProgramError program ("Unable to read contents of input file '".toList ++ inputPath ++ "'".toList),
        logProgramError program reason], .code 1⟩
    | .ok buffer =>
      let outcome := s.assembleText env program inputPath outputPath buffer
      ⟨.opening inputPath :: .reading inputPath :: outcome.events, outcome.exit⟩

/-- `main` with these steps — main.rs:126-169. -/
def main (s : Steps) (getopts : Getopts) (env : Env) (arguments : List Str) : Outcome :=
  match arguments with
  | [] => ⟨[], .panicked⟩
  | program :: rest =>
    match getopts.parse rest with
    | .error reason => ⟨[.printed (program ++ ": error: ".toList ++ reason ++ "\n".toList)], .code 1⟩
    | .ok m =>
      if m.help then ⟨[printUsage getopts program], .code 0⟩
      else if m.version then ⟨[printVersion], .code 0⟩
      else
        let outputPath := m.output.getD "a.hex".toList
        match m.free with
        | [inputPath] => s.assembleFile env program inputPath outputPath
        | _ => ⟨[printUsage getopts program], .code 1⟩

/-- `main` with these steps, the arguments and the files in bytes, on this standard output — main.rs:126-169. -/
def process (s : Steps) (console : Console) (getopts : Getopts) (raw : RawEnv) (arguments : List (List U8)) : Outcome :=
  let o : Outcome := match collectArgs arguments with
    | .panic => ⟨[], .panicked⟩
    | .ret arguments => s.main getopts raw.env arguments
  onConsole console [] o.events o.exit

/-- The steps of the code: the parser asks the scanner for one token at a time (parser.rs:193-223, 510-512), and the labels are in a
hash table with this hash function and this growth (assembler.rs:115-116). The fuel is more than the number of tokens. -/
def code [Target] (hash : Str → Nat) (grow : Nat → Nat) : Steps where
  front file text := parseStream Scanner.nextToken (text.length + 1) (Scanner.new file text)
  assemble := Table.assemble (Buckets hash grow)
  overlapping := findOverlappingRanges
  write := ihexRepresentationOfDataRanges

end Steps

end C8S
