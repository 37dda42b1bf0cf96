import Verif.Spec.Complaints
import Verif.Spec.Reports
import Verif.Spec.CommandLine
import Verif.Spec.Overlap
import Verif.Spec.Blocks
import Verif.Spec.Written
import Verif.Spec.Utf8
import Verif.Model.Bytes

/- Specification of the tool as a whole: what it does with a command line and files. -/

namespace C8S.Spec

/-- What is said of a directive that is not valid. -/
def directiveText : DirectiveError → Str
  | .incorrectNumberOfParameters name count needed orMore => say ["Incorrect number of parameters (".toList, dec count,
      ") for directive .".toList, name, ", expecting ".toList, dec needed, if orMore then " or more.".toList else ".".toList]
  | .directiveRequiresOneNumericLiteral name =>
    say ["Directive .".toList, name, " requires 1 numeric literal in the range $000-$FFF.".toList]
  | .allNumericParametersMustBeByteLiterals name value => say ["All numeric parameters to .".toList, name,
      " must be 1-byte literals ($".toList, hexa value, " > $FF).".toList]
  | .unrecognizedDirective name => say ["Unrecognized directive '.".toList, name, "'.".toList]

/-- What is said of an instruction that cannot be encoded. -/
def instructionText : InstructionError → Str
  | .unableToResolveLabel name => say ["Unable to resolve label ".toList, name, ".".toList]
  | .expectingEightBitValue value =>
    say ["Found 12-bit numeric value $".toList, hexa value, ", expecting 8-bit value.".toList]
  | .expectingFourBitValue value =>
    say ["Found 8/12-bit numeric value $".toList, hexa value, ", expecting 4-bit value.".toList]
  | .noMatchingFormat m none => say ["No matching instruction: ".toList, m, ".".toList]
  | .noMatchingFormat m (some operands) => say ["No matching instruction: ".toList, m, " ".toList, operands, ".".toList]

/-- What is said of the statement at fault, and where. Only `.db` is too large or passes the end of the memory. -/
def faultText : SemanticError → Str
  | .directiveInvalid l reason => say [shownLoc l, ": error: ".toList, directiveText reason]
  | .directiveTooLarge l (.db bytes) => say [shownLoc l, ": error: Directive (.db [".toList, dec bytes.length,
      " bytes]) size ".toList, dec bytes.length, " exceeds 4096 bytes.".toList]
  | .directiveWouldOverflow l (.db bytes) => say [shownLoc l, ": error: Directive (.db [".toList, dec bytes.length,
      " bytes]) would cause the 12-bit address counter to overflow.".toList]
  | .directiveTooLarge _ _ => []
  | .directiveWouldOverflow _ _ => []
  | .instructionWouldOverflow l => say [shownLoc l, ": error: Instruction would cause address counter to overflow $FFF.".toList]
  | .redefinitionOfLabel l name => say [shownLoc l, ": error: Attempted re-definition of label '".toList, name, "'.".toList]
  | .assemblyFailed l reason => say [shownLoc l, ": error: ".toList, instructionText reason]
  | .constantWithoutLabel l =>
    say [shownLoc l, ": error: A constant must be defined immediately following a label name.".toList]

/-- The text is that of a valid program with these sections. -/
def HasSections (bin : Str → Nat) (file text : Str) (sections : List DataRange) : Prop :=
  ∃ tokens nodes labels, Lex bin file [] text tokens ∧ Program tokens nodes ∧ Valid nodes labels ∧
    Sections labels 0 nodes sections

open Classical in
/-- The pairs of sections with an address in common, in order. -/
noncomputable def collisions (sections : List DataRange) : List (DataRange × DataRange) :=
  pairsWhere (fun a b => decide (Shares a b)) sections

/-- The text is that of a program with this object file: a line for each block of 16 bytes of each section, and the last
line. No address is in two sections. -/
def HasObject (bin : Str → Nat) (file text hex : Str) : Prop :=
  ∃ sections blocks, HasSections bin file text sections ∧ sections.Pairwise (fun a b => ¬ Shares a b) ∧
    AllBlocks sections blocks ∧ FileOf blocks hex

/-- What is reported of a text that has no object file. -/
inductive Refused (bin : Str → Nat) (program file text : Str) : List Event → Prop where
  /-- It is not a program. -/
  | syntactic {tokens : List Token} {message : Str} : Lex bin file [] text tokens →
    SyntaxReport file text tokens message → Refused bin program file text [.printed message]
  /-- It is a program that is not valid. -/
  | semantic {tokens : List Token} {nodes pre : List Node} {n : Node} {e : SemanticError} : Lex bin file [] text tokens →
    Program tokens nodes → AtFault nodes pre n e →
    Refused bin program file text [.printed (faultText e ++ "\n".toList)]
  /-- It is a valid program, with an address that is in two sections. -/
  | overlap {sections : List DataRange} : HasSections bin file text sections → collisions sections ≠ [] →
    Refused bin program file text (report program "Input file specifies overlapping data ranges.".toList ::
      report program "Data from one section has overflowed into the adjacent.".toList ::
      (collisions sections).flatMap fun p =>
        [report program ("  range ".toList ++ shownRange p.1 ++ " overlaps with:".toList),
         report program ("  range ".toList ++ shownRange p.2)])

/-- What is done with a file and an output. -/
inductive Handles (bin : Str → Nat) (env : Env) (program input output : Str) : List Event → Exit → Prop where
  | unopened {reason : Str} : env.openInput input = .error reason →
    Handles bin env program input output [.opening input,
      report program (say ["Unable to open input file '".toList, input, "'".toList]), report program reason] (.code 1)
  | unread {reason : Str} : env.openInput input = .ok () → env.readInput input = .error reason →
    Handles bin env program input output [.opening input, .reading input,
      report program (say ["Unable to read contents of input file '".toList, input, "'".toList]),
      report program reason] (.code 1)
  | refused {text : Str} {events : List Event} : env.openInput input = .ok () → env.readInput input = .ok text →
    Refused bin program input text events →
    Handles bin env program input output (.opening input :: .reading input :: events) (.code 1)
  | uncreated {text hex reason : Str} : env.openInput input = .ok () → env.readInput input = .ok text →
    HasObject bin input text hex → output ≠ "-".toList → env.createOutput output = .error reason →
    Handles bin env program input output [.opening input, .reading input,
      report program (say ["Unable to create output file '".toList, output, "'".toList]), report program reason] (.code 1)
  | unwritten {text hex reason : Str} {n : Nat} : env.openInput input = .ok () → env.readInput input = .ok text →
    HasObject bin input text hex → output ≠ "-".toList → env.createOutput output = .ok () →
    env.writeOutput (.file output) (utf8 hex) = .error (reason, n) →
    Handles bin env program input output [.opening input, .reading input, .created output,
      .wrote (.file output) ((utf8 hex).take n),
      report program (say ["Unable to write result to output file '".toList, output, "'".toList]),
      report program reason] (.code 1)
  | written {text hex : Str} : env.openInput input = .ok () → env.readInput input = .ok text →
    HasObject bin input text hex → output ≠ "-".toList → env.createOutput output = .ok () →
    env.writeOutput (.file output) (utf8 hex) = .ok () →
    Handles bin env program input output [.opening input, .reading input, .created output,
      .wrote (.file output) (utf8 hex)] (.code 0)
  | unshown {text hex reason : Str} {n : Nat} : env.openInput input = .ok () → env.readInput input = .ok text →
    HasObject bin input text hex → output = "-".toList → env.writeOutput .stdout (utf8 hex) = .error (reason, n) →
    Handles bin env program input output [.opening input, .reading input, .wrote .stdout ((utf8 hex).take n),
      report program "Unable to write result to output file '-'".toList, report program reason] (.code 1)
  | shown {text hex : Str} : env.openInput input = .ok () → env.readInput input = .ok text →
    HasObject bin input text hex → output = "-".toList → env.writeOutput .stdout (utf8 hex) = .ok () →
    Handles bin env program input output [.opening input, .reading input, .wrote .stdout (utf8 hex)] (.code 0)

/-- What the tool does with a command line. -/
inductive Behaves (bin : Str → Nat) (env : Env) : List Str → List Event → Exit → Prop where
  /-- Not even a program name. -/
  | empty : Behaves bin env [] [] .panicked
  | wrong {program : Str} {words : List Str} {fault : Fault} : Wrong words fault →
    Behaves bin env (program :: words) [report program fault.message] (.code 1)
  | help {program : Str} {words : List Str} {said : List Said} : Says words said → Once said → .help ∈ said →
    Behaves bin env (program :: words) [.printed (usageText program)] (.code 0)
  | version {program : Str} {words : List Str} {said : List Said} : Says words said → Once said → .help ∉ said →
    .version ∈ said → Behaves bin env (program :: words) [.printed "c8s version 0.1.3\n".toList] (.code 0)
  | usage {program : Str} {words : List Str} {said : List Said} : Says words said → Once said → .help ∉ said →
    .version ∉ said → (files said).length ≠ 1 →
    Behaves bin env (program :: words) [.printed (usageText program)] (.code 1)
  | file {program input output : Str} {words : List Str} {said : List Said} {events : List Event} {exit : Exit} :
    Says words said → Once said → .help ∉ said → .version ∉ said → files said = [input] → .output output ∈ said →
    Handles bin env program input output events exit → Behaves bin env (program :: words) events exit
  | standard {program input : Str} {words : List Str} {said : List Said} {events : List Event} {exit : Exit} :
    Says words said → Once said → .help ∉ said → .version ∉ said → files said = [input] →
    (∀ output, .output output ∉ said) → Handles bin env program input "a.hex".toList events exit →
    Behaves bin env (program :: words) events exit

/-- What a run with these effects becomes on this standard output: it crashes at the first text that cannot be printed. -/
inductive ShownOn (console : Console) (intended : List Event → Exit → Prop) : List Event → Exit → Prop where
  | shown {events : List Event} {exit : Exit} : intended events exit → Shows console [] events →
    ShownOn console intended events exit
  | broken {done rest : List Event} {text : Str} {exit : Exit} {k : Nat} : intended (done ++ .printed text :: rest) exit →
    Shows console [] done → console.print done text = .error k →
    ShownOn console intended (done ++ [.printed (text.take k)]) .panicked

/-- What reading a file of bytes as a text gives. -/
inductive ReadsAs (raw : RawEnv) (path : Str) : Except Str Str → Prop where
  | failed {reason : Str} : raw.readInput path = .error reason → ReadsAs raw path (.error reason)
  | text {bytes : List U8} {text : Str} : raw.readInput path = .ok bytes → InUtf8 text bytes → ReadsAs raw path (.ok text)
  | invalid {bytes : List U8} : raw.readInput path = .ok bytes → (¬ ∃ text, InUtf8 text bytes) →
    ReadsAs raw path (.error "stream did not contain valid UTF-8".toList)

/-- A file system of bytes, seen as one of texts. -/
structure Sees (raw : RawEnv) (env : Env) : Prop where
  opens : ∀ path, env.openInput path = raw.openInput path
  reads : ∀ path, ReadsAs raw path (env.readInput path)
  creates : ∀ path, env.createOutput path = raw.createOutput path
  writes : ∀ dest bytes, env.writeOutput dest bytes = raw.writeOutput dest bytes

/-- What the tool does with a command line in bytes. -/
inductive BehavesRaw (bin : Str → Nat) (raw : RawEnv) (args : List (List U8)) : List Event → Exit → Prop where
  /-- An argument is not UTF-8. -/
  | undecodable {a : List U8} : a ∈ args → (¬ ∃ s, InUtf8 s a) → BehavesRaw bin raw args [] .panicked
  | decoded {words : List Str} {env : Env} {events : List Event} {exit : Exit} : AllInUtf8 words args → Sees raw env →
    Behaves bin env words events exit → BehavesRaw bin raw args events exit

end C8S.Spec
