import Verif.Proofs.WorkParser
import Verif.Proofs.Profile

/- Properties on the amount of work: C113. -/

namespace C8S

open Spec

namespace WorkExample

def text : Str := "n: .equ $0A\n ld v1, n ; ten\n .db \"ab\", 7\n".toList

def l : Loc := ⟨[], 0, 0, 0⟩

def nodes : List Node := [.label l "n".toList, .directive l "equ".toList [.numeric 10],
  .instruction l "ld".toList [.generalPurposeRegister 1, .identifier "n".toList],
  .directive l "db".toList [.string "ab".toList, .numeric 7]]

end WorkExample

open WorkExample

/-- C113: counting the steps changes nothing: every stage gives the result it gives without the count. -/
theorem C113_same [Target] : (∀ file text : Str, (Work.scan file text).run = scan file text) ∧
    (∀ tokens : List Token, (Work.parse tokens).run = parse tokens) ∧
    (∀ nodes : List Node, (Work.assemble nodes).run = assemble nodes) ∧
    ∀ ranges : List DataRange, (Work.findOverlappingRanges ranges).run = .ret (findOverlappingRanges ranges) :=
  ⟨fun _ _ => Work.drain_run _ _, Work.parse_run, Work.assemble_run, fun ranges => (Work.overlaps_spec ranges).1⟩

/-- C113: the scanner takes at most 5 steps for each byte of the text and 17 for each token and for the end. -/
theorem C113_scanner [Target] (file text : Str) (tokens : List Token) (h : scan file text = .ret tokens) :
    (Work.scan file text).steps ≤ 5 * (utf8 text).length + 17 * (tokens.length + 1) := by
  have := Work.drain_steps (byteLen text + 1) (Visits.start (file := file) (text := text)) (ts := tokens)
    (by rw [Work.drain_run]; exact h)
  unfold Work.scan
  omega

example : (Work.scan [] text).steps = 267 ∧ (utf8 text).length = 41 := by
  rw [utf8_length]
  decide +kernel

/-- C113: the parser takes at most 4 steps for each byte of the text, and 3, whether or not it accepts. -/
theorem C113_parser [Target] (file text : Str) (tokens : List Token) (h : scan file text = .ret tokens) :
    (Work.parse tokens).steps ≤ 4 * (utf8 text).length + 3 := by
  have h1 := Work.parse_steps tokens
  have h2 := Work.weight_scan h
  omega

example : (scan [] text).bind (fun ts => .ret (Work.parse ts).steps) = .ret 37 := by decide +kernel

/-- C113: the assembler takes at most 7 steps for each part and each byte of a name or string of the program, and so at
most 14 for each byte of the text, whether or not it accepts. -/
theorem C113_assembler [Target] (file text : Str) (tokens : List Token) (nodes : List Node) (hs : scan file text = .ret tokens)
    (hp : parse tokens = .ret (.ok nodes)) :
    (Work.assemble nodes).steps ≤ 7 * programSize nodes ∧ programSize nodes ≤ 2 * (utf8 text).length := by
  have hg := (parse_ok_iff _ _).1 hp
  have h1 := Work.program_size hg
  have h2 := Work.weight_scan hs
  refine ⟨?_, by omega⟩
  cases ha : assemble nodes with
  | panic => exact (assemble_no_panic (program_registers hg) ha).elim
  | ret out => exact Work.assemble_steps nodes out ha

example : (Work.assemble nodes).steps = 46 ∧ programSize nodes = 20 := by decide +kernel

/-- C113: all the work of turning a text into ranges is linear in the size of the text. -/
theorem C113_linear [Target] (file text : Str) (tokens : List Token) (nodes : List Node) (hs : scan file text = .ret tokens)
    (hp : parse tokens = .ret (.ok nodes)) :
    (Work.scan file text).steps + (Work.parse tokens).steps + (Work.assemble nodes).steps ≤ 40 * (utf8 text).length + 20 := by
  have h1 := C113_scanner file text tokens hs
  have h2 := C113_parser file text tokens hs
  have h3 := C113_assembler file text tokens nodes hs hp
  have h4 := Work.weight_scan hs
  omega

/-- The text has these statements: 267 + 37 + 46 steps for 41 bytes. -/
example : ((scan [] text).bind parse).bind (fun r => .ret (r.toOption.map fun ns => ns.map bareNode)) =
    .ret (some (nodes.map bareNode)) := by decide +kernel

/-- C113: the search for overlaps compares every pair of ranges, once. -/
theorem C113_overlaps (ranges : List DataRange) :
    2 * (Work.findOverlappingRanges ranges).steps = ranges.length * (ranges.length - 1) :=
  (Work.overlaps_spec ranges).2

example : (Work.findOverlappingRanges [⟨0, [1]⟩, ⟨0, [2]⟩, ⟨5, [3]⟩]).steps = 3 := by decide +kernel

/-- C113: and this is not linear: for every number of sections there is a program with two statements for each that is
accepted, for which all pairs of sections are compared, and all are found to overlap. -/
theorem C113_quadratic (k : Nat) : ∃ (nodes : List Node) (ranges : List DataRange), nodes.length = 2 * k ∧
    assemble nodes = .ret (.ok ranges) ∧ 2 * (Work.findOverlappingRanges ranges).steps = k * (k - 1) ∧
    2 * (findOverlappingRanges ranges).length = k * (k - 1) := by
  refine ⟨Work.stacked k, List.replicate k ⟨0, [1]⟩, ?_, Work.stacked_assemble k, ?_, ?_⟩
  · simp [Work.stacked, List.length_flatten, Nat.mul_comm]
  · rw [C113_overlaps, List.length_replicate]
  · exact Work.stacked_overlaps k

end C8S
