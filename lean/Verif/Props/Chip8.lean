import Verif.Proofs.Chip8
import Verif.Props.Running

/-
What an interpreter makes of the object file.

C99: A CHIP-8 interpreter with the object file in memory does what the source text says.
-/

namespace C8S

open Spec

/-- C99: what is done by reading the source text, with some inputs (random numbers and keys), is done by the interpreter with
the same inputs, as long as no instruction is overwritten. -/
theorem C99_runs {S : Type} (w : World S) (nodes : List Node) (ranges : List DataRange) (start : Memory)
    (h : assemble nodes = .ret (.ok ranges)) (hl : Loaded (image ranges) start) (es : List Executed)
    (s s' : Nat × List Nat) (d d' : Chip8 S) (mem mem' : Memory) (inputs rest : List U8) (pc : Nat) (stack : List Nat)
    (hx : Execution (chip8 w) (byReader nodes) (Intact nodes start) es (s, (d, inputs ++ rest), mem) (s', (d', rest), mem'))
    (hp : Placed nodes s (pc, stack)) :
    inputs.length = es.length ∧ ∃ pc' stack', Placed nodes s' (pc', stack') ∧
      Interpreted w (fun m => Intact nodes start m.mem) inputs ⟨pc, stack, d, mem⟩ ⟨pc', stack', d', mem'⟩ := by
  obtain ⟨t', h1, h2⟩ := run_forward h hl hx (pc, stack) hp
  obtain ⟨inputs', e1, e2, h3⟩ := execution_interpreted h1
  obtain rfl : inputs = inputs' := List.append_cancel_right e1
  exact ⟨e2, t'.1, t'.2, h2, h3⟩

/-- C99: and if execution does not leave the instructions of the text, what is done by the interpreter is done by reading the
source text, as long as no instruction is overwritten. -/
theorem C99_follows {S : Type} (w : World S) (nodes : List Node) (ranges : List DataRange) (start : Memory)
    (h : assemble nodes = .ret (.ok ranges)) (ho : findOverlappingRanges ranges = []) (tables : Nat → Prop)
    (hc : ClosedFlow nodes tables) (hl : Loaded (image ranges) start) (m m' : Machine S) (inputs rest : List U8)
    (s : Nat × List Nat)
    (hx : Interpreted w (fun m => Intact nodes start m.mem ∧ Indexed nodes tables m) inputs m m')
    (hp : Placed nodes s (m.pc, m.stack)) :
    ∃ es s', es.length = inputs.length ∧ Placed nodes s' (m'.pc, m'.stack) ∧
      Execution (chip8 w) (byReader nodes) (Intact nodes start) es (s, (m.data, inputs ++ rest), m.mem)
        (s', (m'.data, rest), m'.mem) := by
  obtain ⟨es, s', h1, h2, h3⟩ := interpreted_execution (rest := rest) h ho hc hl hx s hp
  exact ⟨es, s', h1, h3, h2⟩

/-- C99: a program that does not store into memory does in the interpreter just what the text says, and memory stays as it
is. -/
theorem C99_store_free {S : Type} (w : World S) (nodes : List Node) (ranges : List DataRange) (start : Memory)
    (h : assemble nodes = .ret (.ok ranges)) (hn : StoreFree nodes) (hl : Loaded (image ranges) start) (s : Nat × List Nat)
    (pc : Nat) (stack : List Nat) (hp : Placed nodes s (pc, stack)) (d d' : Chip8 S) (mem' : Memory) (inputs : List U8) :
    ((∃ es s', Execution (chip8 w) (byReader nodes) (fun _ => True) es (s, (d, inputs), start) (s', (d', []), mem')) →
      mem' = start ∧ ∃ pc' stack', Interpreted w (fun _ => True) inputs ⟨pc, stack, d, start⟩ ⟨pc', stack', d', mem'⟩) ∧
    (∀ tables, ClosedFlow nodes tables → findOverlappingRanges ranges = [] →
      (∃ pc' stack', Interpreted w (Indexed nodes tables) inputs ⟨pc, stack, d, start⟩ ⟨pc', stack', d', mem'⟩) →
      mem' = start ∧
        ∃ es s', Execution (chip8 w) (byReader nodes) (fun _ => True) es (s, (d, inputs), start) (s', (d', []), mem')) := by
  refine ⟨?_, ?_⟩
  · rintro ⟨es, s', hx⟩
    obtain ⟨h1, h2⟩ := reader_keeps hn chip8_regular hx rfl
    rw [← List.append_nil inputs] at h1
    obtain ⟨_, pc', stack', _, h3⟩ := C99_runs w nodes ranges start h hl es s s' d d' start mem' inputs [] pc stack h1 hp
    exact ⟨h2, pc', stack', interpreted_weaken h3⟩
  · rintro tables hc ho ⟨pc', stack', hx⟩
    obtain ⟨h1, h2⟩ := interpreted_keeps h ho hc hn hl hx s hp rfl
    obtain ⟨es, s', _, h3, _⟩ := interpreted_execution (rest := []) h ho hc hl h1 s hp
    rw [List.append_nil] at h3
    exact ⟨h2, es, s', execution_weaken h3⟩

/-- C99: at an instruction of the text that has not been overwritten, the interpreter stops only for a trap or a `RET` without
a return address; it meets no unknown instruction. -/
theorem C99_stops {S : Type} (w : World S) (nodes : List Node) (ranges : List DataRange) (start : Memory)
    (h : assemble nodes = .ret (.ok ranges)) (hl : Loaded (image ranges) start) (m : Machine S) (input : U8) (i : Nat)
    (hk : Intact nodes start m.mem) (hi : InstructionAt nodes i m.pc) :
    ∃ op, Spells nodes i op ∧ (interpret w input m = none ↔
      op.1 = "trap".toList ∨ op.1 = "trapret".toList ∨ (op.1 = "ret".toList ∧ m.stack = [])) := by
  obtain ⟨op, h1, h2⟩ := placed_fetches h hl hk hi
  exact ⟨op, h1, interpret_none h2⟩

/-- C99: from source file to interpreter. If the tool exits with status 0, the output is an object file; an interpreter into
the memory of which it is loaded, with whatever else there is, does what the source text says. -/
theorem C99_file [Target] (env : Env) (program input output : Str) (h : (assembleFile env program input output).exit = .code 0) :
    ∃ text tokens nodes bytes hex, env.readInput input = .ok text ∧ Lex wordBinary input [] text tokens ∧
      Program tokens nodes ∧ bytesTo (destination output) (assembleFile env program input output).events = utf8 hex ∧
      HexOf hex bytes ∧
      ∀ {S : Type} (w : World S) (start : Memory), Loaded bytes start →
        ∀ (s : Nat × List Nat) (pc : Nat) (stack : List Nat) (d d' : Chip8 S) (mem mem' : Memory) (inputs : List U8),
          Placed nodes s (pc, stack) →
          ((∃ es s', Execution (chip8 w) (byReader nodes) (Intact nodes start) es (s, (d, inputs), mem) (s', (d', []), mem')) →
            ∃ pc' stack', Interpreted w (fun m => Intact nodes start m.mem) inputs ⟨pc, stack, d, mem⟩ ⟨pc', stack', d', mem'⟩) ∧
          (∀ tables, ClosedFlow nodes tables →
            (∃ pc' stack', Interpreted w (fun m => Intact nodes start m.mem ∧ Indexed nodes tables m) inputs
              ⟨pc, stack, d, mem⟩ ⟨pc', stack', d', mem'⟩) →
            ∃ es s', Execution (chip8 w) (byReader nodes) (Intact nodes start) es (s, (d, inputs), mem) (s', (d', []), mem')) := by
  obtain ⟨text, bytes, hex, _, hr, hd, hn, hx, hb⟩ := C45_status env program input output h
  obtain ⟨tokens, nodes, ranges, hs, hp, ha, rfl⟩ := (describes_iff input text bytes).1 hd
  refine ⟨text, tokens, nodes, _, hex, hr, (scan_iff_lex _ _ _).1 hs, (parse_ok_iff _ _).1 hp, hb, hx, ?_⟩
  intro S w start hl s pc stack d d' mem mem' inputs hpl
  have ho : findOverlappingRanges ranges = [] := (C41_overlap _ _ ha).2 hn
  refine ⟨?_, ?_⟩
  · rintro ⟨es, s', he⟩
    rw [← List.append_nil inputs] at he
    obtain ⟨_, pc', stack', _, h2⟩ := C99_runs w nodes ranges start ha hl es s s' d d' mem mem' inputs [] pc stack he hpl
    exact ⟨pc', stack', h2⟩
  · rintro tables hc ⟨pc', stack', he⟩
    obtain ⟨es, s', _, h2, _⟩ := interpreted_execution (rest := []) ha ho hc hl he s hpl
    rw [List.append_nil] at h2
    exact ⟨es, s', h2⟩

/-! ### Examples -/

namespace Chip8Example

open FlowExample RunningExample

/-- A screen that is not looked at. -/
def world : World Unit := ⟨(), fun _ _ _ _ => ((), false), fun _ => 0, fun _ i => i⟩

/-- The registers, all 0 but `V0`. -/
def regs (b : U8) : Chip8 Unit := ⟨fun k => if k = 0 then b else 0, 0, 0, 0, fun _ => false, ()⟩

theorem regs_add : (regs 0).set 0 ((regs 0).v 0 + 1) = regs 1 := by
  simp only [regs, Chip8.set]
  congr 1
  funext k
  by_cases hk : k = 0 <;> simp [hk]

/-- The interpreter calls `sub`, adds 1 to `V0`, returns, skips the jump because `V0` is 1 now, and is at the trap. -/
theorem run : Interpreted world (Indexed program (fun _ => True)) [0, 0, 0, 0] ⟨0, [], regs 0, start⟩ ⟨6, [], regs 1, start⟩ := by
  have h1 : interpret world 0 ⟨0, [], regs 0, start⟩ = some ⟨8, [2], regs 0, start⟩ := rfl
  have h2 : interpret world 0 ⟨8, [2], regs 0, start⟩ = some ⟨10, [2], (regs 0).set 0 ((regs 0).v 0 + 1), start⟩ := rfl
  have h3 : interpret world 0 ⟨10, [2], regs 1, start⟩ = some ⟨2, [], regs 1, start⟩ := rfl
  have h4 : interpret world 0 ⟨2, [], regs 1, start⟩ = some ⟨6, [], regs 1, start⟩ := rfl
  rw [regs_add] at h2
  have ok : ∀ m : Machine Unit, Indexed program (fun _ => True) m := fun _ _ _ _ _ _ _ => trivial
  exact .cons (ok _) h1 (.cons (ok _) h2 (.cons (ok _) h3 (.cons (ok _) h4 .nil)))

/-- All hypotheses are met together: by reading the text from statement 1 on, the same is done. -/
example : ∃ es s', Execution (chip8 world) (byReader program) (fun _ => True) es ((1, []), (regs 0, [0, 0, 0, 0]), start)
    (s', (regs 1, []), start) :=
  ((C99_store_free world program ranges start assembled storeFree loaded (1, []) 0 [] placed _ _ _ _).2 _ closed noOverlap
    ⟨_, _, run⟩).2

/-- At the trap the interpreter stops. -/
example : interpret world 0 ⟨6, [], regs 1, start⟩ = none := rfl

end Chip8Example

end C8S
