import Verif.Proofs.Running
import Verif.Props.Flow
import Verif.Props.Tool

/-
What the program computes.

C97: The machine computes, from the object file, what the source text says, whatever the instructions do.
-/

namespace C8S

open Spec

/-- C97: what is executed by reading the source text is executed by the machine, with the same effects, as long as no
instruction is overwritten. -/
theorem C97_executes {D : Type} (sem : Semantics D) (nodes : List Node) (ranges : List DataRange) (start : Memory)
    (h : assemble nodes = .ret (.ok ranges)) (hl : Loaded (image ranges) start) (es : List Executed)
    (s s' t : Nat × List Nat) (d d' : D) (mem mem' : Memory)
    (hx : Execution sem (byReader nodes) (Intact nodes start) es (s, d, mem) (s', d', mem')) (hp : Placed nodes s t) :
    ∃ t', Execution sem byMachine (Intact nodes start) es (t, d, mem) (t', d', mem') ∧ Placed nodes s' t' :=
  run_forward h hl hx t hp

/-- C97: and if execution does not leave the instructions of the text, what is executed by the machine is executed by
reading the source text, with the same effects, as long as no instruction is overwritten. -/
theorem C97_follows {D : Type} (sem : Semantics D) (nodes : List Node) (ranges : List DataRange) (start : Memory)
    (h : assemble nodes = .ret (.ok ranges)) (ho : findOverlappingRanges ranges = []) (tables : Nat → Prop)
    (hc : ClosedFlow nodes tables) (hl : Loaded (image ranges) start) (es : List Executed) (hv : Jumping tables es)
    (s t t' : Nat × List Nat) (d d' : D) (mem mem' : Memory)
    (hx : Execution sem byMachine (Intact nodes start) es (t, d, mem) (t', d', mem')) (hp : Placed nodes s t) :
    ∃ s', Execution sem (byReader nodes) (Intact nodes start) es (s, d, mem) (s', d', mem') ∧ Placed nodes s' t' :=
  run_backward h ho hc hl hv hx s hp

/-- C97: a program that does not store into memory overwrites no instruction, nor anything else, so that the machine and the
reader execute the same, with the same effects. -/
theorem C97_store_free {D : Type} (sem : Semantics D) (hr : sem.Regular) (nodes : List Node) (ranges : List DataRange)
    (start : Memory) (h : assemble nodes = .ret (.ok ranges)) (ho : findOverlappingRanges ranges = []) (tables : Nat → Prop)
    (hc : ClosedFlow nodes tables) (hn : StoreFree nodes) (hl : Loaded (image ranges) start) (es : List Executed)
    (hv : Jumping tables es) (s t : Nat × List Nat) (d d' : D)
    (mem' : Memory) (hp : Placed nodes s t) :
    ((∃ t', Execution sem byMachine (fun _ => True) es (t, d, start) (t', d', mem')) ↔
      ∃ s', Execution sem (byReader nodes) (fun _ => True) es (s, d, start) (s', d', mem')) ∧
    ((∃ t', Execution sem byMachine (fun _ => True) es (t, d, start) (t', d', mem')) → mem' = start) := by
  refine ⟨⟨?_, ?_⟩, ?_⟩
  · rintro ⟨t', hx⟩
    obtain ⟨h1, _⟩ := machine_keeps h ho hc hn hr hl hv hx s hp rfl
    obtain ⟨s', h2, _⟩ := run_backward h ho hc hl hv h1 s hp
    exact ⟨s', execution_weaken h2⟩
  · rintro ⟨s', hx⟩
    obtain ⟨h1, _⟩ := reader_keeps hn hr hx rfl
    obtain ⟨t', h2, _⟩ := run_forward h hl h1 t hp
    exact ⟨t', execution_weaken h2⟩
  · rintro ⟨t', hx⟩
    exact (machine_keeps h ho hc hn hr hl hv hx s hp rfl).2

/-- C97: from source file to execution. If the tool exits with status 0, the output is an object file; in a machine into
which it is loaded, with whatever else there is in memory, the instructions of the source text are executed with the same
effects as by reading the text. -/
theorem C97_file [Target] (env : Env) (program input output : Str) (h : (assembleFile env program input output).exit = .code 0) :
    ∃ text tokens nodes bytes hex, env.readInput input = .ok text ∧ Lex wordBinary input [] text tokens ∧
      Program tokens nodes ∧ bytesTo (destination output) (assembleFile env program input output).events = utf8 hex ∧
      HexOf hex bytes ∧
      ∀ {D : Type} (sem : Semantics D) (start : Memory), Loaded bytes start →
        ∀ (es : List Executed) (s t : Nat × List Nat) (d d' : D) (mem mem' : Memory), Placed nodes s t →
          ((∃ s', Execution sem (byReader nodes) (Intact nodes start) es (s, d, mem) (s', d', mem')) →
            ∃ t', Execution sem byMachine (Intact nodes start) es (t, d, mem) (t', d', mem')) ∧
          (∀ tables, ClosedFlow nodes tables → Jumping tables es →
            (∃ t', Execution sem byMachine (Intact nodes start) es (t, d, mem) (t', d', mem')) →
            ∃ s', Execution sem (byReader nodes) (Intact nodes start) es (s, d, mem) (s', d', mem')) := by
  obtain ⟨text, bytes, hex, _, hr, hd, hn, hx, hb⟩ := C45_status env program input output h
  obtain ⟨tokens, nodes, ranges, hs, hp, ha, rfl⟩ := (describes_iff input text bytes).1 hd
  refine ⟨text, tokens, nodes, _, hex, hr, (scan_iff_lex _ _ _).1 hs, (parse_ok_iff _ _).1 hp, hb, hx, ?_⟩
  intro D sem start hl es s t d d' mem mem' hpl
  have ho : findOverlappingRanges ranges = [] := (C41_overlap _ _ ha).2 hn
  refine ⟨?_, ?_⟩
  · rintro ⟨s', he⟩
    obtain ⟨t', h', _⟩ := run_forward ha hl he t hpl
    exact ⟨t', h'⟩
  · rintro tables hc hv ⟨t', he⟩
    obtain ⟨s', h', _⟩ := run_backward ha ho hc hl hv he s hpl
    exact ⟨s', h'⟩

/-! ### Examples -/

namespace RunningExample

open FlowExample

/-- A machine of which only `V0` counts: `add` adds 1 to it, and a test is whether it is 1. -/
def sem : Semantics Nat where
  does op d mem d' mem' := (d' = if op.1 = "add".toList then d + 1 else d) ∧ mem' = mem
  test _ d := d = 1
  v0 d := d

theorem regular : sem.Regular := fun _ _ _ _ _ h _ => h.2

/-- The bytes of the program, and other memory full of ones. -/
def start : Memory := fun a => [0x20, 0x08, 0x30, 0x01, 0x10, 0x00, 0x00, 0xFA, 0x70, 0x01, 0x00, 0xEE, 0x07].getD a 0xFF

theorem loaded : Loaded (image ranges) start := by
  unfold Loaded
  decide +kernel

theorem storeFree : StoreFree program := by
  intro i op h hs
  rcases spelled h with ⟨rfl, hw⟩ | ⟨rfl, hw⟩ | ⟨rfl, hw⟩ | ⟨rfl, hw⟩ | ⟨rfl, hw⟩ | ⟨rfl, hw⟩ <;>
    (rw [hs.1] at hw; exact absurd hw (by decide +kernel))

/-- The words of the program in memory. -/
theorem fetched {a : Nat} {op : Operation} (row : Row) (v : Vars) (ha : a + 1 < 4096) (hr : row ∈ table)
    (hm : op.1 = row.mnemonic) (hw : SameWord op.1 row.mnemonic) (hf : FitsAll [] v row.slots op.2)
    (hy : .vy ∉ row.slots → v.y = 0)
    (he : (start a).toNat * 256 + (start (a + 1)).toNat = hexValue (fill v row.template)) :
    Fetches (contents start) a op :=
  ⟨start a, start (a + 1), mem_contents.2 ⟨by omega, rfl⟩, mem_contents.2 ⟨ha, rfl⟩, ⟨row, hr, hm⟩, row, hr, v, hw, hf, hy, he⟩

/-- The machine calls `sub`, adds 1 to `V0`, returns, skips the jump because `V0` is 1 now, and is at the trap. -/
theorem run : Execution sem byMachine (fun _ => True)
    [(("call".toList, [.numericLiteral 8]), .call),
      (("add".toList, [.generalPurposeRegister 0, .numericLiteral one]), .next), (("ret".toList, []), .ret),
      (("se".toList, [.generalPurposeRegister 0, .numericLiteral one]), .skip)]
    ((0, []), 0, start) ((6, []), 1, start) := by
  refine .cons trivial (MachineStep.call (fetched ⟨"2nnn".toList, "call".toList, [.addr]⟩ { nnn := 8 } (by decide)
    (by decide +kernel) rfl (by decide +kernel) (.cons (.addr (.literal 8)) .nil) (by simp) (by decide +kernel))) .call
    ⟨rfl, rfl⟩ ?_
  refine .cons trivial (MachineStep.next (fetched ⟨"7xkk".toList, "add".toList, [.vx, .nn]⟩ { kk := 1 } (by decide)
    (by decide +kernel) rfl (by decide +kernel) (.cons (.vx rfl (by decide)) (.cons (.nn (.literal one) (by decide)) .nil))
    (by simp) (by decide +kernel)) (by decide +kernel)) (.next fun h => absurd h (by decide +kernel)) ⟨rfl, rfl⟩ ?_
  refine .cons trivial (MachineStep.ret (fetched ⟨"00EE".toList, "ret".toList, []⟩ {} (by decide)
    (by decide +kernel) rfl (by decide +kernel) .nil (by simp) (by decide +kernel))) .ret ⟨rfl, rfl⟩ ?_
  exact .cons trivial (MachineStep.skip (fetched ⟨"3xkk".toList, "se".toList, [.vx, .nn]⟩ { kk := 1 } (by decide)
    (by decide +kernel) rfl (by decide +kernel) (.cons (.vx rfl (by decide)) (.cons (.nn (.literal one) (by decide)) .nil))
    (by simp) (by decide +kernel)) (by decide +kernel)) (.skip rfl) ⟨rfl, rfl⟩ .nil

/-- All hypotheses are met together: by reading the text from statement 1 on, the same is executed. -/
example : ∃ s', Execution sem (byReader program) (fun _ => True)
    [(("call".toList, [.numericLiteral 8]), .call),
      (("add".toList, [.generalPurposeRegister 0, .numericLiteral one]), .next), (("ret".toList, []), .ret),
      (("se".toList, [.generalPurposeRegister 0, .numericLiteral one]), .skip)]
    ((1, []), 0, start) (s', 1, start) :=
  ((C97_store_free sem regular program ranges start assembled noOverlap _ closed storeFree loaded _ (fun _ _ _ => trivial)
    (1, []) (0, []) 0 1 start placed).1).1 ⟨_, run⟩

/-- The text of the program is assembled. -/
example : (assembleFile (ToolExample.env ("start: CALL sub\nse v0, 1\njp start\ntrap\n" ++
    "sub: add v0, 1\nret\n.db 7\n").toList) "c8s".toList "a.s".toList "a.hex".toList).exit = .code 0 := by decide +kernel

/-- Where an instruction is overwritten, the machine executes something else than the text says. -/
example : ∃ mem : Memory, ¬ Intact program start mem ∧ MachineStep (contents mem) (("cls".toList, []), .next) (0, []) (2, []) := by
  refine ⟨fun a => if a = 1 then 0xE0 else 0, fun h => ?_, .next ?_ (by decide +kernel)⟩
  · have := (h 1 0 placed.1).1
    exact absurd this (by decide +kernel)
  · exact ⟨0, 0xE0, mem_contents.2 ⟨by decide, rfl⟩, mem_contents.2 ⟨by decide, rfl⟩,
      ⟨⟨"00E0".toList, "cls".toList, []⟩, by decide +kernel, rfl⟩, ⟨"00E0".toList, "cls".toList, []⟩, by decide +kernel, {},
      by decide +kernel, .nil, by simp, by decide +kernel⟩

end RunningExample

end C8S
