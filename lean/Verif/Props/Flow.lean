import Verif.Proofs.Flow

/-
The machine executes the program as it is written.

C96: The order of execution in memory is that of the source text.
-/

namespace C8S

open Spec

/-- C96: at the address of an instruction the machine finds that instruction, the labels standing for their values, and no
other. -/
theorem C96_fetches (nodes : List Node) (ranges : List DataRange) (h : assemble nodes = .ret (.ok ranges))
    (ho : findOverlappingRanges ranges = []) (i a : Nat) (hi : InstructionAt nodes i a) (op : Operation) :
    Fetches (image ranges) a op ↔ Spells nodes i op :=
  ⟨fetches_spells h ho hi, fun hs => spells_fetches h hs hi.2⟩

/-- C96: what can be followed in the source text can be executed by the machine, at the addresses of the instructions. -/
theorem C96_executes (nodes : List Node) (ranges : List DataRange) (h : assemble nodes = .ret (.ok ranges))
    (es : List Executed) (s s' t : Nat × List Nat) (hs : Trace (SourceStep nodes) es s s') (hp : Placed nodes s t) :
    ∃ t', Trace (MachineStep (image ranges)) es t t' ∧ Placed nodes s' t' := by
  induction hs generalizing t with
  | nil => exact ⟨t, .nil, hp⟩
  | cons hstep _ ih =>
    obtain ⟨t1, h1, hp1⟩ := step_forward h hstep hp
    obtain ⟨t', h2, hp2⟩ := ih t1 hp1
    exact ⟨t', .cons h1 h2, hp2⟩

/-- C96: if execution does not leave the instructions of the text, everything the machine can execute can be followed in the
source text. -/
theorem C96_follows (nodes : List Node) (ranges : List DataRange) (h : assemble nodes = .ret (.ok ranges))
    (ho : findOverlappingRanges ranges = []) (tables : Nat → Prop) (hc : ClosedFlow nodes tables) (es : List Executed)
    (hv : Jumping tables es) (s t t' : Nat × List Nat) (ht : Trace (MachineStep (image ranges)) es t t')
    (hp : Placed nodes s t) :
    ∃ s', Trace (SourceStep nodes) es s s' ∧ Placed nodes s' t' := by
  induction ht generalizing s with
  | nil => exact ⟨s, .nil, hp⟩
  | cons hstep _ ih =>
    obtain ⟨s1, h1, hp1⟩ := step_backward h ho hc hstep hp (jumping_head hv)
    obtain ⟨s', h2, hp2⟩ := ih (jumping_tail hv) s1 hp1
    exact ⟨s', .cons h1 h2, hp2⟩

/-- C96: then the machine is always at the address of an instruction of the text: it never executes data, nor the second
half of an instruction, nor memory the program does not fill. -/
theorem C96_stays (nodes : List Node) (ranges : List DataRange) (h : assemble nodes = .ret (.ok ranges))
    (ho : findOverlappingRanges ranges = []) (tables : Nat → Prop) (hc : ClosedFlow nodes tables) (es : List Executed)
    (hv : Jumping tables es) (i a : Nat) (hi : InstructionAt nodes i a) (t' : Nat × List Nat)
    (ht : Trace (MachineStep (image ranges)) es (a, []) t') :
    ∃ j, InstructionAt nodes j t'.1 := by
  obtain ⟨s', _, hp⟩ := C96_follows nodes ranges h ho tables hc es hv (i, []) (a, []) t' ht ⟨hi, .nil⟩
  exact ⟨s'.1, hp.1⟩

/-- C96: and at an instruction of the text the machine never has to stop for lack of one: it can go on, or is at a trap, or at
a `ret` without a call. -/
theorem C96_goes_on (nodes : List Node) (ranges : List DataRange) (h : assemble nodes = .ret (.ok ranges)) (i a : Nat)
    (hi : InstructionAt nodes i a) (st : List Nat) :
    (∃ e t', MachineStep (image ranges) e (a, st) t') ∨
      ∃ op, Spells nodes i op ∧ (op.1 = "trap".toList ∨ op.1 = "trapret".toList ∨ op.1 = "ret".toList ∧ st = []) := by
  obtain ⟨op, hs⟩ : ∃ op, Spells nodes i op := instruction_spells h hi
  have hf := spells_fetches h hs hi.2
  by_cases hl : op.1 ∈ leaving
  · have : op.1 = "jp".toList ∨ op.1 = "call".toList ∨ op.1 = "ret".toList ∨ op.1 = "trap".toList ∨ op.1 = "trapret".toList := by
      simpa only [leaving, List.mem_cons, List.not_mem_nil, or_false] using hl
    obtain ⟨m, fs⟩ := op
    rcases this with e | e | e | e | e
    · obtain rfl : m = _ := e
      rcases fetches_jp hf with ⟨v, rfl⟩ | ⟨v, rfl⟩
      · exact .inl ⟨_, _, .jump hf⟩
      · exact .inl ⟨_, _, .jumpV0 hf (Nat.zero_le _)⟩
    · obtain rfl : m = _ := e
      obtain ⟨v, rfl⟩ := fetches_call hf
      exact .inl ⟨_, _, .call hf⟩
    · cases st with
      | nil => exact .inr ⟨_, hs, .inr (.inr ⟨e, rfl⟩)⟩
      | cons r st =>
        obtain rfl : m = _ := e
        obtain rfl : fs = [] := fetches_ret hf
        exact .inl ⟨_, _, .ret hf⟩
    · exact .inr ⟨_, hs, .inl e⟩
    · exact .inr ⟨_, hs, .inr (.inl e)⟩
  · exact .inl ⟨_, _, .next hf hl⟩

/-! ### Examples -/

namespace FlowExample

def loc : Loc := ⟨"a".toList, 1, 0, 1⟩
def one : U12 := 1

/-- `start: call sub` / `se v0, 1` / `jp start` / `trap` / `sub: add v0, 1` / `ret` / `.db 7` -/
def program : List Node := [
  .label loc "start".toList,
  .instruction loc "CALL".toList [.identifier "sub".toList],
  .instruction loc "se".toList [.generalPurposeRegister 0, .numericLiteral one],
  .instruction loc "jp".toList [.identifier "start".toList],
  .instruction loc "trap".toList [],
  .label loc "sub".toList,
  .instruction loc "add".toList [.generalPurposeRegister 0, .numericLiteral one],
  .instruction loc "ret".toList [],
  .directive loc "db".toList [.numeric 7]]

def ranges : List DataRange := [⟨0, [0x20, 0x08, 0x30, 0x01, 0x10, 0x00, 0x00, 0xFA, 0x70, 0x01, 0x00, 0xEE, 0x07]⟩]

theorem assembled : assemble program = .ret (.ok ranges) := by rfl

theorem noOverlap : findOverlappingRanges ranges = [] := by decide +kernel

/-- The instructions of the program. -/
theorem spelled {i : Nat} {op : Operation} (h : Spells program i op) :
    (i = 1 ∧ SameWord "CALL".toList op.1) ∨ (i = 2 ∧ SameWord "se".toList op.1) ∨ (i = 3 ∧ SameWord "jp".toList op.1) ∨
      (i = 4 ∧ SameWord "trap".toList op.1) ∨ (i = 6 ∧ SameWord "add".toList op.1) ∨ (i = 7 ∧ SameWord "ret".toList op.1) := by
  obtain ⟨_, _, m, fs, _, hi, _, hw, _⟩ := h
  match i, hi with
  | 0, hi => cases hi
  | 1, hi => cases hi; exact .inl ⟨rfl, hw⟩
  | 2, hi => cases hi; exact .inr (.inl ⟨rfl, hw⟩)
  | 3, hi => cases hi; exact .inr (.inr (.inl ⟨rfl, hw⟩))
  | 4, hi => cases hi; exact .inr (.inr (.inr (.inl ⟨rfl, hw⟩)))
  | 5, hi => cases hi
  | 6, hi => cases hi; exact .inr (.inr (.inr (.inr (.inl ⟨rfl, hw⟩))))
  | 7, hi => cases hi; exact .inr (.inr (.inr (.inr (.inr ⟨rfl, hw⟩))))
  | 8, hi => cases hi
  | n + 9, hi => cases hi

theorem mnemonic_of {i : Nat} {op : Operation} (h : Spells program i op) {m : Str}
    (hw : SameWord m op.1) : ∀ m' : Str, m' ∈ table.map Row.mnemonic → SameWord m m' → op.1 = m' := by
  intro m' hm' hw'
  obtain ⟨_, _, _, _, _, _, ⟨row, hr, e⟩, _⟩ := h
  obtain ⟨row', hr', rfl⟩ := List.mem_map.1 hm'
  have h1 : toLowercase op.1 = toLowercase row'.mnemonic := (toLowercase_eq_iff _ _).2 (hw.symm.trans hw')
  rw [e, row_lower row hr, row_lower row' hr'] at h1
  rw [e, h1]

theorem noConstant (d : Nat) : ∀ c, ¬ ConstantNext (program.drop d) c := by
  intro c hc
  generalize hl : program.drop d = l at hc
  cases hc with
  | @intro l n a v rest hm =>
    have hmem : Node.directive l n a ∈ program := List.mem_of_mem_drop (by rw [hl]; exact List.mem_cons_self ..)
    simp only [program, List.mem_cons, List.not_mem_nil, or_false, reduceCtorEq, false_or] at hmem
    cases hmem
    generalize hx : [Literal.numeric 7] = args at hm
    cases hm with
    | equ v h => exact absurd h (by decide +kernel)

/-- Nothing in the program leads out of its instructions, although it ends with data. -/
theorem closed : ClosedFlow program (fun _ => True) where
  next i op h hl := by
    rcases spelled h with ⟨rfl, hw⟩ | ⟨rfl, hw⟩ | ⟨rfl, hw⟩ | ⟨rfl, hw⟩ | ⟨rfl, hw⟩ | ⟨rfl, hw⟩
    · exact ⟨2, .here rfl⟩
    · exact ⟨3, .here rfl⟩
    · exact ⟨4, .here rfl⟩
    · have := mnemonic_of h hw "trap".toList (by decide +kernel) (by decide +kernel)
      rw [this] at hl
      exact (hl (by decide +kernel)).elim
    · exact ⟨7, .here rfl⟩
    · have := mnemonic_of h hw "ret".toList (by decide +kernel) (by decide +kernel)
      rw [this] at hl
      exact (hl (by decide +kernel)).elim
  skip i op j h hs hj := by
    rcases spelled h with ⟨rfl, hw⟩ | ⟨rfl, hw⟩ | ⟨rfl, hw⟩ | ⟨rfl, hw⟩ | ⟨rfl, hw⟩ | ⟨rfl, hw⟩
    · rw [mnemonic_of h hw "call".toList (by decide +kernel) (by decide +kernel)] at hs
      exact absurd hs (by decide +kernel)
    · cases hj with
      | here _ => exact ⟨4, .here rfl⟩
      | label h _ => cases h
      | constant h _ _ => cases h
    · rw [mnemonic_of h hw "jp".toList (by decide +kernel) (by decide +kernel)] at hs
      exact absurd hs (by decide +kernel)
    · rw [mnemonic_of h hw "trap".toList (by decide +kernel) (by decide +kernel)] at hs
      exact absurd hs (by decide +kernel)
    · rw [mnemonic_of h hw "add".toList (by decide +kernel) (by decide +kernel)] at hs
      exact absurd hs (by decide +kernel)
    · rw [mnemonic_of h hw "ret".toList (by decide +kernel) (by decide +kernel)] at hs
      exact absurd hs (by decide +kernel)
  jump i op h hj _ := by
    rcases spelled h with ⟨rfl, hw⟩ | ⟨rfl, hw⟩ | ⟨rfl, hw⟩ | ⟨rfl, hw⟩ | ⟨rfl, hw⟩ | ⟨rfl, hw⟩
    · rw [hj] at hw; exact absurd hw (by decide +kernel)
    · rw [hj] at hw; exact absurd hw (by decide +kernel)
    · exact ⟨1, .inl ⟨loc, _, "start".toList, 0, rfl, ⟨⟨loc, rfl⟩, noConstant 1⟩, .label rfl (.here rfl)⟩⟩
    · rw [hj] at hw; exact absurd hw (by decide +kernel)
    · rw [hj] at hw; exact absurd hw (by decide +kernel)
    · rw [hj] at hw; exact absurd hw (by decide +kernel)
  jumpV0 i op x h hj hn _ _ := by
    rcases spelled h with ⟨rfl, hw⟩ | ⟨rfl, hw⟩ | ⟨rfl, hw⟩ | ⟨rfl, hw⟩ | ⟨rfl, hw⟩ | ⟨rfl, hw⟩
    · rw [hj] at hw; exact absurd hw (by decide +kernel)
    · rw [hj] at hw; exact absurd hw (by decide +kernel)
    · obtain ⟨_, _, _, _, _, hi, _, _, ho⟩ := h
      cases hi
      rw [ho] at hn
      cases hn
    · rw [hj] at hw; exact absurd hw (by decide +kernel)
    · rw [hj] at hw; exact absurd hw (by decide +kernel)
    · rw [hj] at hw; exact absurd hw (by decide +kernel)
  call i op h hj := by
    rcases spelled h with ⟨rfl, hw⟩ | ⟨rfl, hw⟩ | ⟨rfl, hw⟩ | ⟨rfl, hw⟩ | ⟨rfl, hw⟩ | ⟨rfl, hw⟩
    · exact ⟨6, 2, .inl ⟨loc, _, "sub".toList, 5, rfl, ⟨⟨loc, rfl⟩, noConstant 6⟩, .label rfl (.here rfl)⟩, .here rfl⟩
    · rw [hj] at hw; exact absurd hw (by decide +kernel)
    · rw [hj] at hw; exact absurd hw (by decide +kernel)
    · rw [hj] at hw; exact absurd hw (by decide +kernel)
    · rw [hj] at hw; exact absurd hw (by decide +kernel)
    · rw [hj] at hw; exact absurd hw (by decide +kernel)

/-- The machine starts at the first instruction. -/
theorem placed : Placed program (1, []) (0, []) := ⟨⟨⟨_, _, _, rfl⟩, .cons .label .nil⟩, .nil⟩

/-- All hypotheses are met together. -/
example (es : List Executed) (t' : Nat × List Nat) (ht : Trace (MachineStep (image ranges)) es (0, []) t') :
    ∃ j, InstructionAt program j t'.1 := C96_stays program ranges assembled noOverlap _ closed es (fun _ _ _ => trivial) 1 0 placed.1 t' ht

/-- The first step: `CALL sub` is executed as `call 8`, to return to 2. -/
example : MachineStep (image ranges) (("call".toList, [.numericLiteral 8]), .call) (0, []) (8, [2]) :=
  .call ⟨0x20, 0x08, by decide +kernel, by decide +kernel, ⟨⟨"2nnn".toList, "call".toList, [.addr]⟩, by decide +kernel, rfl⟩,
    ⟨"2nnn".toList, "call".toList, [.addr]⟩, by decide +kernel, { nnn := 8 }, by decide +kernel,
    .cons (.addr (.literal 8)) .nil, by simp, by decide +kernel⟩

/-- `start: jp v0, table` / `table: jp start` / `jp 0` -/
def tabled : List Node := [
  .label loc "start".toList,
  .instruction loc "jp".toList [.generalPurposeRegister 0, .identifier "table".toList],
  .label loc "table".toList,
  .instruction loc "jp".toList [.identifier "start".toList],
  .instruction loc "jp".toList [.numericLiteral 0]]

def tabledRanges : List DataRange := [⟨0, [0xB0, 0x02, 0x10, 0x00, 0x10, 0x00]⟩]

theorem tabled_assembled : assemble tabled = .ret (.ok tabledRanges) := by rfl

/-- The instructions of this program are all jumps. -/
theorem tabled_spelled {i : Nat} {op : Operation} (h : Spells tabled i op) :
    op.1 = "jp".toList ∧ ((i = 1 ∧ op.2.length = 2) ∨ (i = 3 ∧ op.2.length = 1) ∨ (i = 4 ∧ op.2 = [.numericLiteral 0])) := by
  obtain ⟨_, _, m, fs, _, hi, ⟨row, hr, e⟩, hw, ho⟩ := h
  have hjp : ∀ m' : Str, m' = "jp".toList → SameWord m' op.1 → op.1 = "jp".toList := by
    rintro _ rfl hw
    have h1 : toLowercase op.1 = toLowercase "jp".toList := (toLowercase_eq_iff _ _).2 hw.symm
    rw [e, row_lower row hr] at h1
    rw [e, h1]
    decide +kernel
  match i, hi with
  | 0, hi => cases hi
  | 1, hi => cases hi; exact ⟨hjp _ rfl hw, .inl ⟨rfl, by rw [ho]; rfl⟩⟩
  | 2, hi => cases hi
  | 3, hi => cases hi; exact ⟨hjp _ rfl hw, .inr (.inl ⟨rfl, by rw [ho]; rfl⟩)⟩
  | 4, hi => cases hi; exact ⟨hjp _ rfl hw, .inr (.inr ⟨rfl, by rw [ho]; rfl⟩)⟩
  | n + 5, hi => cases hi

theorem tabled_noConstant (d : Nat) : ∀ c, ¬ ConstantNext (tabled.drop d) c := by
  intro c hc
  generalize hl : tabled.drop d = l at hc
  cases hc with
  | @intro l n a v rest hm =>
    have hmem : Node.directive l n a ∈ tabled := List.mem_of_mem_drop (by rw [hl]; exact List.mem_cons_self ..)
    simp only [tabled, List.mem_cons, List.not_mem_nil, or_false, reduceCtorEq] at hmem

/-- Nothing in this program leads out of its instructions, if `V0` is 0 or 2 at the jump by `V0`. -/
theorem tabled_closed : ClosedFlow tabled (fun x => x = 0 ∨ x = 2) where
  next i op h hl := by
    rw [(tabled_spelled h).1] at hl
    exact (hl (by decide +kernel)).elim
  skip i op j h hs _ := by
    rw [(tabled_spelled h).1] at hs
    exact absurd hs (by decide +kernel)
  jump i op h _ hn := by
    rcases (tabled_spelled h).2 with ⟨rfl, e⟩ | ⟨rfl, _⟩ | ⟨rfl, e⟩
    · omega
    · exact ⟨1, .inl ⟨loc, _, "start".toList, 0, rfl, ⟨⟨loc, rfl⟩, tabled_noConstant 1⟩, .label rfl (.here rfl)⟩⟩
    · exact ⟨1, .inr ⟨op, 0, h, e, ⟨⟨_, _, _, rfl⟩, .cons .label .nil⟩⟩⟩
  jumpV0 i op x h _ hn _ hx := by
    rcases (tabled_spelled h).2 with ⟨rfl, _⟩ | ⟨rfl, e⟩ | ⟨rfl, e⟩
    · rcases hx with rfl | rfl
      · exact ⟨3, .inl ⟨loc, _, _, "table".toList, 2, 0, 3, rfl, ⟨⟨loc, rfl⟩, tabled_noConstant 3⟩, .label rfl (.here rfl),
          rfl, .here⟩⟩
      · exact ⟨4, .inl ⟨loc, _, _, "table".toList, 2, 1, 3, rfl, ⟨⟨loc, rfl⟩, tabled_noConstant 3⟩, .label rfl (.here rfl),
          rfl, .next (.here rfl) .here⟩⟩
    · omega
    · rw [e] at hn; cases hn
  call i op h hj := by
    rw [(tabled_spelled h).1] at hj
    exact absurd hj (by decide +kernel)

/-- All hypotheses are met together, for executions that jump by the table. -/
example (es : List Executed) (hv : Jumping (fun x => x = 0 ∨ x = 2) es) (t' : Nat × List Nat)
    (ht : Trace (MachineStep (image tabledRanges)) es (0, []) t') : ∃ j, InstructionAt tabled j t'.1 :=
  C96_stays tabled tabledRanges tabled_assembled (by decide +kernel) _ tabled_closed es hv 1 0
    ⟨⟨_, _, _, rfl⟩, .cons .label .nil⟩ t' ht

/-- Without a jump before them, data are executed: here the two bytes of `.db` are `cls`. -/
example : ∃ ranges, assemble [.instruction loc "nop".toList [], .directive loc "db".toList [.numeric 0, .numeric 0xE0]]
    = .ret (.ok ranges) ∧
    Trace (MachineStep (image ranges)) [(("nop".toList, []), .next), (("cls".toList, []), .next)] (0, []) (4, []) := by
  refine ⟨[⟨0, [0, 0, 0, 0xE0]⟩], by rfl, .cons (.next ?_ (by decide +kernel)) (.cons (.next ?_ (by decide +kernel)) .nil)⟩
  · exact ⟨0, 0, by decide +kernel, by decide +kernel, ⟨⟨"0000".toList, "nop".toList, []⟩, by decide +kernel, rfl⟩,
      ⟨"0000".toList, "nop".toList, []⟩, by decide +kernel, {}, by decide +kernel, .nil, by simp, by decide +kernel⟩
  · exact ⟨0, 0xE0, by decide +kernel, by decide +kernel, ⟨⟨"00E0".toList, "cls".toList, []⟩, by decide +kernel, rfl⟩,
      ⟨"00E0".toList, "cls".toList, []⟩, by decide +kernel, {}, by decide +kernel, .nil, by simp, by decide +kernel⟩

end FlowExample

end C8S
