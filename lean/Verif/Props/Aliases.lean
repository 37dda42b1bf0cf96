import Verif.Proofs.Aliases
import Verif.Props.Layout
import Verif.Props.Combine

/- Properties C93 (no two instructions have the same word) and C94 (labels with the name of a register). -/

namespace C8S

open Spec LayoutExample

/-- C93: two instructions with the same word, each with its own labels, have the same mnemonic up to case and the same
operands: the same registers, and the same numbers, however they are written. -/
theorem C93_one_meaning (labels labels' : LabelMap) (m m' : Str) (fs fs' : List Field) (w : U16)
    (h : Encodes labels m fs w.toNat) (h' : Encodes labels' m' fs' w.toNat) :
    SameWord m m' ∧ SameOperands labels labels' fs fs' := encodes_same h h'

example : ∃ w : U16, Encodes [("x".toList, 5)] "LD".toList [.generalPurposeRegister 1, .identifier "x".toList] w.toNat ∧
    Encodes [] "ld".toList [.generalPurposeRegister 1, .numericLiteral 5] w.toNat :=
  ⟨0x6105, encodes_iff.1 ⟨.LD_IMMEDIATE 1 5, rfl, rfl⟩, encodes_iff.1 ⟨.LD_IMMEDIATE 1 5, rfl, rfl⟩⟩

/-- C93: conversely such instructions have the same word, or both have none. -/
theorem C93_same_word (labels labels' : LabelMap) (m m' : Str) (fs fs' : List Field) (hm : SameWord m m')
    (hs : SameOperands labels labels' fs fs') (w : Nat) (h : Encodes labels m fs w) : Encodes labels' m' fs' w :=
  encodes_transfer h hm hs

example : SameWord "LD".toList "ld".toList ∧ SameOperands [("x".toList, 5)] [] [.generalPurposeRegister 1, .identifier "x".toList]
    [.generalPurposeRegister 1, .numericLiteral 5] :=
  ⟨by decide, .cons (.register (by simp) (by simp)) (.cons (.value (.label rfl) (.literal 5)) .nil)⟩

/-- C93: two programs of labels, constants and instructions have the same output exactly if they have the same
instructions in the same order, so nothing but names, letter case and notation is lost by assembling. -/
theorem C93_programs (ns ms : List Node) (labels labels' : LabelMap) (r r' : List DataRange) (hn : CodeOnly ns)
    (hm : CodeOnly ms) (hl : LabelsOf ns labels) (hl' : LabelsOf ms labels') (h : assemble ns = .ret (.ok r))
    (h' : assemble ms = .ret (.ok r')) :
    image r = image r' ↔ SameCode labels labels' (instructionsOf ns) (instructionsOf ms) := by
  obtain ⟨bs, e, hb⟩ := writes_code ((C33_image ns labels r h hl _).2 rfl) hn
  obtain ⟨bs', e', hb'⟩ := writes_code ((C33_image ms labels' r' h' hl' _).2 rfl) hm
  constructor
  · intro hi
    rw [e, e'] at hi
    rw [← placeAt_inj hi] at hb'
    exact codeBytes_same hb hb'
  · intro hs
    rw [e, e', codeBytes_unique (codeBytes_transfer hb hs) hb']

/-- The hypotheses are met by a program with a label and one with a number. -/
example : CodeOnly [here, .instruction loc "jp".toList [.identifier "here".toList]] ∧
    CodeOnly [.instruction loc "JP".toList [.numericLiteral 0]] ∧
    assemble [here, .instruction loc "jp".toList [.identifier "here".toList]] = .ret (.ok [⟨0, [0x10, 0]⟩]) ∧
    assemble [.instruction loc "JP".toList [.numericLiteral 0]] = .ret (.ok [⟨0, [0x10, 0]⟩]) :=
  ⟨by intro l n a h; simp [here] at h, by intro l n a h; simp at h, rfl, rfl⟩

/-- C94: no instruction of a source text refers to a label with the name of a register. -/
theorem C94_not_referred [Target] (file text : Str) (tokens : List Token) (ns : List Node) (hs : scan file text = .ret tokens)
    (hp : parse tokens = .ret (.ok ns)) (l : Loc) (m : Str) (fs : List Field) (h : .instruction l m fs ∈ ns) (name : Str)
    (hn : .identifier name ∈ fs) (f : Field) : ¬ RegisterNamed name f := by
  have hf := C13_formed file text tokens ns hs hp _ h
  exact (hf.2 _ hn).2 f

example : scan [] "dt: ld v0, dt".toList = .ret [.identifier "dt".toList ⟨[], 1, 1, 2⟩, .labelMarker ⟨[], 1, 3, 1⟩,
      .identifier "ld".toList ⟨[], 1, 5, 2⟩, .identifier "v0".toList ⟨[], 1, 8, 2⟩, .comma ⟨[], 1, 10, 1⟩,
      .identifier "dt".toList ⟨[], 1, 12, 2⟩] ∧
    parse [.identifier "dt".toList ⟨[], 1, 1, 2⟩, .labelMarker ⟨[], 1, 3, 1⟩,
      .identifier "ld".toList ⟨[], 1, 5, 2⟩, .identifier "v0".toList ⟨[], 1, 8, 2⟩, .comma ⟨[], 1, 10, 1⟩,
      .identifier "dt".toList ⟨[], 1, 12, 2⟩] = .ret (.ok [.label ⟨[], 1, 1, 2⟩ "dt".toList,
        .instruction ⟨[], 1, 5, 2⟩ "ld".toList [.generalPurposeRegister 0, .delayTimer]]) :=
  ⟨by decide +kernel, rfl⟩

/-- C94: so such a label can be taken out of a program without changing the output, and an output appears only if it
can. -/
theorem C94_label [Target] (file text : Str) (tokens : List Token) (A B : List Node) (l : Loc) (name : Str) (f : Field)
    (hs : scan file text = .ret tokens) (hp : parse tokens = .ret (.ok (A ++ .label l name :: B)))
    (hr : RegisterNamed name f) (hB : ∀ c, ¬ ConstantNext B c) (ranges : List DataRange) :
    assemble (A ++ .label l name :: B) = .ret (.ok ranges) ↔
      name ∉ labelNames (A ++ B) ∧ assemble (A ++ B) = .ret (.ok ranges) := by
  refine C60_unused A B l name hB ?_ ranges
  intro l' m fs hm hx
  refine C94_not_referred file text tokens _ hs hp l' m fs ?_ name hx f hr
  rcases List.mem_append.1 hm with h | h
  · exact List.mem_append_left _ h
  · exact List.mem_append_right _ (List.mem_cons_of_mem _ h)

example : assemble [.label loc "dt".toList, .instruction loc "ld".toList [.generalPurposeRegister 0, .delayTimer]] =
      .ret (.ok [⟨0, [0xF0, 0x07]⟩]) ∧
    assemble [.instruction loc "ld".toList [.generalPurposeRegister 0, .delayTimer]] = .ret (.ok [⟨0, [0xF0, 0x07]⟩]) ∧
    RegisterNamed "dt".toList .delayTimer := ⟨rfl, rfl, .special (by decide)⟩

/-- C94: and so can the definition of such a constant. -/
theorem C94_constant [Target] (file text : Str) (tokens : List Token) (A B : List Node) (l l' : Loc) (name en : Str)
    (args : List Literal) (v : U12) (f : Field) (hs : scan file text = .ret tokens)
    (hp : parse tokens = .ret (.ok (A ++ .label l name :: .directive l' en args :: B)))
    (hm : DirectiveMeans en args (.equ v)) (hr : RegisterNamed name f)
    (hplace : ¬ (EndsWithLabel A ∧ ∃ c, ConstantNext B c)) (ranges : List DataRange) :
    assemble (A ++ .label l name :: .directive l' en args :: B) = .ret (.ok ranges) ↔
      name ∉ labelNames (A ++ B) ∧ assemble (A ++ B) = .ret (.ok ranges) := by
  refine C60_constant A B l l' name en args v hm hplace ?_ ranges
  intro l' m fs hm hx
  refine C94_not_referred file text tokens _ hs hp l' m fs ?_ name hx f hr
  rcases List.mem_append.1 hm with h | h
  · exact List.mem_append_left _ h
  · exact List.mem_append_right _ (List.mem_cons_of_mem _ (List.mem_cons_of_mem _ h))

/-- A constant `k`, which is not what the operand `k` stands for. -/
example : assemble [.label loc "k".toList, equ5, .instruction loc "ld".toList [.generalPurposeRegister 0, .keypadRegister]] =
      .ret (.ok [⟨0, [0xF0, 0x0A]⟩]) ∧
    assemble [.instruction loc "ld".toList [.generalPurposeRegister 0, .keypadRegister]] = .ret (.ok [⟨0, [0xF0, 0x0A]⟩]) ∧
    RegisterNamed "k".toList .keypadRegister := ⟨rfl, rfl, .special (by decide)⟩

end C8S
