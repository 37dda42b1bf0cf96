import Verif.Proofs.Listing
import Verif.Props.Words

/- Property C92: a listing of opcodes, given back to the assembler. -/

namespace C8S

open Spec Opcode

/-- C92: the formatted text of an opcode is the number of blanks asked for and then the text of the opcode. -/
theorem C92_indented (op : Opcode) (n : Nat) :
    (op.toFormattedAssemblyString n).take n = List.replicate n ' ' ∧
    (op.toFormattedAssemblyString n).drop n = op.toAssemblyString ∧
    op.display = op.toAssemblyString := by
  have h : (List.replicate n ' ').length = n := List.length_replicate
  refine ⟨?_, ?_, rfl⟩
  · rw [toFormattedAssemblyString, List.take_append_of_le_length (by omega), List.take_of_length_le (by omega)]
  · rw [toFormattedAssemblyString, List.drop_append_of_le_length (by omega), List.drop_of_length_le (by omega)]
    rfl

example : (DRW 1 11 5).toFormattedAssemblyString 2 = "  drw v1, vb, $5".toList := by decide

/-- C92: a listing, however its lines are indented, assembles to the words of its opcodes exactly when each of them has its
immediate value with all its digits and is not a shift with a second register, and the memory suffices. -/
theorem C92_listing [Target] (file : Str) (lines : List (Nat × Opcode)) (bytes : List U8)
    (h : WordBytes (lines.map Prod.snd) bytes) :
    Describes wordBinary file (listing lines) (placeAt 0 bytes) ↔
      (∀ p ∈ lines, p.2.FullWidth ∧ p.2.PlainShift) ∧ bytes.length ≤ 0xFFF := by
  have hwf := wordBytes_wellFormed h
  have key := describes_listing (file := file) (hdr := []) (pre := []) (a := 0) (.inl rfl) ⟨[], .done (by simp), .empty⟩
    (.inl ⟨rfl, rfl⟩) (ls := lines) (fun p hp => hwf _ (List.mem_map_of_mem hp)) (placeAt 0 bytes)
  have hp := wordBytes_plain h
  have hl := wordBytes_length h
  rw [List.map_map] at hp
  rw [List.length_map] at hl
  rw [List.nil_append] at key
  rw [key]
  constructor
  · rintro ⟨hf, hfit, bytes', hb, e⟩
    cases placeAt_inj e
    refine ⟨fun p hm => ⟨hf p hm, hp.1 hb _ (List.mem_map_of_mem hm)⟩, by omega⟩
  · rintro ⟨hf, hfit⟩
    refine ⟨fun p hm => (hf p hm).1, by omega, bytes, hp.2 ?_, rfl⟩
    intro o ho
    obtain ⟨p, hm, rfl⟩ := List.mem_map.1 ho
    exact (hf p hm).2

example (file : Str) : Describes wordBinary file "cls\n  jp $200\n".toList [(0, 0x00), (1, 0xE0), (2, 0x12), (3, 0x00)] :=
  (C92_listing file [(0, CLS), (2, JP 0x200)] [0x00, 0xE0, 0x12, 0x00] (.cons (w := 0x00E0) rfl rfl (.cons (w := 0x1200) rfl rfl .nil))).2
    (by decide)

/-- C92: the same for a listing after a line that sets the address. -/
theorem C92_origin [Target] (file : Str) (a : U12) (lines : List (Nat × Opcode)) (bytes : List U8)
    (h : WordBytes (lines.map Prod.snd) bytes) :
    Describes wordBinary file (orgLine a ++ listing lines) (placeAt a.toNat bytes) ↔
      (∀ p ∈ lines, p.2.FullWidth ∧ p.2.PlainShift) ∧ a.toNat + bytes.length ≤ 0xFFF := by
  have hwf := wordBytes_wellFormed h
  have key := describes_listing (file := file) (orgLine_lines a) (orgLine_cut a)
    (.inr ⟨a, rfl, rfl⟩) (ls := lines) (fun p hp => hwf _ (List.mem_map_of_mem hp)) (placeAt a.toNat bytes)
  have hp := wordBytes_plain h
  have hl := wordBytes_length h
  rw [List.map_map] at hp
  rw [List.length_map] at hl
  rw [key]
  constructor
  · rintro ⟨hf, hfit, bytes', hb, e⟩
    cases placeAt_inj e
    refine ⟨fun p hm => ⟨hf p hm, hp.1 hb _ (List.mem_map_of_mem hm)⟩, by omega⟩
  · rintro ⟨hf, hfit⟩
    refine ⟨fun p hm => (hf p hm).1, by omega, bytes, hp.2 ?_, rfl⟩
    intro o ho
    obtain ⟨p, hm, rfl⟩ := List.mem_map.1 ho
    exact (hf p hm).2

example (file : Str) : Describes wordBinary file ".org 512\ncls\n  jp $200\n".toList
    [(0x200, 0x00), (0x201, 0xE0), (0x202, 0x12), (0x203, 0x00)] :=
  (C92_origin file 0x200 [(0, CLS), (2, JP 0x200)] [0x00, 0xE0, 0x12, 0x00] (.cons (w := 0x00E0) rfl rfl (.cons (w := 0x1200) rfl rfl .nil))).2
    (by decide)

/-- C92: a listing is accepted, as whatever program, exactly when all values have their digits and the memory suffices. -/
theorem C92_accepted [Target] (file : Str) (a : U12) (lines : List (Nat × Opcode)) (h : ∀ p ∈ lines, p.2.WellFormed) :
    (∃ bytes, Describes wordBinary file (orgLine a ++ listing lines) bytes) ↔
      (∀ p ∈ lines, p.2.FullWidth) ∧ a.toNat + 2 * lines.length ≤ 0xFFF := by
  have key := describes_listing (file := file) (orgLine_lines a) (orgLine_cut a) (.inr ⟨a, rfl, rfl⟩) (ls := lines) h
  constructor
  · rintro ⟨bytes, hd⟩
    obtain ⟨hf, hfit, _⟩ := (key bytes).1 hd
    exact ⟨hf, hfit⟩
  · rintro ⟨hf, hfit⟩
    obtain ⟨bytes, hb⟩ := wordBytes_exists (ops := lines.map fun p => p.2.dropY) fun o ho => by
      obtain ⟨p, hp, rfl⟩ := List.mem_map.1 ho
      exact dropY_wellFormed (h p hp)
    exact ⟨_, (key _).2 ⟨hf, hfit, bytes, hb, rfl⟩⟩

example (file : Str) (bytes : List (Nat × U8)) : ¬ Describes wordBinary file ".org 512\ncls\njp $ 20\n".toList bytes := by
  intro h
  have := ((C92_accepted file 0x200 [(0, CLS), (0, JP 0x20)] (by decide)).1 ⟨bytes, h⟩).1 (0, JP 0x20) (by simp)
  exact absurd this (by decide)

/-- C92: bytes, decoded two at a time and listed, are assembled to the same bytes exactly when each word is that of an
instruction that can be written, has all the digits of its immediate value, and the memory suffices. -/
theorem C92_decoded [Target] (file : Str) (a : U12) (lines : List (Nat × Opcode)) (bytes : List U8)
    (h : Decoded bytes (lines.map Prod.snd)) :
    Describes wordBinary file (orgLine a ++ listing lines) (placeAt a.toNat bytes) ↔
      (∀ w, HasWord bytes w → InstructionWord w.toNat ∧ (fromInstruction w).FullWidth) ∧
        a.toNat + bytes.length ≤ 0xFFF := by
  have hwf : ∀ p ∈ lines, p.2.WellFormed := by
    intro p hp
    obtain ⟨w, _, e⟩ := (decoded_mem h p.2).1 (List.mem_map_of_mem hp)
    rw [e]
    exact (C27_encode_decode w).1
  have hp := decoded_words h
  have hl := decoded_length h
  rw [List.map_map] at hp
  rw [List.length_map] at hl
  rw [describes_listing (orgLine_lines a) (orgLine_cut a) (.inr ⟨a, rfl, rfl⟩) hwf]
  constructor
  · rintro ⟨hf, hfit, bytes', hb, e⟩
    cases placeAt_inj e
    refine ⟨fun w hw => ⟨(C78_decoded w).2 (hp.1 hb w hw), ?_⟩, by omega⟩
    obtain ⟨p, hm, e⟩ := List.mem_map.1 ((decoded_mem h _).2 ⟨w, hw, rfl⟩)
    rw [← e]
    exact hf p hm
  · rintro ⟨hf, hfit⟩
    refine ⟨fun p hm => ?_, by omega, bytes, hp.2 fun w hw => (C78_decoded w).1 (hf w hw).1, rfl⟩
    obtain ⟨w, hw, e⟩ := (decoded_mem h p.2).1 (List.mem_map_of_mem hm)
    rw [e]
    exact (hf w hw).2

example : Decoded [0x00, 0xE0, 0x12, 0x00, 0x00, 0x00] [CLS, JP 0x200, NOP] ∧
    Describes wordBinary [] ".org 512\ncls\njp $200\nnop\n".toList (placeAt 0x200 [0x00, 0xE0, 0x12, 0x00, 0x00, 0x00]) := by
  have h : Decoded [0x00, 0xE0, 0x12, 0x00, 0x00, 0x00] [CLS, JP 0x200, NOP] :=
    .cons (w := 0x00E0) rfl (.cons (w := 0x1200) rfl (.cons (w := 0) rfl .nil))
  refine ⟨h, (C92_decoded [] 0x200 [(0, CLS), (0, JP 0x200), (0, NOP)] _ h).2 ⟨?_, by decide⟩⟩
  intro w hw
  have : w = 0x00E0 ∨ w = 0x1200 ∨ w = 0 := by
    cases hw with
    | here e => exact .inl (BitVec.eq_of_toNat_eq e)
    | later hw =>
      cases hw with
      | here e => exact .inr (.inl (BitVec.eq_of_toNat_eq e))
      | later hw =>
        cases hw with
        | here e => exact .inr (.inr (BitVec.eq_of_toNat_eq e))
        | later hw => cases hw
  rw [C78_decoded]
  rcases this with rfl | rfl | rfl <;> decide

end C8S
