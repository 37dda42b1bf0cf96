import Verif.Proofs.PatchText

/- Property C132: a repair of the assembly text of opcodes. -/

namespace C8S

open Spec Opcode

/-- C132: with the formatting of the code, the text is that of the code. -/
theorem C132_code (op : Opcode) : op.textWith hex = op.toAssemblyString ∧ op.textWith (padded ' ') = op.toAssemblyString := by
  constructor <;> cases op <;> rfl

example : (JP 5).textWith hex = "jp $  5".toList ∧ (JP 5).textWith (padded '0') = "jp $005".toList := by decide

/-- C132: with any formatting that writes the hexadecimal digits of the values, the text of an opcode assembles to the word of
the opcode exactly when it is not a shift with a second register. -/
theorem C132_repaired [Target] (digits : Nat → Nat → Str) (hd : WritesDigits digits) (file : Str) (op : Opcode) (w : U16) (hi lo : U8)
    (h : op.asInstruction = .ret w) (hw : w.toNat = hi.toNat * 256 + lo.toNat) :
    Describes wordBinary file (op.textWith digits ++ "\n".toList) [(0, hi), (1, lo)] ↔ op.PlainShift := by
  have hwf : op.WellFormed := by
    refine Classical.byContradiction fun hn => ?_
    rw [(C26_decode_encode op).2 hn] at h
    cases h
  have hb : Instruction.intoVec op = .ret [hi, lo] := intoVec_iff.2 ⟨w, hi, lo, h, rfl, hw⟩
  rw [← dropY_iff]
  constructor
  · intro hd'
    obtain ⟨w', e2, _⟩ := (C26_decode_encode op.dropY).1 (dropY_wellFormed hwf)
    have hb' : Instruction.intoVec op.dropY =
        .ret [((w' &&& 0xFF00) >>> 8).setWidth 8, ((w' &&& 0x00FF) >>> 0).setWidth 8] := by
      unfold Instruction.intoVec
      rw [e2]
      rfl
    have e := describes_unique hd' (describes_with file hwf hd hb')
    obtain ⟨w2, hi', lo', e3, e4, e5⟩ := intoVec_iff.1 hb'
    rw [e4] at e
    simp only [placeAt, List.cons.injEq, Prod.mk.injEq, true_and, and_true] at e
    obtain ⟨rfl, rfl⟩ := e
    cases BitVec.eq_of_toNat_eq (hw.trans e5.symm)
    exact C26_encode_injective _ _ w e3 h
  · intro e
    exact describes_with file hwf hd (by rw [e]; exact hb)

example (file : Str) : Describes wordBinary file "jp $005\n".toList [(0, 0x10), (1, 0x05)] :=
  (C132_repaired (padded '0') padded_writes file (JP 5) 0x1005 0x10 0x05 rfl rfl).2 trivial

/-- C132, for decoding: with such a formatting, the text of the opcode that a word decodes to assembles to that word exactly
when the word is that of an instruction that can be written. -/
theorem C132_decoded [Target] (digits : Nat → Nat → Str) (hd : WritesDigits digits) (file : Str) (w : U16) (hi lo : U8)
    (hw : w.toNat = hi.toNat * 256 + lo.toNat) :
    Describes wordBinary file ((fromInstruction w).textWith digits ++ "\n".toList) [(0, hi), (1, lo)] ↔
      InstructionWord w.toNat := by
  rw [C78_decoded]
  by_cases hn : fromInstruction w = .NOP
  · rw [hn]
    have h0 := (C132_repaired digits hd file .NOP 0 0 0 rfl rfl).2 trivial
    constructor
    · intro h
      have e := describes_unique h h0
      simp only [List.cons.injEq, Prod.mk.injEq, true_and, and_true] at e
      obtain ⟨rfl, rfl⟩ := e
      exact ⟨.inl (BitVec.eq_of_toNat_eq hw), trivial⟩
    · rintro ⟨rfl | h, _⟩
      · have h1 : hi = 0 := BitVec.eq_of_toNat_eq (by
          rw [show (0 : U16).toNat = 0 from rfl] at hw
          show hi.toNat = 0
          omega)
        have h2 : lo = 0 := BitVec.eq_of_toNat_eq (by
          rw [show (0 : U16).toNat = 0 from rfl] at hw
          show lo.toNat = 0
          omega)
        rw [h1, h2]
        exact h0
      · exact (h rfl).elim
  · rw [C132_repaired digits hd file _ w hi lo ((C27_encode_decode w).2.1 hn) hw]
    exact ⟨fun h => ⟨.inr hn, h⟩, fun h => h.2⟩

example (file : Str) : Describes wordBinary file ((fromInstruction 0x6107).textWith (padded '0') ++ "\n".toList)
    [(0, 0x61), (1, 0x07)] ∧ (fromInstruction 0x6107).textWith (padded '0') = "ld v1, $07".toList :=
  ⟨(C132_decoded _ padded_writes file 0x6107 0x61 0x07 rfl).2 (by decide), by decide⟩

/-- C132: padding with zeros is such a formatting, and so is none. -/
theorem C132_formats : WritesDigits (padded '0') ∧ WritesDigits fun _ n => showHexLower n := ⟨padded_writes, unpadded_writes⟩

example : (LD_I 0x2A).textWith (padded '0') = "ld i, $02a".toList ∧
    (LD_I 0x2A).textWith (fun _ n => showHexLower n) = "ld i, $2a".toList := by decide

/-- C132: of all characters to pad with, a zero is the only one with which the text of every instruction that can be written
assembles to the instruction. -/
theorem C132_padding [Target] (fill : Char) :
    (∀ (file : Str) (op : Opcode) (w : U16) (hi lo : U8), op.asInstruction = .ret w →
      w.toNat = hi.toNat * 256 + lo.toNat → op.PlainShift →
      Describes wordBinary file (op.textWith (padded fill) ++ "\n".toList) [(0, hi), (1, lo)]) ↔ fill = '0' := by
  constructor
  · intro h
    have hj := h [] (JP 0x15) 0x1015 0x10 0x15 rfl rfl trivial
    have et : (JP 0x15).textWith (padded fill) = "jp".toList ++ ' ' :: '$' :: fill :: "15".toList := rfl
    rw [et] at hj
    by_cases hc : Hexadecimal fill
    · have hv : digitVal fill < 16 := digitVal_hex_lt hc
      have hg : GoodPart wordBinary ('$' :: fill :: "15".toList, .numericLiteral (BitVec.ofNat 12 (digitVal fill * 256 + 21))) := by
        refine good_digits (n := digitVal fill * 256 + 21) (by rw [BitVec.toNat_ofNat]; omega) ⟨by simp, by simp, ?_, ?_⟩
        · intro d hd
          rcases List.mem_cons.1 hd with rfl | hd
          · exact hc
          · exact .inl ((show ∀ d ∈ "15".toList, Decimal d by decide) d hd)
        · show ((0 * 16 + digitVal fill) * 16 + 1) * 16 + 5 = _
          omega
      generalize hvv : (BitVec.ofNat 12 (digitVal fill * 256 + 21) : U12) = v at hg
      obtain ⟨w', e2, _⟩ := (C26_decode_encode (JP v)).1 trivial
      have hb' : Instruction.intoVec (JP v) =
          .ret [((w' &&& 0xFF00) >>> 8).setWidth 8, ((w' &&& 0x00FF) >>> 0).setWidth 8] := by
        unfold Instruction.intoVec
        rw [e2]
        rfl
      have hd := describes_text (file := []) (m := "jp".toList) (ps := [('$' :: fill :: "15".toList, .numericLiteral v)])
        (mnemonicOf_name (JP 0)) (by simpa using hg) rfl (parts_select (JP v) trivial) hb' (intoVec_length hb')
      have e := describes_unique hj hd
      obtain ⟨w2, hi', lo', e3, e4, e5⟩ := intoVec_iff.1 hb'
      rw [e4] at e
      simp only [placeAt, List.cons.injEq, Prod.mk.injEq, true_and, and_true] at e
      obtain ⟨rfl, rfl⟩ := e
      have ew : w2 = 0x1015 := BitVec.eq_of_toNat_eq e5
      subst ew
      have ej := C26_encode_injective _ _ _ e3 (show (JP 0x15).asInstruction = .ret 0x1015 from rfl)
      rw [JP.injEq] at ej
      subst ej
      have et := congrArg BitVec.toNat hvv
      rw [BitVec.toNat_ofNat, show (0x15 : U12).toNat = 21 from rfl] at et
      exact hexadecimal_zero hc (by omega)
    · obtain ⟨ts, hcut⟩ := describes_tokens hj
      exact (cut_dollar_after (m := "jp".toList) (mnemonicOf_name (JP 0)) hc hcut).elim
  · rintro rfl file op w hi lo h hw hp
    exact (C132_repaired _ padded_writes file op w hi lo h hw).2 hp

example : (∀ fill : Char, (JP 0x15).textWith (padded fill) = ['j', 'p', ' ', '$', fill, '1', '5']) ∧
    ¬ WritesDigits (padded ' ') := by
  refine ⟨fun _ => rfl, fun h => ?_⟩
  have := (h 2 5 (by simp) (by decide)).2.2.1 ' ' (by decide)
  exact absurd this (by decide)

end C8S
