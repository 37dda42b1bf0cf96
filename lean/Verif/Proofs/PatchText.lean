import Verif.Model.PatchText
import Verif.Spec.PatchText
import Verif.Props.Disassembly
import Verif.Props.Words

/-! Lemmas for C132. -/

namespace C8S

open Spec

namespace Opcode

def imm8PartWith (imm : Nat → Nat → Str) (v : U8) : Str × Field := ('$' :: imm 2 v.toNat, .numericLiteral (v.setWidth 12))
def imm4PartWith (imm : Nat → Nat → Str) (v : U8) : Str × Field := ('$' :: imm 1 v.toNat, .numericLiteral (v.setWidth 12))
def imm12PartWith (imm : Nat → Nat → Str) (v : U12) : Str × Field := ('$' :: imm 3 v.toNat, .numericLiteral v)

def partsWith (imm : Nat → Nat → Str) : Opcode → List (Str × Field)
  | .NOP | .CLS | .RET | .TRAP | .TRAPRET => []
  | .DEREF_I => [("i".toList, .indexRegister), ("[i]".toList, .indexRegisterIndirect)]
  | .JP v | .CALL v => [imm12PartWith imm v]
  | .SE_IMMEDIATE x v | .SNE_IMMEDIATE x v | .LD_IMMEDIATE x v | .ADD_IMMEDIATE x v | .RND x v => [regPart x, imm8PartWith imm v]
  | .SE_REGISTER x y | .SNE_REGISTER x y | .LD_REGISTER x y | .OR x y | .AND x y | .XOR x y | .ADD_REGISTER x y
  | .SUB x y | .SUBN x y => [regPart x, regPart y]
  | .SHR x _ | .SHL x _ | .SE_K x | .SNE_K x => [regPart x]
  | .LD_I v => [("i".toList, .indexRegister), imm12PartWith imm v]
  | .JP_V0 v => [("v0".toList, .generalPurposeRegister 0), imm12PartWith imm v]
  | .DRW x y n => [regPart x, regPart y, imm4PartWith imm n]
  | .LD_X_DT x => [regPart x, ("dt".toList, .delayTimer)]
  | .LD_X_K x => [regPart x, ("k".toList, .keypadRegister)]
  | .LD_DT_X x => [("dt".toList, .delayTimer), regPart x]
  | .LD_ST_X x => [("st".toList, .soundTimer), regPart x]
  | .ADD_I_X x => [("i".toList, .indexRegister), regPart x]
  | .SPRITE_I x => [("f".toList, .sprite), regPart x]
  | .BCD_I x => [("b".toList, .bcd), regPart x]
  | .SAVE_I x => [("[i]".toList, .indexRegisterIndirect), regPart x]
  | .RESTORE_I x => [regPart x, ("[i]".toList, .indexRegisterIndirect)]

attribute [local irreducible] hex in
theorem textWith_parts (imm : Nat → Nat → Str) (op : Opcode) :
    op.textWith imm = op.mnemonicOf ++ operandList ((op.partsWith imm).map Prod.fst) := by
  cases op with
  | SE_IMMEDIATE => exact text_two' "se".toList ['v'] _ ['$'] _
  | SNE_IMMEDIATE => exact text_two' "sne".toList ['v'] _ ['$'] _
  | LD_IMMEDIATE => exact text_two' "ld".toList ['v'] _ ['$'] _
  | ADD_IMMEDIATE => exact text_two' "add".toList ['v'] _ ['$'] _
  | RND => exact text_two' "rnd".toList ['v'] _ ['$'] _
  | SE_REGISTER => exact text_two' "se".toList ['v'] _ ['v'] _
  | SNE_REGISTER => exact text_two' "sne".toList ['v'] _ ['v'] _
  | LD_REGISTER => exact text_two' "ld".toList ['v'] _ ['v'] _
  | ADD_REGISTER => exact text_two' "add".toList ['v'] _ ['v'] _
  | OR => exact text_two' "or".toList ['v'] _ ['v'] _
  | AND => exact text_two' "and".toList ['v'] _ ['v'] _
  | XOR => exact text_two' "xor".toList ['v'] _ ['v'] _
  | SUB => exact text_two' "sub".toList ['v'] _ ['v'] _
  | SUBN => exact text_two' "subn".toList ['v'] _ ['v'] _
  | DRW => exact text_three "drw".toList ['v'] _ ['v'] _ ['$'] _
  | LD_X_DT => exact text_two "ld".toList ['v'] _ "dt".toList
  | LD_X_K => exact text_two "ld".toList ['v'] _ "k".toList
  | RESTORE_I => exact text_two "ld".toList ['v'] _ "[i]".toList
  | _ => rfl

/-- The operands meant do not depend on the formatting. -/
theorem partsWith_fields (imm : Nat → Nat → Str) (op : Opcode) : (op.partsWith imm).map Prod.snd = op.parts.map Prod.snd := by
  cases op <;> rfl

end Opcode

variable {bin : Str → Nat}

theorem good_digits {s : Str} {n : Nat} {v : U12} (e : v.toNat = n)
    (h : s ≠ [] ∧ s.length ≤ 3 ∧ (∀ d ∈ s, Hexadecimal d) ∧ positional 16 s = n) :
    GoodPart bin ('$' :: s, .numericLiteral v) := by
  have hn := v.isLt
  refine ⟨⟨?_, error_not_at (by simp [partKind]), by simp⟩, fun l => .numeric (by omega)⟩
  show Lexeme bin _ (.numericLiteral v.toNat)
  rw [e, ← h.2.2.2]
  exact .hex (.inl rfl) h.1 h.2.1 h.2.2.1

theorem partsWith_good {imm : Nat → Nat → Str} {op : Opcode} (hi : WritesDigits imm) (h : op.WellFormed) :
    ∀ p ∈ op.partsWith imm, GoodPart bin p := by
  have e8 : ∀ v : U8, (v.setWidth 12).toNat = v.toNat := fun v => by
    have := v.isLt
    rw [BitVec.toNat_setWidth]
    omega
  have hi12 : ∀ v : U12, GoodPart bin (Opcode.imm12PartWith imm v) := fun v =>
    good_digits rfl (hi 3 _ (by simp) (by simpa using v.isLt))
  have hi8 : ∀ v : U8, GoodPart bin (Opcode.imm8PartWith imm v) := fun v =>
    good_digits (e8 v) (hi 2 _ (by simp) (by simpa using v.isLt))
  have hi4 : ∀ v : U8, v.toNat ≤ 15 → GoodPart bin (Opcode.imm4PartWith imm v) := fun v hv =>
    good_digits (e8 v) (hi 1 _ (by simp) (by omega))
  have hr := @good_reg bin
  have h0 : GoodPart bin ("v0".toList, .generalPurposeRegister 0) := good_special rfl (show (0 : U8).toNat ≤ 15 by decide) rfl
  have h1 : GoodPart bin ("i".toList, .indexRegister) := good_special rfl trivial rfl
  have h2 : GoodPart bin ("[i]".toList, .indexRegisterIndirect) := good_special rfl trivial rfl
  have h3 : GoodPart bin ("dt".toList, .delayTimer) := good_special rfl trivial rfl
  have h4 : GoodPart bin ("st".toList, .soundTimer) := good_special rfl trivial rfl
  have h5 : GoodPart bin ("k".toList, .keypadRegister) := good_special rfl trivial rfl
  have h6 : GoodPart bin ("f".toList, .sprite) := good_special rfl trivial rfl
  have h7 : GoodPart bin ("b".toList, .bcd) := good_special rfl trivial rfl
  clear hi e8
  cases op <;> simp only [Opcode.partsWith, List.forall_mem_cons, List.not_mem_nil, false_implies, implies_true, and_true] <;>
    simp only [Opcode.WellFormed] at h <;> simp only [*, and_self]

theorem describes_with [Target] {imm : Nat → Nat → Str} {op : Opcode} {bytes : List U8} (file : Str) (h : op.WellFormed)
    (hi : WritesDigits imm) (hb : Instruction.intoVec op.dropY = .ret bytes) :
    Describes wordBinary file (op.textWith imm ++ ['\n']) (placeAt 0 bytes) :=
  describes_text op.mnemonicOf_name (partsWith_good hi h) (op.textWith_parts imm)
    (by rw [op.partsWith_fields]; exact op.parts_select h) hb (intoVec_length hb)

/-! ### Padding -/

theorem positional_zeros (k : Nat) (s : Str) : positional 16 (List.replicate k '0' ++ s) = positional 16 s := by
  induction k with
  | zero => rfl
  | succ k ih =>
    rw [← ih]
    rfl

theorem padded_writes : WritesDigits (Opcode.padded '0') := by
  intro w n hw h
  have hl : (Nat.toDigits 16 n).length ≤ w :=
    (Nat.length_toDigits_le_iff (b := 16) (n := n) (k := w) (by omega) (by omega)).2 h
  have hlen : (Opcode.padded '0' w n).length = w := by
    rw [Opcode.padded, padLeft, showHexLower, List.length_append, List.length_replicate]
    omega
  refine ⟨?_, by omega, ?_, ?_⟩
  · intro e
    rw [e, List.length_nil] at hlen
    omega
  · intro d hd
    rcases List.mem_append.1 hd with hd | hd
    · rw [(List.mem_replicate.1 hd).2]
      exact .inl (by decide)
    · exact toDigits_all (by omega) digitChar_hexadecimal n d hd
  · rw [Opcode.padded, padLeft, positional_zeros]
    exact positional_toDigits (by omega) (by omega) n

theorem unpadded_writes : WritesDigits fun _ n => showHexLower n := by
  intro w n hw h
  have hl : (Nat.toDigits 16 n).length ≤ w :=
    (Nat.length_toDigits_le_iff (b := 16) (n := n) (k := w) (by omega) (by omega)).2 h
  exact ⟨Nat.toDigits_ne_nil, by show (Nat.toDigits 16 n).length ≤ 3; omega, toDigits_all (by omega) digitChar_hexadecimal n,
    positional_toDigits (by omega) (by omega) n⟩

theorem hexadecimal_zero {c : Char} (h : Hexadecimal c) (hz : digitVal c = 0) : c = '0' := by
  have key : ∀ n : Fin 128, Hexadecimal (Char.ofNat n.val) → digitVal (Char.ofNat n.val) = 0 → Char.ofNat n.val = '0' := by
    decide +kernel
  have hlt : c.toNat < 128 := by
    rcases h with h | h | h
    · exact Nat.lt_of_le_of_lt (show c.toNat ≤ 57 from h.2) (by omega)
    · exact Nat.lt_of_le_of_lt (show c.toNat ≤ 102 from h.2) (by omega)
    · exact Nat.lt_of_le_of_lt (show c.toNat ≤ 70 from h.2) (by omega)
  have := key ⟨c.toNat, hlt⟩
  simp only [Char.ofNat_toNat] at this
  exact this h hz

theorem cut_dollar_char {c : Char} {r : Str} {ts : List Token} (hc : ¬ Hexadecimal c) : ¬ Cut bin ('$' :: c :: r) ts := by
  intro h
  generalize e : '$' :: c :: r = text at h
  cases h with
  | done hb =>
    subst e
    exact absurd (hb '$' List.mem_cons_self) (by decide)
  | @token blanks s rest k ts hb hL hE hr =>
    cases blanks with
    | cons c cs =>
      rw [List.cons_append, List.cons_append, List.cons.injEq] at e
      obtain ⟨rfl, _⟩ := e
      exact absurd (hb '$' List.mem_cons_self) (by decide)
    | nil =>
      obtain ⟨c, t, rfl, _⟩ := longest_head hL
      rw [List.nil_append, List.cons_append, List.cons.injEq] at e
      obtain ⟨rfl, e⟩ := e
      obtain ⟨hne, _, hd, _⟩ := lexeme_hex (.inl rfl) hL.1
      cases t with
      | nil => exact hne rfl
      | cons d t =>
        rw [List.cons_append, List.cons.injEq] at e
        obtain ⟨rfl, _⟩ := e
        exact hc (hd _ List.mem_cons_self)

/-- A text is not tokenised when it has another character after a `$` that follows a mnemonic. -/
theorem cut_dollar_after {c : Char} {m r : Str} {ts : List Token} (hm : IsName m) (hc : ¬ Hexadecimal c) :
    ¬ Cut bin (m ++ ' ' :: '$' :: c :: r) ts := by
  intro h
  have key : Cut bin (m ++ ' ' :: []) ([] ++ [.identifier m noLoc]) :=
    cut_plain (name_plain hm) (by decide) (cut_space (.done (by simp)))
  rw [show m ++ ' ' :: '$' :: c :: r = m ++ ' ' :: [] ++ '$' :: c :: r by simp] at h
  obtain ⟨tb, _, hb⟩ := cut_split key (by
    rintro d r' s k e hs hlast hj
    cases e
    rcases joins_char hs hj with ⟨u, e2, _⟩ | ⟨_, h'⟩
    · subst e2
      obtain ⟨-, rfl⟩ := lexeme_comment hs
      rw [List.getLast?_concat] at hlast
      simp at hlast
    · exact absurd h' (by decide)) h
  exact cut_dollar_char hc hb

end C8S
