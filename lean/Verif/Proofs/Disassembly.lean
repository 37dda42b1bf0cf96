import Verif.Proofs.Source
import Verif.Props.Opcode
import Verif.Props.Instruction

/- The assembly text of opcodes given back to the assembler. -/

namespace C8S

open Spec

variable {bin : Str → Nat}

namespace Opcode

/-- The operands of the assembly text: each with the operand meant. -/
def regPart (x : U8) : Str × Field := ('v' :: hex 1 x.toNat, .generalPurposeRegister x)
def imm8Part (v : U8) : Str × Field := ('$' :: hex 2 v.toNat, .numericLiteral (v.setWidth 12))
def imm4Part (v : U8) : Str × Field := ('$' :: hex 1 v.toNat, .numericLiteral (v.setWidth 12))
def imm12Part (v : U12) : Str × Field := ('$' :: hex 3 v.toNat, .numericLiteral v)

def mnemonicOf : Opcode → Str
  | .NOP => "nop".toList
  | .CLS => "cls".toList
  | .RET => "ret".toList
  | .DEREF_I => "ld".toList
  | .TRAP => "trap".toList
  | .TRAPRET => "trapret".toList
  | .JP _ => "jp".toList
  | .CALL _ => "call".toList
  | .SE_IMMEDIATE _ _ => "se".toList
  | .SNE_IMMEDIATE _ _ => "sne".toList
  | .SE_REGISTER _ _ => "se".toList
  | .SNE_REGISTER _ _ => "sne".toList
  | .LD_IMMEDIATE _ _ => "ld".toList
  | .ADD_IMMEDIATE _ _ => "add".toList
  | .LD_REGISTER _ _ => "ld".toList
  | .OR _ _ => "or".toList
  | .AND _ _ => "and".toList
  | .XOR _ _ => "xor".toList
  | .ADD_REGISTER _ _ => "add".toList
  | .SUB _ _ => "sub".toList
  | .SHR _ _ => "shr".toList
  | .SUBN _ _ => "subn".toList
  | .SHL _ _ => "shl".toList
  | .LD_I _ => "ld".toList
  | .JP_V0 _ => "jp".toList
  | .RND _ _ => "rnd".toList
  | .DRW _ _ _ => "drw".toList
  | .SE_K _ => "skp".toList
  | .SNE_K _ => "sknp".toList
  | .LD_X_DT _ => "ld".toList
  | .LD_X_K _ => "ld".toList
  | .LD_DT_X _ => "ld".toList
  | .LD_ST_X _ => "ld".toList
  | .ADD_I_X _ => "add".toList
  | .SPRITE_I _ => "ld".toList
  | .BCD_I _ => "ld".toList
  | .SAVE_I _ => "ld".toList
  | .RESTORE_I _ => "ld".toList

def parts : Opcode → List (Str × Field)
  | .NOP | .CLS | .RET | .TRAP | .TRAPRET => []
  | .DEREF_I => [("i".toList, .indexRegister), ("[i]".toList, .indexRegisterIndirect)]
  | .JP v | .CALL v => [imm12Part v]
  | .SE_IMMEDIATE x v | .SNE_IMMEDIATE x v | .LD_IMMEDIATE x v | .ADD_IMMEDIATE x v | .RND x v => [regPart x, imm8Part v]
  | .SE_REGISTER x y | .SNE_REGISTER x y | .LD_REGISTER x y | .OR x y | .AND x y | .XOR x y | .ADD_REGISTER x y
  | .SUB x y | .SUBN x y => [regPart x, regPart y]
  | .SHR x _ | .SHL x _ | .SE_K x | .SNE_K x => [regPart x]
  | .LD_I v => [("i".toList, .indexRegister), imm12Part v]
  | .JP_V0 v => [("v0".toList, .generalPurposeRegister 0), imm12Part v]
  | .DRW x y n => [regPart x, regPart y, imm4Part n]
  | .LD_X_DT x => [regPart x, ("dt".toList, .delayTimer)]
  | .LD_X_K x => [regPart x, ("k".toList, .keypadRegister)]
  | .LD_DT_X x => [("dt".toList, .delayTimer), regPart x]
  | .LD_ST_X x => [("st".toList, .soundTimer), regPart x]
  | .ADD_I_X x => [("i".toList, .indexRegister), regPart x]
  | .SPRITE_I x => [("f".toList, .sprite), regPart x]
  | .BCD_I x => [("b".toList, .bcd), regPart x]
  | .SAVE_I x => [("[i]".toList, .indexRegisterIndirect), regPart x]
  | .RESTORE_I x => [regPart x, ("[i]".toList, .indexRegisterIndirect)]

def operandList : List Str → Str
  | [] => []
  | t :: ts => ' ' :: separated (t :: ts)

theorem text_two (m a h b : Str) : m ++ ' ' :: a ++ h ++ (", ".toList ++ b) = m ++ (' ' :: ((a ++ h) ++ ", ".toList ++ b)) := by
  simp

theorem text_two' (m a h b h' : Str) :
    m ++ ' ' :: a ++ h ++ (", ".toList ++ b) ++ h' = m ++ (' ' :: ((a ++ h) ++ ", ".toList ++ (b ++ h'))) := by
  simp

theorem text_three (m a h b h' c h'' : Str) : m ++ ' ' :: a ++ h ++ (", ".toList ++ b) ++ h' ++ (", ".toList ++ c) ++ h'' =
    m ++ (' ' :: ((a ++ h) ++ ", ".toList ++ ((b ++ h') ++ ", ".toList ++ (c ++ h'')))) := by
  simp

attribute [local irreducible] hex in
/-- The text is the mnemonic, and a list of operands if there are any. -/
theorem text_parts (op : Opcode) : op.toAssemblyString = op.mnemonicOf ++ operandList (op.parts.map Prod.fst) := by
  cases op with
  | SE_IMMEDIATE => exact text_two' "se".toList ['v'] _ ['$'] _
  | SNE_IMMEDIATE => exact text_two' "sne".toList ['v'] _ ['$'] _
  | LD_IMMEDIATE => exact text_two' "ld".toList ['v'] _ ['$'] _
  | ADD_IMMEDIATE => exact text_two' "add".toList ['v'] _ ['$'] _
  | RND => exact text_two' "rnd".toList ['v'] _ ['$'] _
  | SE_REGISTER => exact text_two' "se".toList ['v'] _ ['v'] _
  | SNE_REGISTER => exact text_two' "sne".toList ['v'] _ ['v'] _
  | LD_REGISTER => exact text_two' "ld".toList ['v'] _ ['v'] _
  | ADD_REGISTER => exact text_two' "add".toList ['v'] _ ['v'] _
  | OR => exact text_two' "or".toList ['v'] _ ['v'] _
  | AND => exact text_two' "and".toList ['v'] _ ['v'] _
  | XOR => exact text_two' "xor".toList ['v'] _ ['v'] _
  | SUB => exact text_two' "sub".toList ['v'] _ ['v'] _
  | SUBN => exact text_two' "subn".toList ['v'] _ ['v'] _
  | DRW => exact text_three "drw".toList ['v'] _ ['v'] _ ['$'] _
  | LD_X_DT => exact text_two "ld".toList ['v'] _ "dt".toList
  | LD_X_K => exact text_two "ld".toList ['v'] _ "k".toList
  | RESTORE_I => exact text_two "ld".toList ['v'] _ "[i]".toList
  | _ => rfl

theorem mnemonicOf_name (op : Opcode) : IsName op.mnemonicOf := by
  cases op <;> exact .inl ⟨_, _, rfl, by decide, by decide⟩

/-- The opcode read back. -/
def dropY : Opcode → Opcode
  | .SHR x _ => .SHR x 0
  | .SHL x _ => .SHL x 0
  | op => op

theorem dropY_iff (op : Opcode) : op.dropY = op ↔ op.PlainShift := by
  cases op <;> simp only [dropY, PlainShift, true_and, SHR.injEq, SHL.injEq] <;> exact eq_comm

theorem dropY_wellFormed {op : Opcode} (h : op.WellFormed) : op.dropY.WellFormed := by
  cases op <;> first | exact h | exact ⟨h.1, by decide⟩

theorem byte_literal (v : U8) : numericLiteralTo8BitField (v.setWidth 12) = .ok v := by
  have hv := v.isLt
  have e : (v.setWidth 12).toNat = v.toNat := by
    rw [BitVec.toNat_setWidth]
    omega
  rw [numericLiteralTo8BitField, if_pos (by omega)]
  congr 1
  apply BitVec.eq_of_toNat_eq
  rw [BitVec.toNat_setWidth, e]
  omega

theorem nibble_literal {v : U8} (h : v.toNat ≤ 15) : numericLiteralTo4BitField (v.setWidth 12) = .ok v := by
  have hv := v.isLt
  have e : (v.setWidth 12).toNat = v.toNat := by
    rw [BitVec.toNat_setWidth]
    omega
  have e2 : (v.setWidth 12).setWidth 8 = v := by
    apply BitVec.eq_of_toNat_eq
    rw [BitVec.toNat_setWidth, e]
    omega
  rw [numericLiteralTo4BitField, if_pos (by omega), e2, if_pos]
  exact BitVec.lt_def.2 (by simpa using by omega)

theorem parts_select (op : Opcode) (h : op.WellFormed) :
    Instruction.fromMnemonicAndParameters op.mnemonicOf (op.parts.map Prod.snd) [] = .ok op.dropY := by
  have imm : ∀ (ctor : U8 → Opcode) (v : U8), Instruction.imm8Arm ctor (v.setWidth 12) = .ok (some (ctor v)) := by
    intro ctor v
    rw [Instruction.imm8Arm, byte_literal]
  cases op with
  | SE_IMMEDIATE x v =>
    show (match Instruction.imm8Arm (SE_IMMEDIATE x) (v.setWidth 12) with | .error e => _ | .ok (some op) => _ | .ok none => _) = _
    rw [imm]
    rfl
  | SNE_IMMEDIATE x v =>
    show (match Instruction.imm8Arm (SNE_IMMEDIATE x) (v.setWidth 12) with | .error e => _ | .ok (some op) => _ | .ok none => _) = _
    rw [imm]
    rfl
  | LD_IMMEDIATE x v =>
    show (match Instruction.imm8Arm (LD_IMMEDIATE x) (v.setWidth 12) with | .error e => _ | .ok (some op) => _ | .ok none => _) = _
    rw [imm]
    rfl
  | ADD_IMMEDIATE x v =>
    show (match Instruction.imm8Arm (ADD_IMMEDIATE x) (v.setWidth 12) with | .error e => _ | .ok (some op) => _ | .ok none => _) = _
    rw [imm]
    rfl
  | RND x v =>
    show (match Instruction.imm8Arm (RND x) (v.setWidth 12) with | .error e => _ | .ok (some op) => _ | .ok none => _) = _
    rw [imm]
    rfl
  | DRW x y n =>
    have h3 : Instruction.match3 (toLowercase "drw".toList) (.generalPurposeRegister x) (.generalPurposeRegister y)
        (.numericLiteral (n.setWidth 12)) [] = .ok (some (.DRW x y n)) := by
      show (match numericLiteralTo4BitField (n.setWidth 12) with
        | .ok v => Except.ok (some (DRW x y v))
        | .error e => .error e) = _
      rw [nibble_literal h.2.2]
    show (match Instruction.match3 (toLowercase "drw".toList) (.generalPurposeRegister x) (.generalPurposeRegister y)
      (.numericLiteral (n.setWidth 12)) [] with | .error e => _ | .ok (some op) => _ | .ok none => _) = _
    rw [h3]
    rfl
  | _ => rfl

end Opcode

/-! ### Operands -/

/-- The token of an operand written so. -/
def partKind (p : Str × Field) : Loc → Token :=
  match p.2 with
  | .numericLiteral w => .numericLiteral w.toNat
  | _ => .identifier p.1

def GoodPart (bin : Str → Nat) (p : Str × Field) : Prop := Plain bin p.1 (partKind p) ∧ ∀ l, OperandTok (partKind p l) p.2

theorem hex_digit : ∀ n, n < 16 → Opcode.hex 1 n = [hexDigits.getD n '?'] := by decide

theorem good_reg {x : U8} (h : x.toNat ≤ 15) : GoodPart bin (Opcode.regPart x) := by
  have e : Opcode.regPart x = (operandText (.generalPurposeRegister x), .generalPurposeRegister x) := by
    rw [Opcode.regPart, hex_digit _ (by omega)]
    rfl
  rw [e]
  exact ⟨operand_plain (f := .generalPurposeRegister x) h, operand_token (f := .generalPurposeRegister x) h⟩

theorem good_hex {w n : Nat} {v : U12} (e : v.toNat = n) (h : w = 0 ∨ 16 ^ w ≤ n) : GoodPart bin ('$' :: Opcode.hex (w + 1) n, .numericLiteral v) := by
  have hn := v.isLt
  have ht : Opcode.hex (w + 1) n = Nat.toDigits 16 n := by
    have hl : w + 1 ≤ (Nat.toDigits 16 n).length := by
      rcases h with rfl | h
      · have := Nat.length_toDigits_pos (b := 16) (n := n)
        omega
      · rcases Nat.eq_zero_or_pos w with rfl | hw
        · have := Nat.length_toDigits_pos (b := 16) (n := n)
          omega
        · have := mt (Nat.length_toDigits_le_iff (b := 16) (n := n) (k := w) (by omega) hw).1 (by omega)
          omega
    rw [Opcode.hex, padLeft, showHexLower, Nat.sub_eq_zero_of_le hl]
    rfl
  rw [ht]
  refine ⟨⟨?_, error_not_at (by simp [partKind]), by simp⟩, fun l => .numeric (by omega)⟩
  show Lexeme bin _ (.numericLiteral v.toNat)
  rw [e]
  exact lexeme_hexDigits bin (by omega)

theorem good_special {s : Str} {f : Field} (h : operandText f = s) (hf : OperandFormed f) (hn : operandKind f = .identifier s) :
    GoodPart bin (s, f) := by
  have e : partKind (s, f) = operandKind f := by
    cases f <;> simp_all [partKind, operandKind]
  subst h
  refine ⟨?_, ?_⟩
  · rw [e]
    exact operand_plain hf
  · rw [e]
    exact operand_token hf

theorem parts_good {op : Opcode} (h : op.WellFormed) (hw : op.FullWidth) : ∀ p ∈ op.parts, GoodPart bin p := by
  have hi12 : ∀ v : U12, 0x100 ≤ v.toNat → GoodPart bin (Opcode.imm12Part v) := fun v hv => good_hex (w := 2) rfl (.inr hv)
  have hi8 : ∀ v : U8, 0x10 ≤ v.toNat → GoodPart bin (Opcode.imm8Part v) := fun v hv => good_hex (w := 1) (by
    have := v.isLt
    rw [BitVec.toNat_setWidth]
    omega) (.inr hv)
  have hi4 : ∀ v : U8, GoodPart bin (Opcode.imm4Part v) := fun v => good_hex (w := 0) (by
    have := v.isLt
    rw [BitVec.toNat_setWidth]
    omega) (.inl rfl)
  have hr := @good_reg bin
  have h0 : GoodPart bin ("v0".toList, .generalPurposeRegister 0) := good_special rfl (show (0 : U8).toNat ≤ 15 by decide) rfl
  have h1 : GoodPart bin ("i".toList, .indexRegister) := good_special rfl trivial rfl
  have h2 : GoodPart bin ("[i]".toList, .indexRegisterIndirect) := good_special rfl trivial rfl
  have h3 : GoodPart bin ("dt".toList, .delayTimer) := good_special rfl trivial rfl
  have h4 : GoodPart bin ("st".toList, .soundTimer) := good_special rfl trivial rfl
  have h5 : GoodPart bin ("k".toList, .keypadRegister) := good_special rfl trivial rfl
  have h6 : GoodPart bin ("f".toList, .sprite) := good_special rfl trivial rfl
  have h7 : GoodPart bin ("b".toList, .bcd) := good_special rfl trivial rfl
  cases op <;> simp only [Opcode.parts, List.forall_mem_cons, List.not_mem_nil, false_implies, implies_true, and_true] <;>
    simp only [Opcode.WellFormed, Opcode.FullWidth] at h hw <;> simp only [*, and_self] 

/-! ### Assembling the text -/

theorem assemble_one {l : Loc} {m : Str} {fs : List Field} {op : Opcode} {bytes : List U8}
    (h : Instruction.fromMnemonicAndParameters m fs [] = .ok op) (hb : Instruction.intoVec op = .ret bytes)
    (hl : bytes.length = 2) : assemble [.instruction l m fs] = .ret (.ok [⟨0, bytes⟩]) := by
  have ha : appendAsserted (DataRange.new 0) bytes = .ret ⟨0, bytes⟩ := by
    match bytes, hl with
    | [a, b], _ => rfl
  rw [assemble, show defineLabels [.instruction l m fs] = .ok [] from rfl]
  simp only [emitDataRanges, emitLoop, h, hb, ha]
  match bytes, hl with
  | [a, b], _ => rfl

theorem describes_text [Target] {m file text : Str} {ps : List (Str × Field)} {op : Opcode} {bytes : List U8} (hm : IsName m)
    (hg : ∀ p ∈ ps, GoodPart wordBinary p) (ht : text = m ++ Opcode.operandList (ps.map Prod.fst))
    (h : Instruction.fromMnemonicAndParameters m (ps.map Prod.snd) [] = .ok op) (hb : Instruction.intoVec op = .ret bytes)
    (hl : bytes.length = 2) : Describes wordBinary file (text ++ ['\n']) (placeAt 0 bytes) := by
  have hnl : Cut wordBinary ['\n'] [.newline noLoc] := cut_newline (.done (by simp))
  have hc : Cut wordBinary (text ++ ['\n'])
      (.identifier m noLoc :: (commas (ps.map fun p => partKind p noLoc) ++ [.newline noLoc])) := by
    subst ht
    cases ps with
    | nil =>
      rw [show m ++ Opcode.operandList (List.map Prod.fst []) ++ ['\n'] = m ++ '\n' :: [] by simp [Opcode.operandList]]
      exact cut_plain (name_plain hm) (by decide) hnl
    | cons p ps =>
      rw [show m ++ Opcode.operandList (List.map Prod.fst (p :: ps)) ++ ['\n'] =
        m ++ ' ' :: (separated ((p :: ps).map Prod.fst) ++ '\n' :: []) by simp [Opcode.operandList]]
      exact cut_plain (name_plain hm) (by decide) (cut_space (cut_separated Prod.fst partKind _ (fun q hq => (hg q hq).1) hnl))
  have hi : ItemList OperandTok ps.isEmpty (commas (ps.map fun p => partKind p noLoc)) (ps.map Prod.snd) := by
    have h1 := items_commas (item := fun t p => OperandTok t p.2) partKind ps fun p hp => (hg p hp).2 _
    generalize commas (ps.map fun p => partKind p noLoc) = args at h1
    generalize ps.isEmpty = b at h1
    clear hc hg ht h hb hl
    induction h1 with
    | empty => exact .empty
    | one hx => exact .one hx
    | more hx _ ih => exact .more hx ih
  have hp : Program (.identifier m noLoc :: (commas (ps.map fun p => partKind p noLoc) ++ [.newline noLoc]))
      [.instruction noLoc m (ps.map Prod.snd)] :=
    .instruction hi (fun _ => ⟨_, _, rfl, .inl ⟨_, rfl⟩⟩) (.blank (.inl ⟨_, rfl⟩) .empty)
  refine (describes_cut _ _ _).2 ⟨_, _, _, hc, hp, assemble_one h hb hl, ?_⟩
  simp [image]

theorem intoVec_length {op : Opcode} {bytes : List U8} (h : Instruction.intoVec op = .ret bytes) : bytes.length = 2 := by
  unfold Instruction.intoVec at h
  cases hw : op.asInstruction with
  | panic =>
    rw [hw] at h
    cases h
  | ret w =>
    rw [hw] at h
    cases h
    rfl

theorem describes_opcode [Target] {op : Opcode} {bytes : List U8} (file : Str) (h : op.WellFormed) (hw : op.FullWidth)
    (hb : Instruction.intoVec op.dropY = .ret bytes) :
    Describes wordBinary file (op.toAssemblyString ++ ['\n']) (placeAt 0 bytes) :=
  describes_text op.mnemonicOf_name (parts_good h hw) op.text_parts (op.parts_select h) hb (intoVec_length hb)

/-! ### Padding -/

theorem cut_dollar_blank {r : Str} {ts : List Token} : ¬ Cut bin ('$' :: ' ' :: r) ts := by
  intro h
  generalize e : '$' :: ' ' :: r = text at h
  cases h with
  | done hb =>
    subst e
    exact absurd (hb '$' List.mem_cons_self) (by decide)
  | @token blanks s rest k ts hb hL hE hr =>
    cases blanks with
    | cons c cs =>
      rw [List.cons_append, List.cons_append, List.cons.injEq] at e
      obtain ⟨rfl, _⟩ := e
      exact absurd (hb '$' List.mem_cons_self) (by decide)
    | nil =>
      obtain ⟨c, t, rfl, _⟩ := longest_head hL
      rw [List.nil_append, List.cons_append, List.cons.injEq] at e
      obtain ⟨rfl, e⟩ := e
      obtain ⟨hne, _, hd, _⟩ := lexeme_hex (.inl rfl) hL.1
      cases t with
      | nil => exact hne rfl
      | cons d t =>
        rw [List.cons_append, List.cons.injEq] at e
        obtain ⟨rfl, _⟩ := e
        exact absurd (hd ' ' List.mem_cons_self) (by decide)

/-- A text is not tokenised when it has a blank after a `$` that follows a mnemonic or a comma. -/
theorem cut_padded {m r : Str} {ps : List (Str × Field)} {ts : List Token} (hm : IsName m) (hg : ∀ p ∈ ps, GoodPart bin p)
    (hp : ps.length ≤ 1) : ¬ Cut bin (m ++ ' ' :: (ps.flatMap fun p => p.1 ++ ", ".toList) ++ '$' :: ' ' :: r) ts := by
  intro h
  have key : ∃ ta t, Cut bin (m ++ ' ' :: (ps.flatMap fun p => p.1 ++ ", ".toList)) (ta ++ [t]) ∧
      (t = .comma noLoc ∨ t = .identifier m noLoc) := by
    match ps, hp with
    | [], _ => exact ⟨[], _, cut_plain (name_plain hm) (by decide) (cut_space (.done (by simp))), .inr rfl⟩
    | [p], _ =>
      have hp := (hg p List.mem_cons_self).1
      refine ⟨[.identifier m noLoc, partKind p noLoc], .comma noLoc, ?_, .inl rfl⟩
      rw [show m ++ ' ' :: (List.flatMap (fun p => p.1 ++ ", ".toList) [p]) = m ++ ' ' :: (p.1 ++ ',' :: ' ' :: []) by simp]
      exact cut_plain (name_plain hm) (by decide) (cut_space (cut_plain hp (by decide) (cut_comma (cut_space (.done (by simp))))))
  obtain ⟨ta, t, hc, ht⟩ := key
  obtain ⟨tb, _, hb⟩ := cut_split hc (by
    rintro d r' s k e hs hlast hj
    cases e
    rcases joins_char hs hj with ⟨u, e2, _⟩ | ⟨_, h'⟩
    · subst e2
      obtain ⟨-, rfl⟩ := lexeme_comment hs
      rw [List.getLast?_concat] at hlast
      rcases ht with rfl | rfl <;> simp at hlast
    · exact absurd h' (by decide)) h
  exact cut_dollar_blank hb

theorem hex_padded {w n : Nat} (hw : 0 < w) (h : n < 16 ^ w) : ∃ r, Opcode.hex (w + 1) n = ' ' :: r := by
  have hl := (Nat.length_toDigits_le_iff (b := 16) (n := n) (k := w) (by omega) hw).2 h
  rw [Opcode.hex, padLeft, showHexLower, show w + 1 - (Nat.toDigits 16 n).length = (w - (Nat.toDigits 16 n).length) + 1 by omega]
  exact ⟨_, rfl⟩

theorem not_fullWidth {op : Opcode} (h : op.WellFormed) (hw : ¬ op.FullWidth) : ∃ (m : Str) (ps : List (Str × Field)) (r : Str), IsName m ∧
    (∀ p ∈ ps, GoodPart bin p) ∧ ps.length ≤ 1 ∧
      op.toAssemblyString = m ++ ' ' :: (ps.flatMap fun p => p.1 ++ ", ".toList) ++ '$' :: ' ' :: r := by
  have h1 : ∀ v : U12, ¬ 0x100 ≤ v.toNat → ∃ r, Opcode.hex 3 v.toNat = ' ' :: r := fun v hv => hex_padded (w := 2) (by omega) (by omega)
  have h2 : ∀ v : U8, ¬ 0x10 ≤ v.toNat → ∃ r, Opcode.hex 2 v.toNat = ' ' :: r := fun v hv => hex_padded (w := 1) (by omega) (by omega)
  have hr := @good_reg bin
  have g0 : GoodPart bin ("v0".toList, .generalPurposeRegister 0) := good_special rfl (show (0 : U8).toNat ≤ 15 by decide) rfl
  have g1 : GoodPart bin ("i".toList, .indexRegister) := good_special rfl trivial rfl
  rw [op.text_parts]
  have hm := op.mnemonicOf_name
  cases op with
  | JP v =>
    obtain ⟨r, e⟩ := h1 v hw
    refine ⟨_, [], r, hm, by simp, by simp, ?_⟩
    simp [Opcode.parts, Opcode.operandList, separated, Opcode.imm12Part, e]
  | CALL v =>
    obtain ⟨r, e⟩ := h1 v hw
    refine ⟨_, [], r, hm, by simp, by simp, ?_⟩
    simp [Opcode.parts, Opcode.operandList, separated, Opcode.imm12Part, e]
  | LD_I v =>
    obtain ⟨r, e⟩ := h1 v hw
    refine ⟨_, [("i".toList, .indexRegister)], r, hm, by simpa using g1, by simp, ?_⟩
    simp [Opcode.parts, Opcode.operandList, separated, Opcode.imm12Part, e]
  | JP_V0 v =>
    obtain ⟨r, e⟩ := h1 v hw
    refine ⟨_, [("v0".toList, .generalPurposeRegister 0)], r, hm, by simpa using g0, by simp, ?_⟩
    simp [Opcode.parts, Opcode.operandList, separated, Opcode.imm12Part, e]
  | SE_IMMEDIATE x v =>
    obtain ⟨r, e⟩ := h2 v hw
    refine ⟨_, [Opcode.regPart x], r, hm, by simpa using hr h, by simp, ?_⟩
    simp [Opcode.parts, Opcode.operandList, separated, Opcode.imm8Part, e]
  | SNE_IMMEDIATE x v =>
    obtain ⟨r, e⟩ := h2 v hw
    refine ⟨_, [Opcode.regPart x], r, hm, by simpa using hr h, by simp, ?_⟩
    simp [Opcode.parts, Opcode.operandList, separated, Opcode.imm8Part, e]
  | LD_IMMEDIATE x v =>
    obtain ⟨r, e⟩ := h2 v hw
    refine ⟨_, [Opcode.regPart x], r, hm, by simpa using hr h, by simp, ?_⟩
    simp [Opcode.parts, Opcode.operandList, separated, Opcode.imm8Part, e]
  | ADD_IMMEDIATE x v =>
    obtain ⟨r, e⟩ := h2 v hw
    refine ⟨_, [Opcode.regPart x], r, hm, by simpa using hr h, by simp, ?_⟩
    simp [Opcode.parts, Opcode.operandList, separated, Opcode.imm8Part, e]
  | RND x v =>
    obtain ⟨r, e⟩ := h2 v hw
    refine ⟨_, [Opcode.regPart x], r, hm, by simpa using hr h, by simp, ?_⟩
    simp [Opcode.parts, Opcode.operandList, separated, Opcode.imm8Part, e]
  | _ => exact absurd trivial hw

theorem padded_rejected {op : Opcode} (h : op.WellFormed) (hw : ¬ op.FullWidth) (rest : Str) (ts : List Token) :
    ¬ Cut bin (op.toAssemblyString ++ rest) ts := by
  obtain ⟨m, ps, r, h1, h2, h3, e⟩ := not_fullWidth (bin := bin) h hw
  rw [e, List.append_assoc, List.cons_append, List.cons_append]
  exact cut_padded h1 h2 h3

end C8S
