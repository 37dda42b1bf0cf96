import Verif.Proofs.IsaLabels

/-
Properties C19 (mnemonic half), C21, C22, C23, C24 and C25.
-/

namespace C8S

open Spec Instruction

/-- C21: an instruction assembles to a word exactly when it matches a row of the README table, its operands fit
the fields of that row and its labels are defined; the word is then the row's template with the operands
filled in. -/
theorem C21_word_iff (labels : LabelMap) (mnemonic : Str) (fields : List Field) (w : U16) :
    (∃ op, fromMnemonicAndParameters mnemonic fields labels = .ok op ∧ op.asInstruction = .ret w) ↔
      Encodes labels mnemonic fields w.toNat :=
  encodes_iff

example : Encodes [] "LD".toList [.generalPurposeRegister 3, .numericLiteral 0x42] 0x6342 :=
  (C21_word_iff _ _ _ 0x6342).1 ⟨.LD_IMMEDIATE 3 0x42, rfl, by decide⟩

/-- C21: an instruction fails with exactly the error the specification gives. -/
theorem C21_error_iff (labels : LabelMap) (mnemonic : Str) (fields : List Field) (e : InstructionError) :
    fromMnemonicAndParameters mnemonic fields labels = .error e ↔ InstructionFails labels mnemonic fields e :=
  from_error_iff

example : Encodes [("sprite".toList, 7)] "Drw".toList
    [.generalPurposeRegister 10, .generalPurposeRegister 11, .identifier "sprite".toList] 0xDAB7 := by
  refine ⟨⟨"Dxyn".toList, "drw".toList, [.vx, .vy, .n]⟩, by decide, { x := 10, y := 11, n := 7 }, by decide,
    .cons (.vx rfl (by decide)) (.cons (.vy rfl (by decide)) (.cons (.n ?_ (by decide)) .nil)), by decide,
    by decide⟩
  exact Denotes.label (v := 7) (by decide)

example : InstructionFails [("big".toList, 256)] "LD".toList
    [.generalPurposeRegister 0, .identifier "big".toList] (.expectingEightBitValue 256) :=
  .eightBit (row := ⟨"6xkk".toList, "ld".toList, [.vx, .nn]⟩) (f := .identifier "big".toList)
    ⟨by decide, by decide, .cons .vx (.cons .nnId .nil)⟩ (by decide) (by simp)
    (Denotes.label (v := 256) (by decide)) (by decide)

/-- C25: an instruction that assembles, on registers the parser can produce, emits exactly the two bytes of a
word matching the table, most significant first, without panicking; its declared size is 2. -/
theorem C25_two_bytes (labels : LabelMap) (mnemonic : Str) (fields : List Field) (op : Opcode)
    (hr : FourBitRegisters fields) (h : fromMnemonicAndParameters mnemonic fields labels = .ok op) :
    ∃ hi lo : U8, intoVec op = .ret [hi, lo] ∧ Encodes labels mnemonic fields (hi.toNat * 256 + lo.toNat) ∧
      size op = [hi, lo].length := by
  have hwf := wellFormed_of_ok hr h
  obtain ⟨w, hw⟩ : ∃ w, op.asInstruction = .ret w := ⟨_, Opcode.asInstruction_eq hwf⟩
  have he := encodes_iff.1 ⟨op, h, hw⟩
  refine ⟨_, _, by simp only [intoVec, hw, Run.ret_bind, Run.pure_eq]; rfl, ?_, rfl⟩
  rw [hi8_toNat, lo8_toNat]
  have e : w.toNat / 256 * 256 + w.toNat % 256 = w.toNat := by omega
  rw [e]
  exact he

/-- C25: without that condition emitting may panic, and only then. -/
theorem C25_panic_only (labels : LabelMap) (mnemonic : Str) (fields : List Field) (op : Opcode)
    (h : fromMnemonicAndParameters mnemonic fields labels = .ok op) (hp : intoVec op = .panic) :
    ∃ r, .generalPurposeRegister r ∈ fields ∧ 15 < r.toNat := by
  refine Classical.byContradiction fun hn => ?_
  have hr : FourBitRegisters fields := fun r hm => by
    refine Classical.byContradiction fun hlt => hn ⟨r, hm, by omega⟩
  obtain ⟨hi, lo, he, _⟩ := C25_two_bytes labels mnemonic fields op hr h
  rw [hp] at he
  cases he

example : FourBitRegisters [.generalPurposeRegister 15, .numericLiteral 3] ∧
    fromMnemonicAndParameters "se".toList [.generalPurposeRegister 15, .numericLiteral 3] []
      = .ok (.SE_IMMEDIATE 15 3) ∧ intoVec (.SE_IMMEDIATE 15 3) = .ret [0x3F, 0x03] := by
  refine ⟨?_, rfl, by decide⟩
  intro r hr
  simp at hr
  subst hr
  decide

/-- C19, mnemonics: re-casing the mnemonic changes neither acceptance nor the opcode. -/
theorem C19_mnemonic (m m' : Str) (h : SameWord m m') (fields : List Field) (labels : LabelMap) (op : Opcode) :
    fromMnemonicAndParameters m fields labels = .ok op ↔ fromMnemonicAndParameters m' fields labels = .ok op := by
  rw [from_ok_iff, from_ok_iff, (toLowercase_eq_iff m m').2 h]

/-- C19, mnemonics: the error is the same as well, except that "no matching format" quotes the spelling. -/
theorem C19_mnemonic_error (m m' : Str) (h : SameWord m m') (fields : List Field) (labels : LabelMap)
    (e : InstructionError) :
    fromMnemonicAndParameters m fields labels = .error e ↔
      (fromMnemonicAndParameters m' fields labels = .error e ∧ ∀ k d, e ≠ .noMatchingFormat k d) ∨
      ∃ d, e = .noMatchingFormat m d ∧ fromMnemonicAndParameters m' fields labels = .error (.noMatchingFormat m' d) := by
  simp only [from_error_iff]
  have hsel : ∀ {m m' : Str} {row}, SameWord m m' → Selects row m fields → Selects row m' fields :=
    fun h hs => ⟨hs.1, h.symm.trans hs.2.1, hs.2.2⟩
  constructor
  · intro hf
    cases hf with
    | unresolved h1 h2 h3 => exact .inl ⟨.unresolved (hsel h h1) h2 h3, by simp⟩
    | eightBit h1 h2 h3 h4 h5 => exact .inl ⟨.eightBit (hsel h h1) h2 h3 h4 h5, by simp⟩
    | fourBit h1 h2 h3 h4 h5 => exact .inl ⟨.fourBit (hsel h h1) h2 h3 h4 h5, by simp⟩
    | noMatch hn => exact .inr ⟨_, rfl, .noMatch fun row hs => hn row (hsel h.symm hs)⟩
  · rintro (⟨hf, hne⟩ | ⟨d, rfl, hf⟩)
    · cases hf with
      | unresolved h1 h2 h3 => exact .unresolved (hsel h.symm h1) h2 h3
      | eightBit h1 h2 h3 h4 h5 => exact .eightBit (hsel h.symm h1) h2 h3 h4 h5
      | fourBit h1 h2 h3 h4 h5 => exact .fourBit (hsel h.symm h1) h2 h3 h4 h5
      | noMatch hn => exact absurd rfl (hne _ _)
    · cases hf with
      | noMatch hn => exact .noMatch fun row hs => hn row (hsel h hs)

example : fromMnemonicAndParameters "JP".toList [.identifier "x".toList] [] =
      .error (.unableToResolveLabel "x".toList) ∧
    fromMnemonicAndParameters "jP".toList [.identifier "x".toList] [] = .error (.unableToResolveLabel "x".toList) :=
  ⟨rfl, rfl⟩

example : SameWord "TrapRet".toList "trapret".toList := by decide

/-- The Kelvin sign is a `k` as well. It cannot come from a source text (`scan_identifier_ascii`). -/
example : SameWord "S\u212ap".toList "skp".toList ∧
    fromMnemonicAndParameters "S\u212ap".toList [.generalPurposeRegister 3] [] =
      fromMnemonicAndParameters "skp".toList [.generalPurposeRegister 3] [] ∧
    ¬ SameLetters "S\u212ap".toList "skp".toList := ⟨by decide, rfl, by decide⟩

/-- C19: a lower case of a string is an ASCII string exactly when that of the model is. -/
theorem C19_lowercase (s t k : Str) (h : LowerCase s t) (hk : ∀ c ∈ k, c.toNat < 128) : t = k ↔ toLowercase s = k :=
  lowerCase_eq_iff h hk

/-- U+0130 has the lower case `i`, U+0307. -/
example : LowerCase "D\u0130".toList "di\u0307".toList ∧ toLowercase "D\u0130".toList ≠ "di".toList ∧
    LowerCase "\u212A".toList "k".toList :=
  ⟨.capital (by decide) (.other (w := "i\u0307".toList) (by decide) (by decide) (by decide) .nil), by decide,
    .kelvin (by decide) .nil⟩

/-- C22: a label can stand for a literal of the same value: same opcode, and same error except for the quotation
of the operands in "no matching format", which then names the same mnemonic. -/
theorem C22_label_for_literal (labels : LabelMap) (m : Str) (pre post : List Field) (name : Str) (v : U12)
    (h : labels.get name = some v) :
    (∀ op, fromMnemonicAndParameters m (pre ++ .identifier name :: post) labels = .ok op ↔
      fromMnemonicAndParameters m (pre ++ .numericLiteral v :: post) labels = .ok op) ∧
    (∀ e, (∀ k d, e ≠ .noMatchingFormat k d) →
      (fromMnemonicAndParameters m (pre ++ .identifier name :: post) labels = .error e ↔
        fromMnemonicAndParameters m (pre ++ .numericLiteral v :: post) labels = .error e)) ∧
    ∀ k, (∃ d, fromMnemonicAndParameters m (pre ++ .identifier name :: post) labels = .error (.noMatchingFormat k d)) ↔
      ∃ d, fromMnemonicAndParameters m (pre ++ .numericLiteral v :: post) labels = .error (.noMatchingFormat k d) := by
  have hr := rawMatch_label (resolve_ok.2 h) (toLowercase m) pre post
  refine ⟨fun op => by rw [from_ok_iff, from_ok_iff, hr], fun e he => ?_, fun k => ?_⟩
  · rw [from_eq, from_eq, hr]
    split
    · rfl
    · rfl
    · constructor
      · intro h; injection h with h; exact absurd h.symm (he _ _)
      · intro h; injection h with h; exact absurd h.symm (he _ _)
  · rw [from_eq, from_eq, hr]
    split
    · rfl
    · rfl
    · constructor
      · rintro ⟨d, h⟩; injection h with h; injection h with h _; subst h; exact ⟨_, rfl⟩
      · rintro ⟨d, h⟩; injection h with h; injection h with h _; subst h; exact ⟨_, rfl⟩

example : LabelMap.get [("a".toList, 5), ("A".toList, 9)] "A".toList = some 9 := by decide

/-- C23: a byte operand above 255, given directly or by a label, is an error that reports it. -/
theorem C23_byte (labels : LabelMap) (m : Str)
    (hm : ∃ k ∈ ["se", "sne", "ld", "add", "rnd"], SameWord m k.toList) (r : U8) (f : Field) (n : Nat)
    (hd : Denotes labels f n) (hn : 255 < n) :
    fromMnemonicAndParameters m [.generalPurposeRegister r, f] labels = .error (.expectingEightBitValue n) := by
  rw [from_error_iff]
  have hs : Shape .nn f := by cases hd <;> constructor
  obtain ⟨k, hk, hm⟩ := hm
  have hex : ∃ row ∈ table, row.mnemonic = k.toList ∧ row.slots = [.vx, .nn] := by
    have hall : ∀ k ∈ ["se", "sne", "ld", "add", "rnd"], ∃ row ∈ table, row.mnemonic = k.toList ∧
        row.slots = [.vx, .nn] := by decide
    exact hall k hk
  obtain ⟨row, hr, hmn, hsl⟩ := hex
  refine .eightBit (row := row) (f := f) ⟨hr, by rw [hmn]; exact hm, ?_⟩ (by rw [hsl]; simp) (by simp) hd hn
  rw [hsl]
  exact .cons .vx (.cons hs .nil)

example : fromMnemonicAndParameters "rnd".toList [.generalPurposeRegister 1, .identifier "x".toList] [("x".toList, 300)] =
    .error (.expectingEightBitValue 300) :=
  C23_byte _ _ ⟨"rnd", by decide, by decide⟩ 1 _ 300 (Denotes.label (v := 300) (by decide)) (by decide)

/-- C23: a nibble operand above 15, given directly or by a label, is an error that reports it. -/
theorem C23_nibble (labels : LabelMap) (m : Str) (hm : SameWord m "drw".toList) (r s : U8) (f : Field) (n : Nat)
    (hd : Denotes labels f n) (hn : 15 < n) :
    fromMnemonicAndParameters m [.generalPurposeRegister r, .generalPurposeRegister s, f] labels
      = .error (.expectingFourBitValue n) := by
  rw [from_error_iff]
  have hs : Shape .n f := by cases hd <;> constructor
  exact .fourBit (row := ⟨"Dxyn".toList, "drw".toList, [.vx, .vy, .n]⟩) (f := f)
    ⟨by decide, hm, .cons .vx (.cons .vy (.cons hs .nil))⟩ (by simp) (by simp) hd hn

example : fromMnemonicAndParameters "DRW".toList
    [.generalPurposeRegister 1, .generalPurposeRegister 2, .identifier "x".toList] [("x".toList, 16)] =
    .error (.expectingFourBitValue 16) :=
  C23_nibble _ _ (by decide) 1 2 _ 16 (Denotes.label (v := 16) (by decide)) (by decide)

/-- C23: no instruction assembles with a value other than the one given: the value of every literal or label
operand is the low 12, 8 or 4 bits of the instruction word. -/
theorem C23_value (labels : LabelMap) (m : Str) (fields : List Field) (op : Opcode) (w : U16)
    (h : fromMnemonicAndParameters m fields labels = .ok op) (hw : op.asInstruction = .ret w)
    (f : Field) (hf : f ∈ fields) (n : Nat) (hd : Denotes labels f n) :
    ∃ row, Selects row m fields ∧
      ((.addr ∈ row.slots ∧ w.toNat % 4096 = n) ∨ (.nn ∈ row.slots ∧ w.toNat % 256 = n) ∨
       (.n ∈ row.slots ∧ w.toNat % 16 = n)) := by
  obtain ⟨row, hr, v, hm, hfit, _, he⟩ := encodes_iff.1 ⟨op, h, hw⟩
  have hlt : n < 4096 := by
    obtain ⟨_, a, rfl, _⟩ := denotes_isValue hd
    exact a.isLt
  have ht := template_value v row hr
  refine ⟨row, ⟨hr, hm, ?_⟩, ?_⟩
  · exact fitsAll_shapeAll hfit
  · rcases encodes_value hfit hf hd with ⟨h1, rfl⟩ | ⟨h1, rfl, h2⟩ | ⟨h1, rfl, h2⟩
    · exact .inl ⟨h1, by rw [he]; exact ht.1 h1 hlt⟩
    · exact .inr (.inl ⟨h1, by rw [he]; exact ht.2.1 h1 h2⟩)
    · exact .inr (.inr ⟨h1, by rw [he]; exact ht.2.2 h1 h2⟩)

example : Denotes [("x".toList, 300)] (.identifier "x".toList) 300 := Denotes.label (v := 300) (by decide)

/-- C24: an instruction of the right form using an undefined label fails with an error naming it. -/
theorem C24_undefined (labels : LabelMap) (m : Str) (fields : List Field) (row : Row) (name : Str)
    (hs : Selects row m fields) (hm : .identifier name ∈ fields) (hn : ∀ v, (name, v) ∉ labels) :
    fromMnemonicAndParameters m fields labels = .error (.unableToResolveLabel name) := by
  refine from_error_iff.2 (.unresolved hs hm ?_)
  cases hg : labels.get name with
  | none => rfl
  | some v =>
    obtain ⟨pre, post, rfl, _⟩ := (lookup_eq_some_iff labels name v).1 hg
    exact absurd (by simp) (hn v)

example : fromMnemonicAndParameters "jp".toList [.identifier "x".toList] [("y".toList, 3)] =
    .error (.unableToResolveLabel "x".toList) :=
  C24_undefined _ _ _ ⟨"1nnn".toList, "jp".toList, [.addr]⟩ _ ⟨by decide, by decide, .cons .addrId .nil⟩ (by simp)
    (by intro v h; simp at h)

/-- C24: conversely an accepted instruction has all its labels defined, under exactly that spelling, and is the
one with their values in their place (by `C22_label_for_literal`). -/
theorem C24_defined (labels : LabelMap) (m : Str) (fields : List Field) (op : Opcode)
    (h : fromMnemonicAndParameters m fields labels = .ok op) (name : Str) (hm : .identifier name ∈ fields) :
    ∃ v, labels.get name = some v ∧ (name, v) ∈ labels := by
  cases hg : labels.get name with
  | none =>
    obtain ⟨row, hr, hmn, hs⟩ := selectsB_spec (rawMatch_selects (labels := labels) (m := toLowercase m)
      (fields := fields) (by rw [from_ok_iff.1 h]; simp))
    have := from_error_iff.2 (.unresolved (labels := labels) (row := row) (mnemonic := m)
      ⟨hr, (sameWord_row hr).2 hmn.symm, hs⟩ hm hg)
    rw [h] at this
    cases this
  | some v =>
    obtain ⟨pre, post, rfl, _⟩ := (lookup_eq_some_iff labels name v).1 hg
    exact ⟨v, rfl, by simp⟩

example : ∃ v, LabelMap.get [("x".toList, 3)] "x".toList = some v ∧ ("x".toList, v) ∈ [("x".toList, (3 : U12))] :=
  C24_defined _ "jp".toList [.identifier "x".toList] (.JP 3) rfl _ (by simp)

/-- C24: lookup is by exact spelling; the first entry with that spelling counts. -/
theorem C24_lookup (labels : LabelMap) (name : Str) (v : U12) :
    labels.get name = some v ↔ ∃ pre post, labels = pre ++ (name, v) :: post ∧ ∀ p ∈ pre, p.1 ≠ name :=
  lookup_eq_some_iff labels name v

example : fromMnemonicAndParameters "jp".toList [.identifier "Loop".toList] [("loop".toList, 0x200)]
    = .error (.unableToResolveLabel "Loop".toList) := rfl

end C8S
