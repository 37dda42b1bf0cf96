import Verif.Proofs.Operand

/-
Properties C16 and C17: identifier operands.
-/

namespace C8S

open Spec Parser

/-- How an identifier operand is observed through the parser: as the only operand of an instruction. -/
theorem parse_operand (m name : Str) (l1 l2 l3 : Loc) :
    parse [.identifier m l1, .identifier name l2, .newline l3] =
      match fieldOfIdentifier name with
      | .panic => .panic
      | .ret f => .ret (.ok [.instruction l1 m [f]]) := by
  cases h : fieldOfIdentifier name <;>
  simp [parse, parseStatementList, Parser.new, parseStatement, parseInstruction, parseIdentifier, consumeToken,
    parseFieldList, parseField, h]

/-- C17: an identifier operand is classified exactly as documented, and classification never panics. -/
theorem C17_operand_iff (m name : Str) (l1 l2 l3 : Loc) (f : Field) :
    parse [.identifier m l1, .identifier name l2, .newline l3] = .ret (.ok [.instruction l1 m [f]]) ↔
      OperandOf name f := by
  rw [parse_operand, ← operandOf_iff]
  cases h : fieldOfIdentifier name with
  | panic => simp
  | ret g => simp

example (l : Loc) : parse [.identifier "jp".toList l, .identifier "Va".toList l, .newline l] =
    .ret (.ok [.instruction l "jp".toList [.generalPurposeRegister 10]]) :=
  (C17_operand_iff _ _ _ _ _ _).2 (.register (.general (.inr rfl) (by decide)))

/-- C17: there is always exactly one classification. -/
theorem C17_total (name : Str) : ∃ f, OperandOf name f ∧ ∀ g, OperandOf name g → g = f := by
  obtain ⟨f, h, _⟩ := fieldOfIdentifier_ret name
  refine ⟨f, (operandOf_iff name f).1 h, fun g hg => ?_⟩
  rw [(operandOf_iff name g).2 hg] at h
  injection h

example (f : Field) (h : OperandOf "Va".toList f) : f = .generalPurposeRegister 10 := by
  obtain ⟨g, _, hg⟩ := C17_total "Va".toList
  rw [hg _ h, hg _ (.register (.general (.inr rfl) (by decide)))]

/-- C17: general purpose registers are exactly `v` or `V` followed by one hexadecimal digit, the number. -/
theorem C17_register_iff (name : Str) (r : U8) :
    OperandOf name (.generalPurposeRegister r) ↔
      ∃ v c, name = [v, c] ∧ (v = 'v' ∨ v = 'V') ∧ HexDigit c r.toNat ∧ r.toNat ≤ 15 := by
  constructor
  · intro h
    cases h with
    | register h =>
      cases h with
      | special h =>
        have : ∀ p ∈ specialNames, ∀ r, p.2 ≠ .generalPurposeRegister r := by
          intro p hp r e
          simp only [specialNames, List.mem_cons, List.not_mem_nil, or_false] at hp
          rcases hp with rfl | rfl | rfl | rfl | rfl | rfl | rfl | rfl | rfl | rfl | rfl | rfl | rfl | rfl <;> cases e
        exact absurd rfl (this _ h r)
      | general hv hd => exact ⟨_, _, rfl, hv, hd, by have := hexDigit_lt hd; omega⟩
  · rintro ⟨v, c, rfl, hv, hd, _⟩
    exact .register (.general hv hd)

example : OperandOf "vF".toList (.generalPurposeRegister 15) ∧ ¬ OperandOf "v10".toList (.generalPurposeRegister 1) :=
  ⟨.register (.general (.inl rfl) (by decide)), fun h => by
    obtain ⟨_, _, h, _⟩ := (C17_register_iff _ _).1 h
    cases h⟩

/-- C17: every other name is a label reference with exactly that name. -/
theorem C17_label (name name' : Str) (h : OperandOf name (.identifier name')) :
    name' = name ∧ ∀ f, ¬ RegisterNamed name f := by
  cases h with
  | register h =>
    cases h with
    | special h =>
      simp only [specialNames, List.mem_cons, List.not_mem_nil, or_false, Prod.mk.injEq] at h
      simp at h
  | label h => exact ⟨rfl, h⟩

example : OperandOf "Va".toList (.generalPurposeRegister 10) := .register (.general (.inr rfl) (by decide))
example : OperandOf "[I]".toList .indexRegisterIndirect := .register (.special (by decide))
example : OperandOf "vg".toList (.identifier "vg".toList) := (operandOf_iff _ _).1 (by decide)
example : OperandOf "v10".toList (.identifier "v10".toList) := (operandOf_iff _ _).1 (by decide)

/-- C16, full claim: re-casing the name of a register names the same register. -/
def C16_claim : Prop :=
  ∀ (m name name' : Str) (l1 l2 l3 : Loc) (f : Field), SameLetters name name' → RegisterNamed name f →
    parse [.identifier m l1, .identifier name' l2, .newline l3] = .ret (.ok [.instruction l1 m [f]])

/-- C16 is false of the code: `Dt` is a label although `DT` is the delay timer. -/
theorem C16_claim_false : ¬ C16_claim := by
  intro h
  have := h [] "DT".toList "Dt".toList ⟨[], 1, 1, 1⟩ ⟨[], 1, 1, 1⟩ ⟨[], 1, 1, 1⟩ .delayTimer (by decide)
    (.special (by decide))
  rw [C17_operand_iff, ← operandOf_iff] at this
  exact absurd this (by decide)

theorem sameLetter_hexDigit {c d : Char} (h : SameLetter c d) {n : Nat} (hc : HexDigit c n) : HexDigit d n := by
  simp only [SameLetter, Capital, HexDigit] at *
  rcases h with rfl | h | h <;> omega

/-- C16, what holds: re-casing names the same register for every register except the delay and sound timers.
Missing: the mixed-case spellings of those two, for which the claim is false (`C16_claim_false`); these four
spellings are the only exceptions. -/
theorem C16_case_partial (m name name' : Str) (l1 l2 l3 : Loc) (f : Field) (hs : SameLetters name name')
    (hf : RegisterNamed name f) :
    parse [.identifier m l1, .identifier name' l2, .newline l3] = .ret (.ok [.instruction l1 m [f]]) ∨
      name' ∈ ["Dt".toList, "dT".toList, "St".toList, "sT".toList] ∧
      parse [.identifier m l1, .identifier name' l2, .newline l3]
        = .ret (.ok [.instruction l1 m [.identifier name']]) := by
  rw [parse_operand]
  cases hf with
  | @general v c r hv hd =>
    cases hs with
    | @cons _ v' _ _ h1 hs =>
    cases hs with
    | @cons _ c' _ _ h2 hs =>
    cases hs
    left
    have hv' : v' = 'v' ∨ v' = 'V' := by
      have e1 : ∀ x : Char, x = 'v' ↔ x.toNat = 118 := fun x => ⟨fun h => by rw [h]; rfl, fun h => char_ext h⟩
      have e2 : ∀ x : Char, x = 'V' ↔ x.toNat = 86 := fun x => ⟨fun h => by rw [h]; rfl, fun h => char_ext h⟩
      rw [e1, e2] at *
      simp only [SameLetter, Capital] at h1
      rcases h1 with rfl | h1 | h1 <;> omega
    rw [registerNamed_ret (.general hv' (sameLetter_hexDigit h2 hd))]
  | special h =>
    have one : ∀ {c : Char} {t : Str}, SameLetters [c] t → ∃ d, t = [d] ∧ SameLetter c d := by
      intro c t h; cases h with | cons h1 h => cases h; exact ⟨_, rfl, h1⟩
    have two : ∀ {c c' : Char} {t : Str}, SameLetters [c, c'] t →
        ∃ d d', t = [d, d'] ∧ SameLetter c d ∧ SameLetter c' d' := by
      intro c c' t h
      cases h with | cons h1 h => obtain ⟨d, rfl, h2⟩ := one h; exact ⟨_, _, rfl, h1, h2⟩
    have three : ∀ {c c' c'' : Char} {t : Str}, SameLetters [c, c', c''] t →
        ∃ d d' d'', t = [d, d', d''] ∧ SameLetter c d ∧ SameLetter c' d' ∧ SameLetter c'' d'' := by
      intro c c' c'' t h
      cases h with | cons h1 h => obtain ⟨d, d', rfl, h2, h3⟩ := two h; exact ⟨_, _, _, rfl, h1, h2, h3⟩
    have low : ∀ (c d : Char), 97 ≤ c.toNat → c.toNat ≤ 122 → SameLetter c d → d = c ∨ d.toNat = c.toNat - 32 := by
      intro c d h1 h2 h
      simp only [SameLetter, Capital] at h
      rcases h with rfl | h | h <;> first | exact .inl rfl | exact .inr (by omega)
    have upp : ∀ (c d : Char), 65 ≤ c.toNat → c.toNat ≤ 90 → SameLetter c d → d = c ∨ d.toNat = c.toNat + 32 := by
      intro c d h1 h2 h
      simp only [SameLetter, Capital] at h
      rcases h with rfl | h | h <;> first | exact .inl rfl | exact .inr (by omega)
    have oth : ∀ (c d : Char), c.toNat < 65 ∨ (90 < c.toNat ∧ c.toNat < 97) ∨ 122 < c.toNat → SameLetter c d → d = c := by
      intro c d h1 h
      simp only [SameLetter, Capital] at h
      rcases h with rfl | h | h <;> first | rfl | omega
    have lo : ∀ {c d : Char} (u : Char), 97 ≤ c.toNat → c.toNat ≤ 122 → u.toNat = c.toNat - 32 → SameLetter c d →
        d = c ∨ d = u := by
      intro c d u h1 h2 hu h
      exact (low c d h1 h2 h).imp_right fun e => char_ext (e.trans hu.symm)
    have up : ∀ {c d : Char} (u : Char), 65 ≤ c.toNat → c.toNat ≤ 90 → u.toNat = c.toNat + 32 → SameLetter c d →
        d = c ∨ d = u := by
      intro c d u h1 h2 hu h
      exact (upp c d h1 h2 h).imp_right fun e => char_ext (e.trans hu.symm)
    simp only [specialNames, List.mem_cons, List.not_mem_nil, or_false, Prod.mk.injEq] at h
    rcases h with ⟨rfl, rfl⟩ | ⟨rfl, rfl⟩ | ⟨rfl, rfl⟩ | ⟨rfl, rfl⟩ | ⟨rfl, rfl⟩ | ⟨rfl, rfl⟩ | ⟨rfl, rfl⟩ |
      ⟨rfl, rfl⟩ | ⟨rfl, rfl⟩ | ⟨rfl, rfl⟩ | ⟨rfl, rfl⟩ | ⟨rfl, rfl⟩ | ⟨rfl, rfl⟩ | ⟨rfl, rfl⟩
    · obtain ⟨d, d', rfl, h1, h2⟩ := two hs
      rcases lo 'D' (by decide) (by decide) (by decide) h1 with rfl | rfl <;>
        rcases lo 'T' (by decide) (by decide) (by decide) h2 with rfl | rfl <;>
        first
        | exact .inl rfl
        | exact .inr ⟨by decide, rfl⟩
    · obtain ⟨d, d', rfl, h1, h2⟩ := two hs
      rcases up 'd' (by decide) (by decide) (by decide) h1 with rfl | rfl <;>
        rcases up 't' (by decide) (by decide) (by decide) h2 with rfl | rfl <;>
        first
        | exact .inl rfl
        | exact .inr ⟨by decide, rfl⟩
    · obtain ⟨d, d', rfl, h1, h2⟩ := two hs
      rcases lo 'S' (by decide) (by decide) (by decide) h1 with rfl | rfl <;>
        rcases lo 'T' (by decide) (by decide) (by decide) h2 with rfl | rfl <;>
        first
        | exact .inl rfl
        | exact .inr ⟨by decide, rfl⟩
    · obtain ⟨d, d', rfl, h1, h2⟩ := two hs
      rcases up 's' (by decide) (by decide) (by decide) h1 with rfl | rfl <;>
        rcases up 't' (by decide) (by decide) (by decide) h2 with rfl | rfl <;>
        first
        | exact .inl rfl
        | exact .inr ⟨by decide, rfl⟩
    · obtain ⟨d, rfl, h1⟩ := one hs
      rcases lo 'I' (by decide) (by decide) (by decide) h1 with rfl | rfl <;> exact .inl rfl
    · obtain ⟨d, rfl, h1⟩ := one hs
      rcases up 'i' (by decide) (by decide) (by decide) h1 with rfl | rfl <;> exact .inl rfl
    · obtain ⟨d, d', d'', rfl, h1, h2, h3⟩ := three hs
      rw [oth _ _ (by decide) h1, oth _ _ (by decide) h3]
      rcases lo 'I' (by decide) (by decide) (by decide) h2 with rfl | rfl <;> exact .inl rfl
    · obtain ⟨d, d', d'', rfl, h1, h2, h3⟩ := three hs
      rw [oth _ _ (by decide) h1, oth _ _ (by decide) h3]
      rcases up 'i' (by decide) (by decide) (by decide) h2 with rfl | rfl <;> exact .inl rfl
    · obtain ⟨d, rfl, h1⟩ := one hs
      rcases lo 'K' (by decide) (by decide) (by decide) h1 with rfl | rfl <;> exact .inl rfl
    · obtain ⟨d, rfl, h1⟩ := one hs
      rcases up 'k' (by decide) (by decide) (by decide) h1 with rfl | rfl <;> exact .inl rfl
    · obtain ⟨d, rfl, h1⟩ := one hs
      rcases lo 'B' (by decide) (by decide) (by decide) h1 with rfl | rfl <;> exact .inl rfl
    · obtain ⟨d, rfl, h1⟩ := one hs
      rcases up 'b' (by decide) (by decide) (by decide) h1 with rfl | rfl <;> exact .inl rfl
    · obtain ⟨d, rfl, h1⟩ := one hs
      rcases lo 'F' (by decide) (by decide) (by decide) h1 with rfl | rfl <;> exact .inl rfl
    · obtain ⟨d, rfl, h1⟩ := one hs
      rcases up 'f' (by decide) (by decide) (by decide) h1 with rfl | rfl <;> exact .inl rfl

example : SameLetters "vA".toList "Va".toList ∧ RegisterNamed "vA".toList (.generalPurposeRegister 10) :=
  ⟨by decide, .general (.inl rfl) (by decide)⟩

end C8S
