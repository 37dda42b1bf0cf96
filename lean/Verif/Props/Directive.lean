import Verif.Proofs.Directive

/-
Properties C18, C19 (directive half) and C20.
-/

namespace C8S

open Spec

/-- C18: a directive is accepted exactly when it is valid, with the meaning the specification gives. -/
theorem C18_accepted_iff (name : Str) (args : List Literal) (d : Directive) :
    Directive.fromIdentifierAndParameters name args = .ok d ↔ DirectiveMeans name args d := by
  refine ⟨fun h => ?_, directive_means⟩
  rcases directive_total name args with ⟨d', h'⟩ | ⟨e, h'⟩
  · rw [directive_means h'] at h
    injection h with h
    exact h ▸ h'
  · rw [directive_fails h'] at h
    injection h

example : Directive.fromIdentifierAndParameters "OrG".toList [.numeric 0x200] = .ok (.org 0x200) ∧
    DirectiveMeans "OrG".toList [.numeric 0x200] (.org 0x200) := ⟨rfl, .org 0x200 (by decide)⟩

/-- C18: it is rejected with exactly the error the specification gives. -/
theorem C18_rejected_iff (name : Str) (args : List Literal) (e : DirectiveError) :
    Directive.fromIdentifierAndParameters name args = .error e ↔ DirectiveFails name args e := by
  refine ⟨fun h => ?_, directive_fails⟩
  rcases directive_total name args with ⟨d', h'⟩ | ⟨e, h'⟩
  · rw [directive_means h'] at h
    injection h
  · rw [directive_fails h'] at h
    injection h with h
    exact h ▸ h'

example : Directive.fromIdentifierAndParameters "db".toList [.numeric 1, .numeric 256] =
    .error (.allNumericParametersMustBeByteLiterals "db".toList 256) := rfl

/-- C18, in closed form: which argument lists are accepted. -/
theorem C18_valid_iff (name : Str) (args : List Literal) :
    (∃ d, Directive.fromIdentifierAndParameters name args = .ok d) ↔
      ((SameLetters name "org".toList ∨ SameLetters name "equ".toList) ∧ ∃ n, args = [.numeric n] ∧ n ≤ 0xFFF) ∨
      (SameLetters name "db".toList ∧ args ≠ [] ∧ ∀ n, .numeric n ∈ args → n ≤ 0xFF) := by
  have hall : ∀ args : List Literal, (∃ bytes, EmitsAll args bytes) ↔ ∀ n, .numeric n ∈ args → n ≤ 0xFF := by
    intro args
    constructor
    · rintro ⟨bytes, h⟩ n hn
      induction h with
      | nil => cases hn
      | @number b args bytes _ ih =>
        have := b.isLt
        rcases List.mem_cons.1 hn with h | h
        · injection h with h
          omega
        · exact ih h
      | string _ ih =>
        rcases List.mem_cons.1 hn with h | h
        · cases h
        · exact ih h
    · intro h
      rcases emitsAll_or_not args with h' | ⟨before, bytes, n, after, rfl, _, hn⟩
      · exact h'
      · have := h n (by simp)
        omega
  simp only [C18_accepted_iff]
  constructor
  · rintro ⟨d, h⟩
    cases h with
    | org a hn => exact .inl ⟨.inl hn, _, rfl, by have := a.isLt; omega⟩
    | equ a hn => exact .inl ⟨.inr hn, _, rfl, by have := a.isLt; omega⟩
    | db hn hne hb => exact .inr ⟨hn, hne, (hall args).1 ⟨_, hb⟩⟩
  · rintro (⟨hn, n, rfl, hle⟩ | ⟨hn, hne, hb⟩)
    · have e : (BitVec.ofNat 12 n).toNat = n := by rw [BitVec.toNat_ofNat]; omega
      rw [← e]
      rcases hn with hn | hn
      · exact ⟨_, .org (BitVec.ofNat 12 n) hn⟩
      · exact ⟨_, .equ (BitVec.ofNat 12 n) hn⟩
    · obtain ⟨bytes, hb⟩ := (hall args).2 hb
      exact ⟨_, .db hn hne hb⟩

example : DirectiveMeans "OrG".toList [.numeric 0x200] (.org 0x200) := .org 0x200 (by decide)
example : DirectiveMeans "db".toList [.numeric 255, .string "hé".toList, .numeric 0]
    (.db [255, 0x68, 0xC3, 0xA9, 0]) :=
  .db (by decide) (by simp) (.number (b := 255) (.string (s := "hé".toList) (.number (b := 0) .nil)))
example : DirectiveFails "db".toList [.numeric 1, .numeric 256, .numeric 300]
    (.allNumericParametersMustBeByteLiterals "db".toList 256) :=
  .dbByte (before := [.numeric 1]) (by decide) (.number (b := 1) .nil) (by decide)

/-- C19, directives: re-casing the name changes neither acceptance nor meaning. -/
theorem C19_directive (name name' : Str) (h : SameWord name name') (args : List Literal) (d : Directive) :
    Directive.fromIdentifierAndParameters name args = .ok d ↔
    Directive.fromIdentifierAndParameters name' args = .ok d := by
  have key : ∀ {n n' : Str}, SameWord n n' → DirectiveMeans n args d → DirectiveMeans n' args d := by
    intro n n' h hd
    cases hd with
    | org a hn => exact .org a ((h.symm.trans hn.word).letters (by decide))
    | equ a hn => exact .equ a ((h.symm.trans hn.word).letters (by decide))
    | db hn hne hb => exact .db ((h.symm.trans hn.word).letters (by decide)) hne hb
  rw [C18_accepted_iff, C18_accepted_iff]
  exact ⟨key h, key h.symm⟩

/-- C19, directives: so is the error, except that an unknown name is quoted. -/
theorem C19_directive_error (name name' : Str) (h : SameWord name name') (args : List Literal) (e : DirectiveError) :
    Directive.fromIdentifierAndParameters name args = .error e ↔
      (Directive.fromIdentifierAndParameters name' args = .error e ∧ ∀ k, e ≠ .unrecognizedDirective k) ∨
      (e = .unrecognizedDirective name ∧
        Directive.fromIdentifierAndParameters name' args = .error (.unrecognizedDirective name')) := by
  simp only [C18_rejected_iff]
  have canon : ∀ {c : Str}, c = "org".toList ∨ c = "equ".toList → ∀ x ∈ c, ¬ LetterK x := by
    rintro c (rfl | rfl) <;> decide
  have key : ∀ {n n' : Str} {e : DirectiveError}, SameWord n n' → DirectiveFails n args e →
      (DirectiveFails n' args e ∧ ∀ k, e ≠ .unrecognizedDirective k) ∨
        (e = .unrecognizedDirective n ∧ DirectiveFails n' args (.unrecognizedDirective n')) := by
    intro n n' e h hf
    cases hf with
    | count hc hn hl => exact .inl ⟨.count hc ((h.symm.trans hn.word).letters (canon hc)) hl, by simp⟩
    | string hc hn => exact .inl ⟨.string hc ((h.symm.trans hn.word).letters (canon hc)), by simp⟩
    | range hc hn hl => exact .inl ⟨.range hc ((h.symm.trans hn.word).letters (canon hc)) hl, by simp⟩
    | dbEmpty hn => exact .inl ⟨.dbEmpty ((h.symm.trans hn.word).letters (by decide)), by simp⟩
    | dbByte hn hb hl => exact .inl ⟨.dbByte ((h.symm.trans hn.word).letters (by decide)) hb hl, by simp⟩
    | unknown h1 h2 h3 =>
      exact .inr ⟨rfl, .unknown (fun hn => h1 ((h.trans hn.word).letters (by decide)))
        (fun hn => h2 ((h.trans hn.word).letters (by decide))) (fun hn => h3 ((h.trans hn.word).letters (by decide)))⟩
  constructor
  · exact key h
  · rintro (⟨hf, hne⟩ | ⟨rfl, hf⟩)
    · rcases key h.symm hf with h' | h'
      · exact h'.1
      · exact absurd h'.1 (hne _)
    · rcases key h.symm hf with h' | h'
      · exact absurd rfl (h'.2 _)
      · exact h'.2

example : Directive.fromIdentifierAndParameters "Equ".toList [] = .error (.incorrectNumberOfParameters "equ".toList 0 1 false) ∧
    Directive.fromIdentifierAndParameters "Eq".toList [] = .error (.unrecognizedDirective "Eq".toList) ∧
    Directive.fromIdentifierAndParameters "eQ".toList [] = .error (.unrecognizedDirective "eQ".toList) := ⟨rfl, rfl, rfl⟩

example : SameLetters "oRg".toList "ORG".toList := by decide

/-- C20: an accepted `.db` emits exactly the bytes of its arguments; its declared size is their number. -/
theorem C20_db (name : Str) (hname : SameLetters name "db".toList) (args : List Literal) (d : Directive)
    (h : Directive.fromIdentifierAndParameters name args = .ok d) :
    EmitsAll args d.intoVec ∧ d.size = d.intoVec.length := by
  rw [C18_accepted_iff] at h
  cases h with
  | org a hn => exact (sameLetters_excl hname hn (by decide)).elim
  | equ a hn => exact (sameLetters_excl hname hn (by decide)).elim
  | db hn hne hb => exact ⟨hb, rfl⟩

example : EmitsAll [.string "a".toList, .numeric 7] [0x61, 7] :=
  (C20_db "Db".toList (by decide) [.string "a".toList, .numeric 7] (.db [0x61, 7]) rfl).1

/-- C20: `EmitsAll` determines the bytes, so the emitted bytes are a function of the arguments. -/
theorem C20_bytes_unique (args : List Literal) (bytes bytes' : List U8) (h : EmitsAll args bytes)
    (h' : EmitsAll args bytes') : bytes = bytes' := by
  have e := (dbLoop_ok (acc := []) h).symm.trans (dbLoop_ok h')
  simpa using e

example (bytes : List U8) (h : EmitsAll [.numeric 7, .string "é".toList] bytes) : bytes = [7, 0xC3, 0xA9] :=
  C20_bytes_unique _ _ _ h (C20_db "db".toList (by decide) _ (.db [7, 0xC3, 0xA9]) rfl).1

/-- C20: the other directives emit nothing and have size 0. -/
theorem C20_others (name : Str) (args : List Literal) (d : Directive)
    (h : Directive.fromIdentifierAndParameters name args = .ok d) (hn : ¬ SameLetters name "db".toList) :
    d.intoVec = [] ∧ d.size = 0 := by
  rw [C18_accepted_iff] at h
  cases h with
  | org a _ => exact ⟨rfl, rfl⟩
  | equ a _ => exact ⟨rfl, rfl⟩
  | db h _ _ => exact absurd h hn

example : (Directive.org 0x200).intoVec = [] :=
  (C20_others "org".toList [.numeric 0x200] _ rfl (by decide)).1

example : Directive.fromIdentifierAndParameters "DB".toList [.string "a\n".toList, .numeric 7]
    = .ok (.db [0x61, 0x0A, 7]) := rfl

end C8S
