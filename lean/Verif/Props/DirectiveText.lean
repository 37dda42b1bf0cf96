import Verif.Proofs.DirectiveText

/- C102: the texts of directives. -/

namespace C8S

open Spec

/-- C102: the text of a directive, on a line of its own, reads as a directive that means the same exactly when it is a
`.org` or `.equ` with a number of three digits. -/
theorem C102_read_back [Target] (d : Directive) :
    (∃ l s xs, Statements (d.display ++ "\n".toList) [.directive l s xs] ∧ DirectiveMeans s xs d) ↔
      ∃ v : U12, (d = .org v ∨ d = .equ v) ∧ 256 ≤ v.toNat := by
  constructor
  · rintro ⟨l, s, xs, h, -⟩
    obtain ⟨ts, hc, -⟩ := statements_cut h
    cases d with
    | org v =>
      refine ⟨v, .inl rfl, Nat.le_of_not_lt fun hv => number_uncut (bin := wordBinary) (rest := ['\n']) (ts := ts) org_name hv ?_⟩
      simpa [Directive.display, DirectiveNames.org] using hc
    | equ v =>
      refine ⟨v, .inr rfl, Nat.le_of_not_lt fun hv => number_uncut (bin := wordBinary) (rest := ['\n']) (ts := ts) equ_name hv ?_⟩
      simpa [Directive.display, DirectiveNames.equ] using hc
    | db bytes =>
      refine (bytes_uncut (bin := wordBinary) (rest := " bytes]\n".toList) (n := bytes.length) (ts := ts) ?_).elim
      simpa [Directive.display, DirectiveNames.db] using hc
  · rintro ⟨v, hd, hv⟩
    have key : ∀ s : Str, IsName s → ∃ l, Statements
        ('.' :: (s ++ ' ' :: ('$' :: padLeft ' ' 3 (showHexUpper v.toNat) ++ ['\n']))) [.directive l s [.numeric v.toNat]] := by
      intro s hs
      obtain ⟨ns, h, e⟩ := hasCut_statements (number_cut hs v.isLt hv)
      obtain ⟨n, ns', rfl, e1, e2⟩ := List.map_eq_cons_iff.1 e
      obtain ⟨l, rfl⟩ := bareNode_directive e1
      cases List.map_eq_nil_iff.1 e2
      exact ⟨l, h⟩
    rcases hd with rfl | rfl
    · obtain ⟨l, h⟩ := key _ org_name
      exact ⟨l, _, _, by simpa [Directive.display, DirectiveNames.org] using h, .org v (by decide)⟩
    · obtain ⟨l, h⟩ := key _ equ_name
      exact ⟨l, _, _, by simpa [Directive.display, DirectiveNames.equ] using h, .equ v (by decide)⟩

example : ∃ l s xs, Statements ".org $2A0\n".toList [.directive l s xs] ∧ DirectiveMeans s xs (.org 0x2A0) :=
  (C102_read_back (.org 0x2A0)).2 ⟨0x2A0, .inl rfl, by decide⟩

/-- C102: the text of any other directive is refused, whatever follows it. -/
theorem C102_rejected [Target] (d : Directive) (h : ¬ ∃ v : U12, (d = .org v ∨ d = .equ v) ∧ 256 ≤ v.toNat) (rest : Str)
    (nodes : List Node) : ¬ Statements (d.display ++ rest) nodes := by
  intro hs
  obtain ⟨ts, hc, -⟩ := statements_cut hs
  cases d with
  | org v =>
    refine number_uncut (rest := rest) (n := v.toNat) (ts := ts) org_name
      (Nat.lt_of_not_le fun hv => h ⟨v, .inl rfl, hv⟩) (bin := wordBinary) ?_
    simpa [Directive.display, DirectiveNames.org] using hc
  | equ v =>
    refine number_uncut (rest := rest) (n := v.toNat) (ts := ts) equ_name
      (Nat.lt_of_not_le fun hv => h ⟨v, .inr rfl, hv⟩) (bin := wordBinary) ?_
    simpa [Directive.display, DirectiveNames.equ] using hc
  | db bytes =>
    refine bytes_uncut (bin := wordBinary) (rest := " bytes]".toList ++ rest) (n := bytes.length) (ts := ts) ?_
    simpa [Directive.display, DirectiveNames.db] using hc

example (rest : Str) (nodes : List Node) : ¬ Statements (".org $ 20".toList ++ rest) nodes :=
  C102_rejected (.org 0x20) (by
    rintro ⟨v, h | h, hv⟩ <;> cases h
    exact absurd hv (by decide)) rest nodes

example (rest : Str) (nodes : List Node) : ¬ Statements (".db [2 bytes]".toList ++ rest) nodes :=
  C102_rejected (.db [1, 2]) (by rintro ⟨v, h | h, hv⟩ <;> cases h) rest nodes

/-- C102: directives have the same text exactly when they are the same, or emit equally many bytes. -/
theorem C102_same (d d' : Directive) : d.display = d'.display ↔
    d = d' ∨ ∃ bytes bytes', d = .db bytes ∧ d' = .db bytes' ∧ bytes.length = bytes'.length := by
  constructor
  · intro h
    cases d <;> cases d' <;> simp [Directive.display, DirectiveNames.org, DirectiveNames.equ, DirectiveNames.db] at h
    · exact .inl (by rw [padded_inj h])
    · exact .inr ⟨_, _, rfl, rfl, showDec_inj h⟩
    · exact .inl (by rw [padded_inj h])
  · rintro (rfl | ⟨b, b', rfl, rfl, e⟩)
    · rfl
    · simp only [Directive.display, e]

example : (Directive.db [1, 2]).display = (Directive.db [3, 4]).display :=
  (C102_same _ _).2 (.inr ⟨_, _, rfl, rfl, rfl⟩)

end C8S
