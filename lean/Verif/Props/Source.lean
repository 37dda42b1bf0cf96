import Verif.Proofs.Source

/- Property C13: canonical source text. -/

namespace C8S

open Spec

/-- C13: the source text of any well-formed statements is tokenised and parsed back to them, but for locations. -/
theorem C13_round_trip [Target] (file : Str) (ns : List Node) (h : ∀ n ∈ ns, Formed n) :
    ∃ tokens ns', scan file (sourceText ns) = .ret tokens ∧ parse tokens = .ret (.ok ns') ∧
      ns'.map bareNode = ns.map bareNode := by
  obtain ⟨h1, h2⟩ := cut_source (bin := wordBinary) h
  obtain ⟨ts, h3, _, e⟩ := lex_of_cut h1 file []
  have hb : ∀ ms : List Node, (ms.map bareNode).map bareNode = ms.map bareNode := by
    intro ms
    rw [List.map_map]
    congr 1
    funext n
    cases n <;> rfl
  have ht : (ts.map bare).map bare = ts.map bare := by
    rw [List.map_map]
    congr 1
    funext t
    cases t <;> rfl
  rw [← e] at h2
  obtain ⟨ns', h4, h5⟩ := program_bare ht h2
  exact ⟨ts, ns', (scan_iff_lex _ _ _).2 h3, (parse_ok_iff _ _).2 h4, h5.trans (hb ns)⟩

example : sourceText [.label ⟨[], 3, 1, 4⟩ "loop".toList, .directive ⟨[], 4, 2, 2⟩ "db".toList [.numeric 7, .string "a\\\"".toList],
      .instruction ⟨[], 5, 1, 3⟩ "drw".toList [.generalPurposeRegister 11, .identifier "x".toList, .numericLiteral 4095]] =
    "loop:\n.db 7, \"a\\\"\"\ndrw vb, x, 4095\n".toList := by decide

/-- C13: whatever is parsed from a text is well-formed. -/
theorem C13_formed [Target] (file text : Str) (tokens : List Token) (ns : List Node) (hs : scan file text = .ret tokens)
    (hp : parse tokens = .ret (.ok ns)) : ∀ n ∈ ns, Formed n :=
  program_formed ((parse_ok_iff _ _).1 hp) (lexed_tokens ((scan_iff_lex _ _ _).1 hs))

example : Formed (.label ⟨[], 1, 1, 1⟩ "a".toList) :=
  C13_formed [] "a:".toList [.identifier "a".toList ⟨[], 1, 1, 1⟩, .labelMarker ⟨[], 1, 2, 1⟩] [.label ⟨[], 1, 1, 1⟩ "a".toList]
    (by decide +kernel) rfl _ (by simp)

/-- C13: every program can be brought to canonical form: parsed and written again, it has the same statements but for
locations, and the same output. -/
theorem C13_format [Target] (file text : Str) (tokens : List Token) (ns : List Node) (hs : scan file text = .ret tokens)
    (hp : parse tokens = .ret (.ok ns)) (bytes : List (Nat × U8)) :
    Describes wordBinary file text bytes ↔ Describes wordBinary file (sourceText ns) bytes := by
  have hf := C13_formed file text tokens ns hs hp
  obtain ⟨tokens', ns', hs', hp', e⟩ := C13_round_trip file ns hf
  rw [describes_iff, describes_iff]
  have hrun : ∀ {a b : List Node} {ranges : List DataRange}, a.map bareNode = b.map bareNode →
      assemble a = .ret (.ok ranges) → assemble b = .ret (.ok ranges) := by
    intro a b ranges e h
    have h1 := assemble_map nowhere h
    have h2 := assemble_run nowhere b
    rw [show b.map (nodeMap nowhere) = a.map (nodeMap nowhere) from e.symm, h1] at h2
    cases hb : assemble b with
    | panic =>
      rw [hb] at h2
      cases h2
    | ret out =>
      rw [hb] at h2
      cases out with
      | error _ => cases h2
      | ok r =>
        cases h2
        rfl
  constructor
  · rintro ⟨t, n, ranges, h1, h2, h3, h4⟩
    cases hs.symm.trans h1
    cases hp.symm.trans h2
    exact ⟨tokens', ns', ranges, hs', hp', hrun e.symm h3, h4⟩
  · rintro ⟨t, n, ranges, h1, h2, h3, h4⟩
    cases hs'.symm.trans h1
    cases hp'.symm.trans h2
    exact ⟨tokens, ns, ranges, hs, hp, hrun e h3, h4⟩

example : ∀ n ∈ [.label ⟨[], 3, 1, 4⟩ "loop".toList, .directive ⟨[], 4, 2, 2⟩ "db".toList [.numeric 7, .string "a\\\"".toList],
      .instruction ⟨[], 5, 1, 3⟩ "drw".toList [.generalPurposeRegister 11, .identifier "x".toList, .numericLiteral 4095]],
    Formed n := by
  have hx : ∀ f, ¬ RegisterNamed "x".toList f := by
    intro f h
    generalize e : "x".toList = s at h
    cases h with
    | special h =>
      subst e
      simp [specialNames] at h
    | general => simp at e
  simp only [List.forall_mem_cons, List.not_mem_nil, false_implies, implies_true, and_true, Formed, ArgumentFormed, OperandFormed]
  refine ⟨.inl ⟨_, _, rfl, by decide, by decide⟩, ⟨.inl ⟨_, _, rfl, by decide, by decide⟩, by decide, ?_⟩,
    .inl ⟨_, _, rfl, by decide, by decide⟩, by decide, .inl ⟨_, _, rfl, by decide, by decide⟩, hx⟩
  exact .plain (by decide) (by decide) (.escape (by decide) .nil)

end C8S
