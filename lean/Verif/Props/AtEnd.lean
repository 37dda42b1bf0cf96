import Verif.Proofs.AtEnd

/- Property C95: when the tokenizer says that it is at the end. -/

namespace C8S

open Spec

/-- C95: a new tokenizer is at the end exactly if the text is empty. -/
theorem C95_start (file text : Str) : (Scanner.new file text).isAtEnd = true ↔ text = [] := (at_new file text).isAtEnd

example : (Scanner.new "f".toList " ".toList).isAtEnd = false := by decide +kernel

/-- C95: at the end, there is no further token, and the tokenizer stays as it is. -/
theorem C95_at_end [Target] (file text : Str) (s : Scanner) (h : Visits file text s) (he : s.isAtEnd = true) :
    s.nextToken = .ret (none, s) :=
  nextToken_stopped ((atEnd_iff h).1 he)

example : Visits "f".toList "a".toList ⟨"f".toList, "a".toList, 1, 1, 2⟩ ∧
    (⟨"f".toList, "a".toList, 1, 1, 2⟩ : Scanner).isAtEnd = true :=
  ⟨.next (t := some (.identifier "a".toList ⟨"f".toList, 1, 1, 1⟩)) .start (by decide +kernel), by decide +kernel⟩

/-- C95: when there is no further token, or the token is an error, the tokenizer is at the end. -/
theorem C95_ends [Target] (file text : Str) (s s' : Scanner) (t : Option Token) (h : Visits file text s)
    (hn : s.nextToken = .ret (t, s')) (ht : t = none ∨ ∃ e l, t = some (.error e l)) : s'.isAtEnd = true := by
  refine (atEnd_iff (.next h hn)).2 ?_
  rcases ht with ht | ⟨e, l, ht⟩
  · exact ((visits_next h hn).1 ht).1
  · exact (visits_next h hn).2 e l ht

/-- An error in the middle of the text. -/
example : ((Scanner.new "f".toList "é cls".toList).nextToken).bind (fun p => .ret p.2.isAtEnd) = .ret true := by
  decide +kernel

/-- C95: if the text does not end in a blank, the tokenizer is at the end exactly if there is no further token. -/
theorem C95_exact [Target] (file text : Str) (s : Scanner) (h : Visits file text s) (hl : ∀ c, text.getLast? = some c → ¬ Blank c) :
    s.isAtEnd = true ↔ ∃ s', s.nextToken = .ret (none, s') := by
  refine ⟨fun he => ⟨s, C95_at_end file text s h he⟩, ?_⟩
  rintro ⟨s', hn⟩
  refine Classical.byContradiction fun he => ?_
  have hb := (visits_bounded h).1
  have h1 := hb.2.1
  rw [← hb.1] at h1
  have hne : s.position ≠ byteLen s.input := fun e => he ((atEnd_iff h).2 e)
  obtain ⟨before, rest, rfl, hr, hall⟩ := ((visits_next h hn).1 rfl).2 (by omega)
  refine hl (rest.getLast hr) ?_ (hall _ (List.getLast_mem hr))
  rw [List.getLast?_append, List.getLast?_eq_some_getLast hr]
  rfl

/-- With a blank at the end of the text, there may be no further token although the tokenizer is not at the end. -/
theorem C95_trailing_blank : ∃ file text s s', Visits file text s ∧ s.isAtEnd = false ∧ s.nextToken = .ret (none, s') :=
  ⟨"f".toList, " ".toList, _, ⟨"f".toList, " ".toList, 1, 1, 2⟩, .start, by decide +kernel, by decide +kernel⟩

example : Visits "f".toList "a\n".toList (Scanner.new "f".toList "a\n".toList) ∧
    ∀ c, "a\n".toList.getLast? = some c → ¬ Blank c := by
  refine ⟨.start, ?_⟩
  intro c hc
  cases hc
  unfold Blank
  decide

end C8S
