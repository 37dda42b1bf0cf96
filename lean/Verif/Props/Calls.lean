import Verif.Proofs.Calls
import Verif.Proofs.Unread
import Verif.Props.Stream
import Verif.Props.Parser

/- Property C90: how often the parser calls its iterator. A budget of calls makes that visible: with the budget, the
parser returns what it returns without; with any smaller one, the iterator panics. -/

namespace C8S

open Spec

/-- C90: to accept its tokens, the parser calls the iterator two times more than there are tokens. -/
theorem C90_accepted {σ : Type} (next : σ → Run (Option Token × σ)) (s : σ) (tokens : List Token) (fuel : Nat) (nodes : List Node)
    (h : Yields next s tokens) (hf : tokens.length < fuel) (hp : Program tokens nodes) (k : Nat) :
    parseStream (limited next) fuel (s, k) = if tokens.length + 2 ≤ k then .ret (.ok nodes) else .panic :=
  Stream.stream_calls h (fun {_} ha => Stream.program_calls (program_outcome hp) fuel [] rfl ha hf) k

def callsSample : List Token :=
  [.identifier "a".toList ⟨"f".toList, 1, 1, 1⟩, .labelMarker ⟨"f".toList, 1, 2, 1⟩, .identifier "ret".toList ⟨"f".toList, 1, 4, 3⟩,
    .newline ⟨"f".toList, 1, 7, 1⟩]

example : parseStream (limited listNext) 5 (callsSample, 6) =
      .ret (.ok [.label ⟨"f".toList, 1, 1, 1⟩ "a".toList, .instruction ⟨"f".toList, 1, 4, 3⟩ "ret".toList []]) ∧
    parseStream (limited listNext) 5 (callsSample, 5) = .panic := by
  have hp := (parse_ok_iff callsSample _).1 (by rfl)
  exact ⟨C90_accepted _ _ _ _ _ (listNext_yields _) (by decide) hp 6, C90_accepted _ _ _ _ _ (listNext_yields _) (by decide) hp 5⟩

/-- C90: to reject its tokens at a token, the parser calls the iterator for the tokens before that one, for it, and once more;
if it wanted the name of a directive, twice more. Whatever follows in the text has not been scanned. -/
theorem C90_rejected {σ : Type} (next : σ → Run (Option Token × σ)) (s : σ) (tokens : List Token) (fuel : Nat) (names : List Str)
    (t : Token) (h : Yields next s tokens) (hf : tokens.length < fuel)
    (he : parse tokens = .ret (.error (.unexpectedToken names t))) :
    ∃ pre post, tokens = pre ++ t :: post ∧ Completable pre ∧ ¬ Completable (pre ++ [t]) ∧
      ∀ k, parseStream (limited next) fuel (s, k) =
        if pre.length + 2 + nameMissing names ≤ k then .ret (.error (.unexpectedToken names t)) else .panic := by
  obtain ⟨pre, hpos, ⟨⟨post, hpost⟩, hno⟩, ⟨ext, ns, hok⟩, _, _⟩ := outcome_position ((parse_iff _ _).1 he) rfl
  refine ⟨pre, post, hpost, ⟨ext, ns, (parse_ok_iff _ _).1 ((parse_iff _ _).2 hok)⟩, ?_, ?_⟩
  · rintro ⟨ext', ns', hp⟩
    rw [List.append_assoc] at hp
    have h1 := (parse_iff _ _).2 (hno ext')
    have h2 := (parse_ok_iff _ _).2 hp
    simp only [List.singleton_append] at h2
    rw [h1] at h2
    cases h2
  · intro k
    obtain ⟨e, ho, hc⟩ := Stream.error_calls (next := next) hpos
    cases outcome_unique ho ((parse_iff _ _).1 he)
    have := Stream.stream_calls h (fun {_} ha => hc fuel [] ha hf) k
    rw [this]
    have hx : Stream.extra (.unexpectedToken names t) = nameMissing names := rfl
    rw [hx, Nat.add_right_comm]

/-- Rejected is the first token; the parser has fetched the second one, and none of the endlessly many others. -/
example : ∀ k, parseStream (limited listNext) 3 ([.comma ⟨[], 1, 1, 1⟩, .comma ⟨[], 1, 2, 1⟩], k) =
    if 2 ≤ k then .ret (.error (.unexpectedToken ["directive marker".toList, "identifier".toList] (.comma ⟨[], 1, 1, 1⟩)))
    else .panic := by
  obtain ⟨pre, post, h1, h2, h3, h4⟩ := C90_rejected listNext _ [.comma ⟨[], 1, 1, 1⟩, .comma ⟨[], 1, 2, 1⟩] 3
    ["directive marker".toList, "identifier".toList] (.comma ⟨[], 1, 1, 1⟩) (listNext_yields _) (by decide) rfl
  cases pre with
  | nil => exact h4
  | cons a p =>
    simp only [List.cons_append, List.cons.injEq] at h1
    obtain ⟨rfl, h1⟩ := h1
    cases p with
    | nil => simp at h1
    | cons b p => simp at h1

/-- C90: at the end of the tokens, the same holds with the end in place of the rejected token. -/
theorem C90_end {σ : Type} (next : σ → Run (Option Token × σ)) (s : σ) (tokens : List Token) (fuel : Nat) (names : List Str)
    (h : Yields next s tokens) (hf : tokens.length < fuel) (he : parse tokens = .ret (.error (.unexpectedEndOfFile names))) (k : Nat) :
    parseStream (limited next) fuel (s, k) =
      if tokens.length + 2 + nameMissing names ≤ k then .ret (.error (.unexpectedEndOfFile names)) else .panic := by
  obtain ⟨pre, hpos, rfl, _⟩ := outcome_position ((parse_iff _ _).1 he) rfl
  obtain ⟨e, ho, hc⟩ := Stream.error_calls (next := next) hpos
  cases outcome_unique ho ((parse_iff _ _).1 he)
  have := Stream.stream_calls h (fun {_} ha => hc fuel [] ha hf) k
  rw [this]
  have hx : Stream.extra (.unexpectedEndOfFile names) = nameMissing names := rfl
  rw [hx, Nat.add_right_comm]

example : parseStream (limited listNext) 2 ([.directiveMarker ⟨[], 1, 1, 1⟩], 4) =
      .ret (.error (.unexpectedEndOfFile ["identifier".toList])) ∧
    parseStream (limited listNext) 2 ([.directiveMarker ⟨[], 1, 1, 1⟩], 3) = .panic :=
  ⟨C90_end _ _ [.directiveMarker ⟨[], 1, 1, 1⟩] 2 _ (listNext_yields _) (by decide) rfl 4,
    C90_end _ _ [.directiveMarker ⟨[], 1, 1, 1⟩] 2 _ (listNext_yields _) (by decide) rfl 3⟩

/-- C90: nothing but the answers to the calls matters. Two iterators with the same answers to the first `k` calls are parsed
alike if `k` calls suffice for one of them; whether they end, and what they do from then on, is of no importance. -/
theorem C90_unread {σ τ : Type} (next : σ → Run (Option Token × σ)) (next' : τ → Run (Option Token × τ)) (s : σ) (s' : τ)
    (fuel k : Nat) (out : Except ParseError (List Node)) (answers : List (Option Token)) (h : pulls next k s = .ret answers)
    (h' : pulls next' k s' = .ret answers) (ho : parseStream (limited next) fuel (s, k) = .ret out) :
    parseStream next' fuel s' = .ret out :=
  Stream.stream_sim ⟨answers, h, h'⟩ ho

/-- An iterator that yields so many commas, and panics at the next call. -/
def manyCommas : Nat → Run (Option Token × Nat)
  | 0 => .panic
  | n + 1 => .ret (some (.comma ⟨[], 1, 1, 1⟩), n)

example : parseStream manyCommas 3 2 =
    .ret (.error (.unexpectedToken ["directive marker".toList, "identifier".toList] (.comma ⟨[], 1, 1, 1⟩))) :=
  C90_unread listNext manyCommas [.comma ⟨[], 1, 1, 1⟩, .comma ⟨[], 1, 1, 1⟩] 2 3 2 _ _ rfl rfl rfl

end C8S
