import Verif.Proofs.Stream
import Verif.Props.Scanner

/- Property C68: the parser pulls its tokens from an iterator. -/

namespace C8S

open Spec

local instance decEqParsed {α β : Type} [DecidableEq α] [DecidableEq β] : DecidableEq (Except α β)
  | .ok a, .ok b => if h : a = b then isTrue (by rw [h]) else isFalse (fun e => h (Except.ok.inj e))
  | .error a, .error b => if h : a = b then isTrue (by rw [h]) else isFalse (fun e => h (Except.error.inj e))
  | .ok _, .error _ => isFalse (fun e => nomatch e)
  | .error _, .ok _ => isFalse (fun e => nomatch e)

/-- C68: parsing the tokens of any iterator that ends, pulling them one at a time, gives what parsing their list
gives. In particular it returns. -/
theorem C68_iterator {σ : Type} (next : σ → Run (Option Token × σ)) (s : σ) (tokens : List Token) (fuel : Nat)
    (h : Yields next s tokens) (hf : tokens.length < fuel) : parseStream next fuel s = parse tokens :=
  Stream.parseStream_eq s tokens fuel h hf

/-- An iterator over a list. -/
def listNext : List Token → Run (Option Token × List Token)
  | [] => .ret (none, [])
  | t :: ts => .ret (some t, ts)

theorem listNext_yields (tokens : List Token) : Yields listNext tokens tokens := by
  intro n
  induction n generalizing tokens with
  | zero => rfl
  | succ n ih =>
    cases tokens with
    | nil =>
      have := ih []
      simp only [List.map_nil, List.nil_append, List.take_replicate, Nat.min_self] at this
      simp [pulls, listNext, this, List.replicate_succ]
    | cons t ts =>
      have := ih ts
      simp only [pulls, listNext, Run.ret_bind, this, Run.pure_eq]
      rw [List.map_cons, List.cons_append, List.take_succ_cons, List.replicate_succ', ← List.append_assoc,
        List.take_append_of_le_length (l₁ := ts.map some ++ List.replicate n none) (by simp)]

example : parseStream listNext 5 [.identifier "a".toList ⟨"f".toList, 1, 1, 1⟩, .labelMarker ⟨"f".toList, 1, 2, 1⟩] =
    .ret (.ok [.label ⟨"f".toList, 1, 1, 1⟩ "a".toList]) := by decide +kernel

theorem pulls_answers [Target] (n : Nat) (s : Scanner) : pulls Scanner.nextToken n s = answers n s := by
  induction n generalizing s with
  | zero => rfl
  | succ n ih => simp only [pulls, answers, ih]

/-- C68: the scanner ends after its last token, as an iterator. -/
theorem C68_scanner [Target] (file text : Str) (tokens : List Token) (h : scan file text = .ret tokens) :
    Yields Scanner.nextToken (Scanner.new file text) tokens := by
  intro n
  rw [pulls_answers]
  exact C08_fused file text tokens h n

/-- C68: scanning and parsing interleaved, as the tool does, is scanning first and parsing then. -/
theorem C68_interleaved [Target] (file text : Str) (fuel : Nat) (hf : text.length < fuel) :
    ∃ tokens, scan file text = .ret tokens ∧
      parseStream Scanner.nextToken fuel (Scanner.new file text) = parse tokens := by
  obtain ⟨tokens, h, hl⟩ := C01_total file text
  exact ⟨tokens, h, C68_iterator _ _ _ _ (C68_scanner file text tokens h) (by omega)⟩

example : parseStream Scanner.nextToken 100 (Scanner.new "f".toList "a: ld v0, $1 ; x\n".toList) =
    .ret (.ok [.label ⟨"f".toList, 1, 1, 1⟩ "a".toList,
      .instruction ⟨"f".toList, 1, 4, 2⟩ "ld".toList [.generalPurposeRegister 0, .numericLiteral 1]]) := by decide +kernel

example : parseStream Scanner.nextToken 100 (Scanner.new "f".toList ".".toList) =
    .ret (.error (.unexpectedEndOfFile ["identifier".toList])) := by decide +kernel

end C8S
