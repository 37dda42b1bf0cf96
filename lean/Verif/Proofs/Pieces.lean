import Verif.Proofs.LexFacts
import Verif.Spec.Pieces
import Verif.Spec.Calls

/- The pieces of text of a token stream. -/

namespace C8S

open Spec

variable {bin : Str → Nat}

/-- The value of a numeric token for a given reading of binary digits. -/
def valueWith (bin : Str → Nat) : Str → Nat
  | '%' :: d => bin d
  | p => numeralValue p

theorem valueWith_true (p : Str) : valueWith trueBinary p = numeralValue p := by
  unfold valueWith
  split
  · rfl
  · rfl

theorem numeralValue_decimal {s : Str} (h : s ≠ []) (hs : ∀ d ∈ s, Decimal d) : numeralValue s = positional 10 s := by
  cases s with
  | nil => exact (h rfl).elim
  | cons c s =>
    obtain ⟨a1, a2, a3, a4, a5, a6, a7, a8, a9, a10, a11, _⟩ := dec_not_special (hs c List.mem_cons_self)
    unfold numeralValue
    split
    · rename_i e; simp at e; exact (a8 e.1).elim
    · rename_i e; simp at e; exact (a9 e.1).elim
    · rename_i e; simp at e; exact (a10 e.1).elim
    · rfl

theorem valueWith_decimal {s : Str} (h : s ≠ []) (hs : ∀ d ∈ s, Decimal d) : valueWith bin s = positional 10 s := by
  unfold valueWith
  split
  · exact absurd (hs '%' List.mem_cons_self) (by decide)
  · exact numeralValue_decimal h hs

theorem valueWith_hex {c : Char} {s : Str} (hc : c = '$' ∨ c = '#') : valueWith bin (c :: s) = positional 16 s := by
  rcases hc with rfl | rfl <;> rfl

theorem lexeme_written {s : Str} {k : Loc → Token} (h : Lexeme bin s k) (l : Loc) : Written (k l) s ∧
    (k l).location = l ∧ ∀ v l', k l = .numericLiteral v l' → v = valueWith bin s ∧ v ≤ 4095 := by
  cases h with
  | newline => simp [Written, Token.location]
  | comma => simp [Written, Token.location]
  | labelMarker => simp [Written, Token.location]
  | directiveMarker => simp [Written, Token.location]
  | comment h => simp [Written, Token.location]
  | name h1 h2 => simp [Written, Token.location]
  | indirect h => simp [Written, Token.location]
  | string h => simp [Written, Token.location]
  | @hex c s h1 h2 h3 h4 =>
    refine ⟨.inl ⟨c, s, rfl, h1, ?_, h3, h4⟩, rfl, ?_⟩
    · cases s with
      | nil => exact (h2 rfl).elim
      | cons _ _ => simp
    · intro v l' e
      simp only [Token.numericLiteral.injEq] at e
      rw [← e.1, valueWith_hex h1]
      refine ⟨rfl, ?_⟩
      have h5 := positional_lt 16 s (fun d hd => digitVal_hex_lt (h4 d hd))
      have h6 : 16 ^ s.length ≤ 16 ^ 3 := Nat.pow_le_pow_right (by omega) h3
      omega
  | decimal h1 h2 h3 =>
    refine ⟨.inr (.inr ⟨h1, h2⟩), rfl, ?_⟩
    intro v l' e
    simp only [Token.numericLiteral.injEq] at e
    rw [← e.1, valueWith_decimal h1 h2]
    exact ⟨rfl, h3⟩
  | decimalRange h1 h2 h3 => simp [Written, Token.location]
  | binary h1 h2 h3 =>
    refine ⟨.inr (.inl ⟨_, rfl, h1, h2⟩), rfl, ?_⟩
    intro v l' e
    simp only [Token.numericLiteral.injEq] at e
    rw [← e.1]
    exact ⟨rfl, h3⟩
  | binaryRange h1 h2 h3 => simp [Written, Token.location]

theorem malformed_written {c : Char} {e : ScanError} (h : Malformed c e) (l : Loc) : Written (.error e l) [c] := by
  cases h with
  | hex h => rcases h with rfl | rfl <;> simp [Written]
  | _ => simp [Written]

theorem lex_pieces {file before text : Str} {ts : List Token} (h : Lex bin file before text ts) :
    ∃ pieces tail, Pieces text ts pieces tail ∧
      (∀ (i : Nat) (t : Token) (p : Str × Str), ts[i]? = some t → pieces[i]? = some p → t.location = locate file (before ++ textBefore pieces i p) p.2) ∧
      (∀ (i v : Nat) (l : Loc) (p : Str × Str), ts[i]? = some (.numericLiteral v l) → pieces[i]? = some p → v = valueWith bin p.2 ∧ v ≤ 4095) := by
  induction h with
  | @done before blanks hb =>
    exact ⟨[], blanks, ⟨by simp, by simp, rfl, by simp, by simp, fun _ => hb⟩, by simp, by simp⟩
  | @token before blanks s rest k ts hb hL hE _ ih =>
    obtain ⟨pieces, tail, hP, hloc, hval⟩ := ih
    obtain ⟨w1, w2, w3⟩ := lexeme_written hL.1 (locate file (before ++ blanks) s)
    refine ⟨(blanks, s) :: pieces, tail, ⟨?_, ?_, ?_, ?_, ?_, ?_⟩, ?_, ?_⟩
    · have := hP.text_eq
      simp [List.append_assoc, ← this]
    · intro p hp
      simp only [List.mem_cons] at hp
      rcases hp with rfl | hp
      · exact hb
      · exact hP.blanks p hp
    · simp [hP.count]
    · intro i t p ht hp
      cases i with
      | zero =>
        simp at ht hp
        subst ht hp
        exact w1
      | succ i =>
        simp at ht hp
        exact hP.written i t p ht hp
    · intro p hp
      simp only [List.mem_cons] at hp
      rcases hp with rfl | hp
      · exact lexeme_ne_nil hL.1
      · exact hP.nonempty p hp
    · intro hno
      exact hP.tail_blank fun e l hm => hno e l (List.mem_cons_of_mem _ hm)
    · intro i t p ht hp
      cases i with
      | zero =>
        simp at ht hp
        subst ht hp
        simpa [textBefore] using w2
      | succ i =>
        simp at ht hp
        rw [hloc i t p ht hp]
        simp [textBefore]
    · intro i v l p ht hp
      cases i with
      | zero =>
        simp at ht hp
        subst hp
        exact w3 v l ht
      | succ i =>
        simp at ht hp
        exact hval i v l p ht hp
  | @outOfRange before blanks s rest k hb hL hE =>
    obtain ⟨w1, w2, w3⟩ := lexeme_written hL.1 (locate file (before ++ blanks) s)
    refine ⟨[(blanks, s)], rest, ⟨by simp, ?_, rfl, ?_, ?_, ?_⟩, ?_, ?_⟩
    · intro p hp
      simp at hp
      subst hp
      exact hb
    · intro i t p ht hp
      cases i with
      | zero =>
        simp at ht hp
        subst ht hp
        exact w1
      | succ i => simp at ht
    · intro p hp
      simp at hp
      subst hp
      exact lexeme_ne_nil hL.1
    · intro hno
      obtain ⟨e, rfl⟩ := hE
      exact (hno e _ List.mem_cons_self).elim
    · intro i t p ht hp
      cases i with
      | zero =>
        simp at ht hp
        subst ht hp
        simpa [textBefore] using w2
      | succ i => simp at ht
    · intro i v l p ht hp
      cases i with
      | zero =>
        simp at ht hp
        subst hp
        exact w3 v l ht
      | succ i => simp at ht
  | @malformed before blanks rest c e hb hc hn hM =>
    refine ⟨[(blanks, [c])], rest, ⟨by simp, ?_, rfl, ?_, ?_, ?_⟩, ?_, ?_⟩
    · intro p hp
      simp at hp
      subst hp
      exact hb
    · intro i t p ht hp
      cases i with
      | zero =>
        simp at ht hp
        subst ht hp
        exact malformed_written hM _
      | succ i => simp at ht
    · intro p hp
      simp at hp
      subst hp
      simp
    · intro hno
      exact (hno e _ List.mem_cons_self).elim
    · intro i t p ht hp
      cases i with
      | zero =>
        simp at ht hp
        subst ht hp
        simp [textBefore, Token.location]
      | succ i => simp at ht
    · intro i v l p ht hp
      cases i with
      | zero => simp at ht
      | succ i => simp at ht

/-! ### Repeated calls -/

theorem answers_stopped [Target] {s : Scanner} (h : s.position = byteLen s.input) (n : Nat) :
    answers n s = .ret (List.replicate n none) := by
  induction n with
  | zero => rfl
  | succ n ih =>
    rw [answers, nextToken_stopped h]
    simp [ih, List.replicate_succ]

/-- A state the scanner can be in. -/
def Good (s : Scanner) : Prop := (∃ file before rest, At s file before rest) ∨ s.position = byteLen s.input

theorem nextToken_good [Target] {s : Scanner} (h : Good s) :
    ∃ t s', s.nextToken = .ret (t, s') ∧ Good s' ∧ (t = none → s'.position = byteLen s'.input) := by
  rcases h with ⟨file, before, rest, h⟩ | h
  · obtain ⟨s1, hw, h1⟩ := consumeWhitespace_eq h
    unfold Scanner.nextToken
    rw [hw]
    simp only [Run.ret_bind]
    cases hd : rest.dropWhile isBlank with
    | nil =>
      rw [hd] at h1
      rw [if_pos (h1.isAtEnd.2 rfl)]
      have : s1.position = byteLen s1.input := by
        rw [h1.position, h1.input, List.append_nil]
      exact ⟨none, s1, rfl, .inr this, fun _ => this⟩
    | cons c r =>
      rw [hd] at h1
      rw [if_neg (fun hc => by have := h1.isAtEnd.1 hc; cases this), h1.charAt]
      simp only [Run.ret_bind]
      have hstep := step_dispatch h1
      generalize s1.dispatch c = out at hstep
      cases hstep with
      | @token t rest' k he hL hE =>
        exact ⟨_, _, rfl, .inl ⟨_, _, _, At.over (he ▸ h1)⟩, fun h => by cases h⟩
      | @outOfRange t rest' k s' he hL hE hs => exact ⟨_, _, rfl, .inr (by rw [hs]; rfl), fun h => by cases h⟩
      | malformed _ _ _ => exact ⟨_, _, rfl, .inr rfl, fun h => by cases h⟩
  · exact ⟨none, s, nextToken_stopped h, .inr h, fun _ => h⟩

theorem answers_drain [Target] (n : Nat) : ∀ (fuel : Nat) (s : Scanner) (ts : List Token), Good s → drain fuel s = .ret ts →
    answers n s = .ret ((ts.map some ++ List.replicate n none).take n) := by
  induction n with
  | zero => intro fuel s ts _ _; simp [answers]
  | succ n ih =>
    intro fuel s ts hg hd
    cases fuel with
    | zero => simp [drain] at hd
    | succ fuel =>
      obtain ⟨t, s', h1, h2, h3⟩ := nextToken_good hg
      rw [drain, h1] at hd
      rw [answers, h1]
      cases t with
      | none =>
        simp at hd
        subst hd
        simp [answers_stopped (h3 rfl), List.replicate_succ]
      | some t =>
        simp only [Run.ret_bind] at hd
        cases hr : drain fuel s' with
        | panic => rw [hr] at hd; simp at hd
        | ret rest =>
          rw [hr] at hd
          simp at hd
          subst hd
          simp only [Run.ret_bind, ih fuel s' rest h2 hr, Run.pure_eq, Run.ret.injEq]
          rw [List.replicate_succ']
          simp [List.take_append]

end C8S
