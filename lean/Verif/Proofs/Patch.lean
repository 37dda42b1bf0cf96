import Verif.Model.Patch
import Verif.Spec.Patch
import Verif.Props.Documented
import Verif.Props.Identify

/-! Lemmas for C131. -/

namespace C8S

open Spec

/-- The possible outcomes of reading one token of `text`, for any reading of binary digits. -/
inductive TokenOutcome (bin : Str → Nat) (s : Scanner) (file before text : Str) : Run (Token × Scanner) → Prop where
  | token {t rest : Str} {k : Loc → Token} : text = t ++ rest → Longest bin t rest k → ¬ IsError k →
    TokenOutcome bin s file before text (.ret (k (locate file before t), s.over before t))
  | outOfRange {t rest : Str} {k : Loc → Token} {s' : Scanner} : text = t ++ rest → Longest bin t rest k →
    IsError k → s' = (s.over before t).stopped →
    TokenOutcome bin s file before text (.ret (k (locate file before t), s'))
  | malformed {c : Char} {rest : Str} {e : ScanError} : text = c :: rest →
    (∀ t rest' k, t ++ rest' = c :: rest → ¬ Lexeme bin t k) → Malformed c e →
    TokenOutcome bin s file before text (.ret (.error e (locate file before [c]), s.stopped))

/-- Only what begins with a percent sign depends on the reading of binary digits. -/
theorem lexeme_other {bin : Str → Nat} (bin' : Str → Nat) {c : Char} {t : Str} {k : Loc → Token} (hc : c ≠ '%')
    (h : Lexeme bin (c :: t) k) : Lexeme bin' (c :: t) k := by
  generalize e : c :: t = s at h
  cases h with
  | newline => exact .newline
  | comma => exact .comma
  | labelMarker => exact .labelMarker
  | directiveMarker => exact .directiveMarker
  | comment h => exact .comment h
  | name h1 h2 => exact .name h1 h2
  | indirect h => exact .indirect h
  | string h => exact .string h
  | hex h1 h2 h3 h4 => exact .hex h1 h2 h3 h4
  | decimal h1 h2 h3 => exact .decimal h1 h2 h3
  | decimalRange h1 h2 h3 => exact .decimalRange h1 h2 h3
  | binary => exact (hc (List.cons.inj e).1).elim
  | binaryRange => exact (hc (List.cons.inj e).1).elim

theorem reads_other [Target] (bin : Str → Nat) {s : Scanner} {file before r : Str} {c : Char} {out : Run (Token × Scanner)}
    (hc : c ≠ '%') (h : Step s file before (c :: r) out) : TokenOutcome bin s file before (c :: r) out := by
  have key : ∀ {t rest k}, c :: r = t ++ rest → Longest wordBinary t rest k → Longest bin t rest k := by
    intro t rest k e hL
    obtain ⟨u, rfl, -⟩ := lex_prefix e.symm hL.1
    exact longest_reread hL (lexeme_other bin hc hL.1)
  cases h with
  | token e hL hE => exact .token e (key e hL) hE
  | outOfRange e hL hE hs => exact .outOfRange e (key e hL) hE hs
  | malformed e hL hM =>
    refine .malformed e (fun t rest' k e' hl => ?_) hM
    obtain ⟨k', hl'⟩ := lexeme_reread wordBinary hl
    exact hL t rest' k' e' hl'

theorem reads_binary {conv : Str → Except ScanError Nat} {bin : Str → Nat} (hconv : Converts bin conv) {s : Scanner}
    {file before r : Str} (h : At s file before ('%' :: r)) :
    TokenOutcome bin s file before ('%' :: r) (s.consumeBinWith conv) := by
  unfold Scanner.consumeBinWith
  rw [h.sliceFrom]
  simp only [Run.ret_bind, reBin, if_true, matchRun_eq]
  by_cases hn : r.takeWhile isBin = []
  · simp only [hn, if_true, Option.map_none]
    rw [h.fail _ '%']
    refine .malformed rfl ?_ .binary
    intro t rest k e hl
    obtain ⟨u, rfl, hu⟩ := lex_prefix e hl
    obtain ⟨h1, h3, -⟩ := lexeme_binary hl
    have := prefix_le_run hu (fun d hd => (isBin_iff d).2 (h3 d hd))
    rw [hn] at this
    exact h1 (List.length_eq_zero_iff.1 (by simpa using this))
  · simp only [hn, if_false, Option.map_some]
    have hall : ∀ d ∈ r.takeWhile isBin, Binary d := fun d hm => (isBin_iff d).1 (run_all _ _ _ hm)
    have hc1 : ('%' : Char).utf8Size = 1 := by decide
    have h1 := h
    rw [run_split isBin r, show ∀ a b : Str, '%' :: (a ++ b) = ['%'] ++ (a ++ b) from fun _ _ => rfl] at h1
    have hs := At.slice h1
    simp only [byteLen_cons, byteLen_nil, Nat.add_zero, hc1] at hs
    rw [size_dollar, show s.position + (byteLen (r.takeWhile isBin) + 1) = s.position + 1 + byteLen (r.takeWhile isBin) by omega, hs]
    have split : '%' :: r = ('%' :: r.takeWhile isBin) ++ r.dropWhile isBin := by
      rw [List.cons_append, ← run_split]
    have h2 := h
    rw [split] at h2
    have ha := h2.advanceBy (by simp)
    rw [show byteLen ('%' :: r.takeWhile isBin) = byteLen (r.takeWhile isBin) + 1 by simp [hc1]; omega] at ha
    simp only [Run.ret_bind]
    rw [ha]
    by_cases hv : bin (r.takeWhile isBin) ≤ 4095
    · rw [(hconv _ hn hall).1 hv]
      simp only [Run.ret_bind]
      refine .token split (longest_run (.binary hn hall hv) ?_) (error_not_at (by simp))
      exact fun u k' hu d hd => (isBin_iff d).2 ((lexeme_binary hu).2.1 d hd)
    · rw [(hconv _ hn hall).2 (by omega)]
      simp only [Run.ret_bind]
      refine .outOfRange split (longest_run (.binaryRange hn hall (by omega)) ?_) ⟨_, rfl⟩ rfl
      exact fun u k' hu d hd => (isBin_iff d).2 ((lexeme_binary hu).2.1 d hd)

theorem drainWith_stopped [Target] (conv : Str → Except ScanError Nat) {s : Scanner} (h : s.position = byteLen s.input)
    (n : Nat) : drainWith conv (n + 1) s = .ret [] := by
  have hs : C8S.sliceFrom s.input s.position = .ret [] := by
    rw [h]
    have := sliceFrom_append s.input []
    rwa [List.append_nil] at this
  have hw : s.consumeWhitespace = .ret s := by
    unfold Scanner.consumeWhitespace
    rw [hs]
    rfl
  have : s.isAtEnd = true := by simp [Scanner.isAtEnd, h]
  rw [drainWith]
  unfold Scanner.nextTokenWith
  rw [hw]
  simp [this]

/-- The scanner with a correct conversion yields the tokens of the specification, given enough fuel. -/
theorem drainWith_lex [Target] {conv : Str → Except ScanError Nat} {bin : Str → Nat} (hconv : Converts bin conv) (n : Nat) :
    ∀ {s : Scanner} {file before rest : Str}, At s file before rest → rest.length < n →
    ∃ tokens, drainWith conv n s = .ret tokens ∧ Lex bin file before rest tokens := by
  induction n with
  | zero =>
    intro s file before rest h hl
    omega
  | succ n ih =>
    intro s file before rest h hl
    obtain ⟨s1, hw, h1⟩ := consumeWhitespace_eq h
    have hb : ∀ c ∈ rest.takeWhile isBlank, Blank c := fun c hc => (isBlank_iff c).1 (run_all _ _ _ hc)
    have hsplit := run_split isBlank rest
    rw [drainWith]
    unfold Scanner.nextTokenWith
    rw [hw]
    simp only [Run.ret_bind]
    generalize hblanks : rest.takeWhile isBlank = blanks at *
    cases hd : rest.dropWhile isBlank with
    | nil =>
      rw [hd] at h1 hsplit
      rw [if_pos (h1.isAtEnd.2 rfl)]
      refine ⟨[], rfl, ?_⟩
      rw [hsplit, List.append_nil]
      exact .done hb
    | cons c r =>
      rw [hd] at h1 hsplit
      have hnb : ¬ Blank c := by
        intro hc
        have := dropWhile_head hd
        rw [(isBlank_iff c).2 hc] at this
        cases this
      rw [if_neg (fun hc => by have := h1.isAtEnd.1 hc; cases this), h1.charAt]
      simp only [Run.ret_bind]
      have hstep : TokenOutcome bin s1 file (before ++ blanks) (c :: r) (s1.dispatchWith conv c) := by
        unfold Scanner.dispatchWith
        by_cases hc : c = '%'
        · rw [if_pos hc]
          subst hc
          exact reads_binary hconv h1
        · rw [if_neg hc]
          exact reads_other bin hc (step_dispatch h1)
      generalize s1.dispatchWith conv c = out at hstep
      have hlen : rest.length = blanks.length + (r.length + 1) := by
        rw [hsplit, List.length_append, List.length_cons]
      cases hstep with
      | @token t rest' k he hL hE =>
        have h2 : At (s1.over (before ++ blanks) t) file (before ++ blanks ++ t) rest' := At.over (he ▸ h1)
        have : t.length ≠ 0 := fun h0 => lexeme_ne_nil hL.1 (List.length_eq_zero_iff.1 h0)
        have hl2 : t.length + rest'.length = r.length + 1 := by
          rw [← List.length_append, ← he, List.length_cons]
        obtain ⟨tokens, h3, h4⟩ := ih h2 (by omega)
        simp only [Run.ret_bind, Run.pure_eq, h3]
        refine ⟨_, rfl, ?_⟩
        rw [hsplit, he, ← List.append_assoc]
        exact .token hb hL hE h4
      | @outOfRange t rest' k s' he hL hE hs =>
        have hn : 0 < n := by omega
        have hs : s'.position = byteLen s'.input := by rw [hs]; rfl
        obtain ⟨m, rfl⟩ : ∃ m, n = m + 1 := ⟨n - 1, by omega⟩
        simp only [Run.ret_bind, Run.pure_eq, drainWith_stopped conv hs]
        refine ⟨_, rfl, ?_⟩
        rw [hsplit, he, ← List.append_assoc]
        exact .outOfRange hb hL hE
      | @malformed c' r' e he hL hM =>
        obtain ⟨m, rfl⟩ : ∃ m, n = m + 1 := ⟨n - 1, by omega⟩
        simp only [List.cons.injEq] at he
        obtain ⟨rfl, rfl⟩ := he
        have hs : s1.stopped.position = byteLen s1.stopped.input := rfl
        simp only [Run.ret_bind, Run.pure_eq, drainWith_stopped conv hs]
        refine ⟨_, rfl, ?_⟩
        rw [hsplit]
        exact .malformed hb hnb hL hM

/-- The value of the digits read so far only grows. -/
theorem positional_from_le (s : Str) (acc : Nat) : acc ≤ s.foldl (fun acc c => acc * 2 + digitVal c) acc := by
  induction s generalizing acc with
  | nil => exact Nat.le_refl _
  | cons c s ih =>
    rw [List.foldl_cons]
    exact Nat.le_trans (by omega) (ih _)

theorem patchedLoop_eq [Target] (whole s : Str) (hs : ∀ c ∈ s, Binary c) (acc : Nat) (h : acc ≤ 4095) :
    patchedLoop whole s acc =
      if s.foldl (fun acc c => acc * 2 + digitVal c) acc ≤ 4095 then
        .ok (s.foldl (fun acc c => acc * 2 + digitVal c) acc)
      else .error (.binaryLiteralOutOfRange whole) := by
  induction s generalizing acc with
  | nil => simp [patchedLoop, h]
  | cons c s ih =>
    have hc := hs c List.mem_cons_self
    have ih := ih fun d hd => hs d (List.mem_cons_of_mem _ hd)
    rw [List.foldl_cons]
    have key : ∀ b : Nat, b < 2 → (acc <<< 1) % 2 ^ usizeBits ||| b = acc * 2 + b := by
      intro b hb
      have h1 : acc * 2 < 2 ^ usizeBits :=
        Nat.lt_of_lt_of_le (by omega : acc * 2 < 2 ^ 16) (Nat.pow_le_pow_right (by omega) Target.wide)
      rw [Nat.shiftLeft_eq, Nat.pow_one, Nat.mod_eq_of_lt h1]
      have := Nat.two_pow_add_eq_or_of_lt (i := 1) (b := b) (by omega) acc
      rw [Nat.pow_one, Nat.mul_comm 2 acc] at this
      exact this.symm
    have fin : ∀ b : Nat, (if acc * 2 + b ≤ 0xFFF then patchedLoop whole s (acc * 2 + b)
          else Except.error (.binaryLiteralOutOfRange whole)) =
        if s.foldl (fun acc c => acc * 2 + digitVal c) (acc * 2 + b) ≤ 4095 then
          Except.ok (s.foldl (fun acc c => acc * 2 + digitVal c) (acc * 2 + b))
        else .error (.binaryLiteralOutOfRange whole) := by
      intro b
      by_cases hb : acc * 2 + b ≤ 4095
      · rw [if_pos hb, ih _ hb]
      · rw [if_neg hb, if_neg fun h' => hb (Nat.le_trans (positional_from_le s _) h')]
    rw [patchedLoop]
    rcases hc with rfl | rfl | rfl
    · rw [if_pos (.inr rfl), key 0 (by omega)]
      exact fin 0
    · rw [if_pos (.inl rfl), key 0 (by omega)]
      exact fin 0
    · rw [if_neg (by decide), if_pos rfl, key 1 (by omega)]
      exact fin 1

/-- The token for a text of a percent sign and these digits. -/
def aloneToken (conv : Str → Except ScanError Nat) (file digits : Str) : Token :=
  match conv digits with
  | .ok value => .numericLiteral value (locate file [] ('%' :: digits))
  | .error e => .error e (locate file [] ('%' :: digits))

theorem takeWhile_binary {digits : Str} (hd : ∀ d ∈ digits, Binary d) : digits.takeWhile isBin = digits := by
  induction digits with
  | nil => rfl
  | cons c s ih =>
    rw [List.takeWhile_cons, (isBin_iff c).2 (hd c List.mem_cons_self), ih fun d h => hd d (List.mem_cons_of_mem _ h)]
    rfl

/-- Whatever the conversion is, this text has one token, with what the conversion yields. -/
theorem scanWith_alone [Target] (conv : Str → Except ScanError Nat) (file digits : Str) (hn : digits ≠ [])
    (hd : ∀ d ∈ digits, Binary d) : scanWith conv file ('%' :: digits) = .ret [aloneToken conv file digits] := by
  have h := at_new file ('%' :: digits)
  obtain ⟨s, hw, h1⟩ := consumeWhitespace_eq h
  have hb : isBlank '%' = false := by decide
  simp only [List.takeWhile_cons, List.dropWhile_cons, hb, Bool.false_eq_true, if_false, List.append_nil] at h1
  have hs1 : C8S.sliceFrom s.input s.position = .ret ('%' :: digits) := h1.sliceFrom
  have hc1 : ('%' : Char).utf8Size = 1 := by decide
  have htk := takeWhile_binary hd
  have h2 : At s file [] (['%'] ++ (digits ++ [])) := by simpa using h1
  have hsl := At.slice h2
  simp only [byteLen_cons, byteLen_nil, Nat.add_zero, hc1] at hsl
  have h3 : At s file [] (('%' :: digits) ++ []) := by simpa using h1
  have ha := h3.advanceBy (by simp)
  rw [show byteLen ('%' :: digits) = byteLen digits + 1 by simp [hc1]; omega] at ha
  have hend : (s.over [] ('%' :: digits)).position = byteLen (s.over [] ('%' :: digits)).input := by
    rw [show (s.over [] ('%' :: digits)).input = s.input from rfl, h1.input]
    rfl
  have hbin : s.consumeBinWith conv = match conv digits with
      | .ok value => .ret (.numericLiteral value (locate file [] ('%' :: digits)), s.over [] ('%' :: digits))
      | .error e => .ret (.error e (locate file [] ('%' :: digits)), (s.over [] ('%' :: digits)).stopped) := by
    unfold Scanner.consumeBinWith
    rw [hs1]
    simp only [Run.ret_bind, reBin, if_true, matchRun_eq, htk, hn, if_false, Option.map_some]
    rw [size_dollar, show s.position + (byteLen digits + 1) = s.position + 1 + byteLen digits by omega, hsl]
    simp only [Run.ret_bind]
    rw [ha]
    cases conv digits <;> rfl
  obtain ⟨m, hm⟩ : ∃ m, byteLen ('%' :: digits) = m + 1 := ⟨byteLen digits, by simp [hc1]; omega⟩
  rw [scanWith, hm, drainWith]
  unfold Scanner.nextTokenWith
  rw [hw]
  simp only [Run.ret_bind]
  rw [if_neg (fun hc => by have := h1.isAtEnd.1 hc; cases this), h1.charAt]
  simp only [Run.ret_bind, Scanner.dispatchWith, if_true]
  rw [hbin]
  unfold aloneToken
  cases conv digits with
  | ok value => simp only [Run.ret_bind, Run.pure_eq, drainWith_stopped conv hend]
  | error e =>
    simp only [Run.ret_bind, Run.pure_eq,
      drainWith_stopped conv (s := (s.over [] ('%' :: digits)).stopped) rfl]

/-- A file with this text, and nothing else. -/
def aloneEnv (text : Str) : Env := ⟨fun _ => .ok (), fun _ => .ok text, fun _ => .ok (), fun _ _ => .ok ()⟩

/-- What is printed for one token. -/
def aloneMessage (t : Token) : Run Str :=
  (ParseError.unexpectedToken [DisplayNames.directiveMarker, DisplayNames.identifier] t).display

theorem parse_alone (conv : Str → Except ScanError Nat) (file digits : Str) : parse [aloneToken conv file digits] =
    .ret (.error (.unexpectedToken [DisplayNames.directiveMarker, DisplayNames.identifier] (aloneToken conv file digits))) := by
  unfold aloneToken
  cases conv digits <;> rfl

theorem message_some (t : Token) : ∃ m, aloneMessage t = .ret m := by
  cases t <;> exact ⟨_, rfl⟩

/-- Only one kind of error is described like this. -/
theorem out_of_range_display {e : ScanError} {s : Str} (h : e.display = (ScanError.binaryLiteralOutOfRange s).display) :
    ∃ s', e = .binaryLiteralOutOfRange s' := by
  have h := congrArg List.head? h
  cases e with
  | binaryLiteralOutOfRange s' => exact ⟨s', rfl⟩
  | decimalLiteralOutOfRange s' => exact absurd (show some 'D' = some 'B' from h) (by decide)
  | expectedRegisterIndirect => exact absurd (show some 'E' = some 'B' from h) (by decide)
  | _ => exact absurd (show some 'I' = some 'B' from h) (by decide)

theorem message_alone {conv conv' : Str → Except ScanError Nat} {file digits : Str}
    (h : aloneMessage (aloneToken conv file digits) = aloneMessage (aloneToken conv' file digits)) :
    (∃ v, conv digits = .ok v ∧ conv' digits = .ok v) ∨
    ∃ e e', conv digits = .error e ∧ conv' digits = .error e' ∧ e.display = e'.display := by
  unfold aloneMessage aloneToken at h
  cases h1 : conv digits with
  | ok v =>
    cases h2 : conv' digits with
    | ok w =>
      rw [h1, h2] at h
      simp only [ParseError.display, Token.location, Token.display, Run.ret.injEq, List.append_assoc,
        List.append_cancel_left_eq] at h
      refine .inl ⟨v, rfl, ?_⟩
      have hs : ∀ r : Str, " / $".toList ++ r = ' ' :: ("/ $".toList ++ r) := fun _ => rfl
      rw [hs, hs] at h
      have := (stretch_cons (P := Decimal) (dec_decimal v) (dec_decimal w) (by decide) (by decide) h).1
      rw [dec_inj this]
    | error e =>
      exfalso
      rw [h1, h2] at h
      simp only [ParseError.display, Token.location, Token.display, Run.ret.injEq, List.append_assoc,
        List.append_cancel_left_eq] at h
      exact clash_ne (by decide) _ _ h
  | error e =>
    cases h2 : conv' digits with
    | ok w =>
      exfalso
      rw [h1, h2] at h
      simp only [ParseError.display, Token.location, Token.display, Run.ret.injEq, List.append_assoc,
        List.append_cancel_left_eq] at h
      exact clash_ne (by decide) _ _ h
    | error e' =>
      rw [h1, h2] at h
      simp only [ParseError.display, Run.ret.injEq, List.append_assoc, List.append_cancel_left_eq,
        List.append_cancel_right_eq] at h
      exact .inr ⟨e, e', rfl, rfl, h⟩

end C8S
