import Verif.Spec.Bounds
import Verif.Proofs.Pieces
import Verif.Proofs.Recase
import Verif.Proofs.Size

/- Lemmas on the size of everything relative to the size of the source text (C86). -/

namespace C8S

open Spec

theorem lines_columns (s : Str) : newlines s + sinceNewline s ≤ s.length := by
  generalize hn : s.length = n
  induction n generalizing s with
  | zero =>
    cases List.length_eq_zero_iff.1 hn
    exact Nat.le_refl _
  | succ n ih =>
    rcases List.eq_nil_or_concat s with rfl | ⟨t, c, rfl⟩
    · cases hn
    rw [List.concat_eq_append] at hn ⊢
    rw [List.length_append, List.length_singleton] at hn
    have := ih t (by omega)
    rw [newlines_snoc, sinceNewline_snoc]
    by_cases h : c = '\n'
    · simp only [h, if_true]; omega
    · simp only [h, if_false]; omega

theorem firstLine_le (s : Str) : firstLine s ≤ s.length := by
  induction s with
  | nil => simp [firstLine]
  | cons c s ih =>
    rw [firstLine]
    split <;> simp <;> omega

/-- The counters of the scanner are those of a part of the text. -/
def Bounded (text : Str) (s : Scanner) : Prop :=
  s.input = text ∧ s.position ≤ byteLen text ∧ s.currentLine + s.currentLineOffset ≤ text.length + 2

theorem at_bounded {s : Scanner} {file before rest : Str} (h : At s file before rest) : Bounded (before ++ rest) s := by
  refine ⟨h.input, ?_, ?_⟩
  · rw [h.position, byteLen_append]; omega
  · have := lines_columns before
    rw [h.line, h.offset, List.length_append]
    omega

theorem stopped_bounded {text : Str} {s : Scanner} (h : Bounded text s) : Bounded text s.stopped :=
  ⟨h.1, by simp only [Scanner.stopped, h.1]; omega, h.2.2⟩

theorem visits_bounded [Target] {file text : Str} {s : Scanner} (h : Visits file text s) :
    Bounded text s ∧ ((∃ before rest, At s file before rest) ∨ s.position = byteLen s.input) := by
  induction h with
  | start => exact ⟨at_bounded (before := []) (at_new file text), .inl ⟨_, _, at_new file text⟩⟩
  | @next s s' t _ hn ih =>
    obtain ⟨hb, ⟨before, rest, h⟩ | h⟩ := ih
    · have hin : text = before ++ rest := hb.1.symm.trans h.input
      obtain ⟨s1, hw, h1⟩ := consumeWhitespace_eq h
      have hin1 : text = (before ++ rest.takeWhile isBlank) ++ rest.dropWhile isBlank := by
        rw [hin, List.append_assoc, ← run_split]
      unfold Scanner.nextToken at hn
      rw [hw] at hn
      simp only [Run.ret_bind] at hn
      have hb1 := at_bounded h1
      rw [← hin1] at hb1
      cases hd : rest.dropWhile isBlank with
      | nil =>
        rw [hd] at h1
        rw [if_pos (h1.isAtEnd.2 rfl)] at hn
        cases hn
        exact ⟨hb1, .inl ⟨_, _, h1⟩⟩
      | cons c r =>
        rw [hd] at h1 hin1
        rw [if_neg (fun hc => by have := h1.isAtEnd.1 hc; cases this), h1.charAt] at hn
        simp only [Run.ret_bind] at hn
        have hstep := step_dispatch h1
        generalize s1.dispatch c = out at hstep hn
        cases hstep with
        | @token t rest' k he hL hE =>
          cases hn
          have h2 := At.over (he ▸ h1)
          have hb2 := at_bounded h2
          rw [List.append_assoc, ← he, ← hin1] at hb2
          exact ⟨hb2, .inl ⟨_, _, h2⟩⟩
        | @outOfRange t rest' k s' he hL hE hs =>
          cases hn
          have h2 := At.over (he ▸ h1)
          have hb2 := at_bounded h2
          rw [List.append_assoc, ← he, ← hin1] at hb2
          rw [hs]
          exact ⟨stopped_bounded hb2, .inr rfl⟩
        | malformed _ _ _ =>
          cases hn
          exact ⟨stopped_bounded hb1, .inr rfl⟩
    · rw [nextToken_stopped h] at hn
      cases hn
      exact ⟨hb, .inr h⟩

/-! ### Bytes of a program -/

/-- How many bytes of the output a token can account for. -/
def weight : Token → Nat
  | .identifier n _ => byteLen n
  | .stringLiteral b _ => byteLen b
  | .numericLiteral _ _ => 1
  | _ => 0

theorem byteLen_pos {s : Str} (h : s ≠ []) : 1 ≤ byteLen s := by
  have := length_le_byteLen s
  have := List.length_pos_iff.2 h
  omega

theorem weight_written {t : Token} {p : Str} (h : Written t p) (hp : p ≠ []) : weight t ≤ byteLen p := by
  cases t with
  | identifier n l => cases h; exact Nat.le_refl _
  | stringLiteral b l =>
    cases h
    simp only [weight, List.cons_append, byteLen_cons, byteLen_append]
    omega
  | numericLiteral v l => exact byteLen_pos hp
  | _ => exact Nat.zero_le _

theorem weight_text {tokens : List Token} {pieces : List (Str × Str)} (hc : pieces.length = tokens.length)
    (hw : ∀ (i : Nat) (t : Token) (p : Str × Str), tokens[i]? = some t → pieces[i]? = some p → Written t p.2)
    (hn : ∀ p ∈ pieces, p.2 ≠ []) : (tokens.map weight).sum ≤ byteLen (pieces.map fun p => p.1 ++ p.2).flatten := by
  induction tokens generalizing pieces with
  | nil => exact Nat.zero_le _
  | cons t ts ih =>
    cases pieces with
    | nil => simp at hc
    | cons p ps =>
      have h1 := weight_written (hw 0 t p rfl rfl) (hn p List.mem_cons_self)
      have h2 := ih (pieces := ps) (by simpa using hc) (fun i t' p' h h' => hw (i + 1) t' p' h h')
        (fun q hq => hn q (List.mem_cons_of_mem _ hq))
      simp only [List.map_cons, List.sum_cons, List.flatten_cons, byteLen_append]
      omega

theorem utf8_length (s : Str) : (utf8 s).length = byteLen s := by
  rw [← utf8Bytes_eq]
  simp only [utf8Bytes, List.length_flatMap, List.length_map, String.length_utf8EncodeChar, byteLen]

theorem items_weight {b : Bool} {args : List Token} {xs : List Literal} {bytes : List U8}
    (h : ItemList LiteralTok b args xs) (he : EmitsAll xs bytes) : bytes.length ≤ (args.map weight).sum := by
  induction h generalizing bytes with
  | empty => cases he; exact Nat.zero_le _
  | one ht =>
    cases ht with
    | string =>
      cases he with
      | string he => cases he; simp [weight, utf8_length]
    | numeric =>
      cases he with
      | number he => cases he; simp [weight]
  | more ht _ ih =>
    cases ht with
    | string =>
      cases he with
      | string he =>
        have := ih he
        simp only [List.length_append, utf8_length, List.map_cons, List.sum_cons, weight]
        omega
    | numeric =>
      cases he with
      | number he =>
        have := ih he
        simp only [List.length_cons, List.map_cons, List.sum_cons, weight]
        omega

theorem encodes_long {L : LabelMap} {m : Str} {fs : List Field} {w : Nat} (h : Encodes L m fs w) : 2 ≤ byteLen m := by
  obtain ⟨row, hr, v, hm, _⟩ := h
  have h1 := sameWord_length hm
  have h2 : 2 ≤ row.mnemonic.length := by
    have : ∀ row ∈ table, 2 ≤ row.mnemonic.length := by decide
    exact this row hr
  have := length_le_byteLen m
  omega

theorem program_weight {ts : List Token} {ns : List Node} (h : Program ts ns) {L : LabelMap} {a : Nat}
    {ws : List (Nat × U8)} (hw : Writes L ns a ws) : ws.length ≤ (ts.map weight).sum := by
  induction h generalizing a ws with
  | empty => cases hw; exact Nat.zero_le _
  | blank _ _ ih =>
    have := ih hw
    simp only [List.map_cons, List.sum_cons]
    omega
  | label _ ih =>
    cases hw with
    | emit he hw =>
      cases he
      have := ih hw
      simp only [List.map_cons, List.sum_cons, placeAt, List.nil_append]
      omega
  | directive hi _ _ ih =>
    cases hw with
    | org _ hw =>
      have := ih hw
      simp only [List.map_cons, List.map_append, List.sum_cons, List.sum_append]
      omega
    | emit he hw =>
      have := ih hw
      cases he with
      | db hd =>
        cases hd with
        | db _ _ hx =>
          have := items_weight hi hx
          simp only [List.map_cons, List.map_append, List.sum_cons, List.sum_append, List.length_append, placeAt_length]
          omega
      | equ _ =>
        simp only [List.map_cons, List.map_append, List.sum_cons, List.sum_append, List.length_append, placeAt_length,
          List.length_nil]
        omega
  | instruction _ _ _ ih =>
    cases hw with
    | emit he hw =>
      have := ih hw
      cases he with
      | instruction he =>
        have := encodes_long he
        simp only [List.map_cons, List.map_append, List.sum_cons, List.sum_append, List.length_append, placeAt_length,
          List.length_cons, List.length_nil, weight]
        omega

theorem items_count {α : Type} {item : Token → α → Prop} {b : Bool} {args : List Token} {xs : List α}
    (h : ItemList item b args xs) : xs.length ≤ args.length := by
  induction h with
  | empty => exact Nat.le_refl _
  | one _ => exact Nat.le_refl _
  | more _ _ ih => simp only [List.length_cons]; omega

theorem program_count {ts : List Token} {ns : List Node} (h : Program ts ns) : (ns.map partCount).sum ≤ ts.length := by
  induction h with
  | empty => exact Nat.le_refl _
  | blank _ _ ih => simp only [List.length_cons]; omega
  | label _ ih => simp only [List.map_cons, List.sum_cons, partCount, List.length_cons]; omega
  | directive hi _ _ ih =>
    have := items_count hi
    simp only [List.map_cons, List.sum_cons, partCount, List.length_cons, List.length_append]
    omega
  | instruction hi _ _ ih =>
    have := items_count hi
    simp only [List.map_cons, List.sum_cons, partCount, List.length_cons, List.length_append]
    omega

theorem pieces_count {pieces : List (Str × Str)} (hn : ∀ p ∈ pieces, p.2 ≠ []) :
    pieces.length ≤ (pieces.map fun p => p.1 ++ p.2).flatten.length := by
  induction pieces with
  | nil => exact Nat.le_refl _
  | cons p ps ih =>
    have := ih fun q hq => hn q (List.mem_cons_of_mem _ hq)
    have := List.length_pos_iff.2 (hn p List.mem_cons_self)
    simp only [List.map_cons, List.flatten_cons, List.length_append, List.length_cons]
    omega

end C8S
