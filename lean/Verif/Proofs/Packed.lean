import Verif.Spec.Packed
import Verif.Proofs.Text

/- Helper lemmas for C114. -/

namespace C8S

open Spec

variable {bin : Str → Nat}

theorem joins_iff_runsOn {s : Str} {k : Loc → Token} {d : Char} (h : Lexeme bin s k) : Joins bin s d ↔ RunsOn s d := by
  constructor
  · rintro ⟨k', h'⟩
    cases h with
    | newline => exact absurd (lexeme_newline h').1 (by simp)
    | comma => exact absurd (lexeme_comma h').1 (by simp)
    | labelMarker => exact absurd (lexeme_labelMarker h').1 (by simp)
    | directiveMarker => exact absurd (lexeme_directiveMarker h').1 (by simp)
    | @comment t ht =>
      refine .inl ⟨rfl, ?_⟩
      rintro rfl
      exact (lexeme_comment h').1 (by simp)
    | @name c t hc ht => exact .inr (.inl ⟨hc, (lexeme_name hc h').1 d (by simp)⟩)
    | @indirect c hc =>
      have := (lexeme_indirect h').1
      simp at this
    | @string t ht =>
      obtain ⟨b, e, hb, _⟩ := lexeme_string (t := t ++ ['"'] ++ [d]) h'
      have := stringBody_unique ht hb (r := [d]) (r' := []) (by rw [← e]; simp)
      subst this
      simp at e
    | @hex c t hc ht1 ht2 ht3 =>
      have hx := lexeme_hex hc (t := t ++ [d]) h'
      refine .inr (.inr (.inr (.inl ⟨hc, ?_, hx.2.2.1 d (by simp)⟩)))
      have := hx.2.1
      simp at this
      omega
    | decimal ht1 ht2 ht3 =>
      cases s with
      | nil => exact (ht1 rfl).elim
      | cons c t =>
        have hc := ht2 c List.mem_cons_self
        exact .inr (.inr (.inl ⟨hc, (lexeme_decimal hc h').1 d (by simp)⟩))
    | decimalRange ht1 ht2 ht3 =>
      cases s with
      | nil => exact (ht1 rfl).elim
      | cons c t =>
        have hc := ht2 c List.mem_cons_self
        exact .inr (.inr (.inl ⟨hc, (lexeme_decimal hc h').1 d (by simp)⟩))
    | @binary t ht1 ht2 ht3 => exact .inr (.inr (.inr (.inr ⟨rfl, (lexeme_binary (t := t ++ [d]) h').2.1 d (by simp)⟩)))
    | @binaryRange t ht1 ht2 ht3 => exact .inr (.inr (.inr (.inr ⟨rfl, (lexeme_binary (t := t ++ [d]) h').2.1 d (by simp)⟩)))
  · intro hr
    cases s with
    | nil => exact hr.elim
    | cons c t =>
      rcases hr with ⟨rfl, hd⟩ | ⟨hc, hd⟩ | ⟨hc, hd⟩ | ⟨hc, hl, hd⟩ | ⟨rfl, hd⟩
      · have := (lexeme_comment h).1
        exact ⟨_, .comment (s := t ++ [d]) (by simp [this, hd.symm])⟩
      · have := (lexeme_name hc h).1
        refine ⟨_, .name (s := t ++ [d]) hc fun x hx => ?_⟩
        rcases List.mem_append.1 hx with hx | hx
        · exact this x (by simp [hx])
        · rw [List.mem_singleton.1 hx]; exact hd
      · have := (lexeme_decimal hc h).1
        have h2 : ∀ x ∈ c :: t ++ [d], Decimal x := by
          intro x hx
          rcases List.mem_append.1 hx with hx | hx
          · rcases List.mem_cons.1 hx with rfl | hx
            · exact hc
            · exact this x hx
          · rw [List.mem_singleton.1 hx]; exact hd
        by_cases hv : positional 10 (c :: t ++ [d]) ≤ 4095
        · exact ⟨_, .decimal (by simp) h2 hv⟩
        · exact ⟨_, .decimalRange (by simp) h2 (by omega)⟩
      · have := (lexeme_hex hc h).2.2.1
        refine ⟨_, .hex (s := t ++ [d]) hc (by simp) (by simp; omega) fun x hx => ?_⟩
        rcases List.mem_append.1 hx with hx | hx
        · exact this x hx
        · rw [List.mem_singleton.1 hx]; exact hd
      · have := (lexeme_binary h).2.1
        have h2 : ∀ x ∈ t ++ [d], Binary x := by
          intro x hx
          rcases List.mem_append.1 hx with hx | hx
          · exact this x hx
          · rw [List.mem_singleton.1 hx]; exact hd
        by_cases hv : bin (t ++ [d]) ≤ 4095
        · exact ⟨_, .binary (s := t ++ [d]) (by simp) h2 hv⟩
        · exact ⟨_, .binaryRange (s := t ++ [d]) (by simp) h2 (Nat.lt_of_not_le hv)⟩

theorem longest_runsOn {s rest : Str} {k : Loc → Token} :
    Longest bin s rest k ↔ Lexeme bin s k ∧ ∀ d, rest.head? = some d → ¬ RunsOn s d := by
  rw [longest_iff]
  constructor
  · rintro ⟨h1, h2⟩
    refine ⟨h1, fun d hd hr => ?_⟩
    cases rest with
    | nil => cases hd
    | cons c r =>
      cases hd
      exact h2 d r rfl ((joins_iff_runsOn h1).2 hr)
  · rintro ⟨h1, h2⟩
    refine ⟨h1, fun d r e hj => h2 d (by rw [e]; rfl) ((joins_iff_runsOn h1).1 hj)⟩

theorem madeOf_inv {text s : Str} {parts : List Str} (h : MadeOf bin text (s :: parts)) :
    ∃ blanks rest k, text = blanks ++ s ++ rest ∧ (∀ c ∈ blanks, Blank c) ∧ Longest bin s rest k ∧ ¬ IsError k ∧
      MadeOf bin rest parts := by
  cases h with
  | token h1 h2 h3 h4 => exact ⟨_, _, _, rfl, h1, h2, h3, h4⟩

theorem madeOf_blanks {blanks text : Str} {parts : List Str} (hb : ∀ c ∈ blanks, Blank c) (h : MadeOf bin text parts) :
    MadeOf bin (blanks ++ text) parts := by
  cases h with
  | done h => exact .done fun c hc => (List.mem_append.1 hc).elim (hb c) (h c)
  | @token b s rest k parts h1 h2 h3 h4 =>
    have : blanks ++ (b ++ s ++ rest) = (blanks ++ b) ++ s ++ rest := by simp
    rw [this]
    exact .token (fun c hc => (List.mem_append.1 hc).elim (hb c) (h1 c)) h2 h3 h4

/-- The first character of the tokens. -/
theorem packed_head {s : Str} {parts : List Str} (hs : s ≠ []) : (packedText (s :: parts)).head? = s.head? := by
  cases s with
  | nil => exact (hs rfl).elim
  | cons c t => cases parts <;> rfl

theorem madeOf_packed {text : Str} {parts : List Str} (h : MadeOf bin text parts) : MadeOf bin (packedText parts) parts := by
  induction h with
  | done _ => exact .done (by simp [packedText])
  | @token blanks s rest k parts hb hL hE hr ih =>
    have hl := hL.1
    have key : ∀ w, (∀ c ∈ w, Blank c) → (∀ d, (w ++ packedText parts).head? = some d → ¬ RunsOn s d) →
        MadeOf bin (s ++ w ++ packedText parts) (s :: parts) := by
      intro w hw hd
      have := MadeOf.token (bin := bin) (blanks := []) (rest := w ++ packedText parts) (by simp)
        (longest_runsOn.2 ⟨hl, hd⟩) hE (madeOf_blanks hw ih)
      simpa using this
    cases parts with
    | nil =>
      have := key [] (by simp) (by simp [packedText])
      simpa [packedText] using this
    | cons t r =>
      obtain ⟨b, rest', k', e, hb', hL', _, _⟩ := madeOf_inv hr
      have ht : t ≠ [] := lexeme_ne_nil hL'.1
      refine key (gap s t) ?_ ?_
      · intro c hc
        cases t with
        | nil => cases hc
        | cons x t =>
          simp only [gap] at hc
          split at hc
          · rw [List.mem_singleton.1 hc]; decide
          · cases hc
      · intro d hd hrun
        cases t with
        | nil => exact ht rfl
        | cons x t =>
          simp only [gap] at hd
          by_cases hx : RunsOn s x
          · rw [if_pos hx] at hd
            cases hd
            -- only a comment goes on with a blank
            rcases joins_char hl ((joins_iff_runsOn hl).2 hrun) with ⟨u, rfl, _⟩ | ⟨_, h⟩
            · have hnl := (longest_runsOn.1 hL).2
              rw [e] at hnl
              have hnb : b = [] := by
                cases b with
                | nil => rfl
                | cons y b =>
                  exact (hnl y rfl (.inl ⟨rfl, (hb' y List.mem_cons_self).2⟩)).elim
              rw [hnb] at hnl
              exact hnl x rfl hx
            · exact blank_not_name (d := ' ') (by decide) h
          · rw [if_neg hx, List.nil_append, packed_head (by simp)] at hd
            cases hd
            exact hx hrun

theorem packed_shortest {text : Str} {parts : List Str} (h : MadeOf bin text parts) :
    (packedText parts).length + (text.takeWhile fun c => decide (Blank c)).length ≤ text.length := by
  induction h with
  | @done blanks hb =>
    have := (List.takeWhile_prefix (p := fun c => decide (Blank c)) (l := blanks)).length_le
    simpa [packedText] using this
  | @token blanks s rest k parts hb hL hE hr ih =>
    have hne := lexeme_ne_nil hL.1
    have hbl : ((blanks ++ s ++ rest).takeWhile fun c => decide (Blank c)) = blanks := by
      obtain ⟨c, r', rfl, hc⟩ := longest_head hL
      rw [List.append_assoc, List.takeWhile_append_of_pos (by intro a ha; exact decide_eq_true (hb a ha))]
      simp [hc]
    rw [hbl]
    simp only [List.length_append]
    cases parts with
    | nil =>
      simp only [packedText]
      omega
    | cons t r =>
      obtain ⟨b, rest', k', e, hb', hL', _, _⟩ := madeOf_inv hr
      have ht : t ≠ [] := lexeme_ne_nil hL'.1
      simp only [packedText, List.length_append]
      have hg : (gap s t).length ≤ (rest.takeWhile fun c => decide (Blank c)).length := by
        cases t with
        | nil => exact (ht rfl).elim
        | cons x t =>
          simp only [gap]
          by_cases hx : RunsOn s x
          · rw [if_pos hx]
            have hnl := (longest_runsOn.1 hL).2
            rw [e] at hnl ⊢
            cases b with
            | nil => exact (hnl x rfl hx).elim
            | cons y b =>
              simp [hb' y List.mem_cons_self]
          · rw [if_neg hx]
            exact Nat.zero_le _
      omega

theorem madeOf_cut {text : Str} {parts : List Str} (h : MadeOf bin text parts) :
    ∃ ts, Cut bin text ts ∧ ∀ text', MadeOf bin text' parts → Cut bin text' ts := by
  induction h with
  | done hb => exact ⟨[], .done hb, fun text' h => by cases h with | done h => exact .done h⟩
  | @token blanks s rest k parts hb hL hE hr ih =>
    obtain ⟨ts, h1, h2⟩ := ih
    refine ⟨k noLoc :: ts, .token hb hL hE h1, fun text' h => ?_⟩
    obtain ⟨b, rest', k', rfl, hb', hL', hE', hr'⟩ := madeOf_inv h
    rw [lexeme_unique hL.1 hL'.1]
    exact .token hb' hL' hE' (h2 _ hr')

theorem madeOf_exists {text : Str} {ts : List Token} (h : Cut bin text ts) :
    ∃ parts, parts.length = ts.length ∧ MadeOf bin text parts := by
  induction h with
  | done hb => exact ⟨[], rfl, .done hb⟩
  | token hb hL hE _ ih =>
    obtain ⟨parts, h1, h2⟩ := ih
    exact ⟨_ :: parts, by simp [h1], .token hb hL hE h2⟩

theorem madeOf_describes [Target] {file text text' : Str} {parts : List Str} (h : MadeOf wordBinary text parts)
    (h' : MadeOf wordBinary text' parts) (bytes : List (Nat × U8)) :
    Describes wordBinary file text bytes ↔ Describes wordBinary file text' bytes := by
  obtain ⟨ts, h1, h2⟩ := madeOf_cut h
  have h3 := h2 _ h'
  exact ⟨describes_same h1 h3 fun _ h => h, describes_same h3 h1 fun _ h => h⟩

end C8S
