import Verif.Spec.Respell
import Verif.Proofs.Text

/- Changing the case of letters in a source text. -/

namespace C8S

open Spec

variable {bin : Str → Nat}

/-! ### Characters -/

theorem sameLetter_symm {c d : Char} (h : SameLetter c d) : SameLetter d c := by
  rcases h with rfl | h | h
  · exact .inl rfl
  · exact .inr (.inr h)
  · exact .inr (.inl h)

theorem sameLetter_fixed {c d : Char} (h : SameLetter c d)
    (hc : c.toNat < 65 ∨ (90 < c.toNat ∧ c.toNat < 97) ∨ 122 < c.toNat) : d = c := by
  rcases h with rfl | h | h
  · rfl
  · unfold Capital at h; omega
  · unfold Capital at h; omega

theorem sameLetter_decimal {c d : Char} (h : SameLetter c d) (hc : Decimal c) : d = c := by
  unfold Decimal at hc
  simp only [char_le_iff] at hc
  exact sameLetter_fixed h (.inl (by have := hc.2; simp at this; omega))

theorem sameLetter_binary {c d : Char} (h : SameLetter c d) (hc : Binary c) : d = c := by
  rcases hc with rfl | rfl | rfl <;> exact sameLetter_fixed h (by decide)

theorem sameLetter_blank {c d : Char} (h : SameLetter c d) (hc : Blank c) : d = c := by
  have : ∀ n ∈ whiteSpace, n < 65 ∨ (90 < n ∧ n < 97) ∨ 122 < n := by decide
  exact sameLetter_fixed h (this _ hc.1)

theorem sameLetter_nameStart {c d : Char} (h : SameLetter c d) (hc : NameStart c) : NameStart d := by
  rcases h with rfl | h | h
  · exact hc
  · unfold Capital at h
    refine .inr (.inl ?_)
    simp only [char_le_iff]
    simp
    omega
  · unfold Capital at h
    refine .inr (.inr ?_)
    simp only [char_le_iff]
    simp
    omega

theorem sameLetter_nameChar {c d : Char} (h : SameLetter c d) (hc : NameChar c) : NameChar d := by
  rcases hc with hc | hc
  · exact .inl (sameLetter_nameStart h hc)
  · rw [sameLetter_decimal h hc]; exact .inr hc

theorem sameLetter_hexadecimal {c d : Char} (h : SameLetter c d) (hc : Hexadecimal c) :
    Hexadecimal d ∧ digitVal d = digitVal c := by
  rcases hc with hc | hc
  · rw [sameLetter_decimal h hc]; exact ⟨.inl hc, rfl⟩
  · rcases h with rfl | h | h
    · exact ⟨.inr hc, rfl⟩
    · unfold Capital at h
      simp only [char_le_iff] at hc
      simp at hc
      constructor
      · refine .inr (.inl ?_)
        simp only [char_le_iff]
        simp
        omega
      · have h1 : c ≠ '.' := by rintro rfl; simp at h
        have h2 : d ≠ '.' := by rintro rfl; simp at h; omega
        unfold digitVal
        rw [if_neg h1, if_neg h2]
        rw [if_neg (by omega), if_neg (by omega), if_neg (by omega), if_pos (by omega)]
        omega
    · unfold Capital at h
      simp only [char_le_iff] at hc
      simp at hc
      constructor
      · refine .inr (.inr ?_)
        simp only [char_le_iff]
        simp
        omega
      · have h1 : c ≠ '.' := by rintro rfl; simp at h; omega
        have h2 : d ≠ '.' := by rintro rfl; simp at h
        unfold digitVal
        rw [if_neg h1, if_neg h2]
        rw [if_neg (by omega), if_pos (by omega), if_neg (by omega), if_neg (by omega)]
        omega

/-! ### Strings -/

theorem sameLetters_append {a b t : Str} (h : SameLetters (a ++ b) t) :
    ∃ a' b', t = a' ++ b' ∧ SameLetters a a' ∧ SameLetters b b' := by
  induction a generalizing t with
  | nil => exact ⟨[], t, rfl, .nil, h⟩
  | cons c a ih =>
    cases h with
    | cons hc h =>
      obtain ⟨a', b', rfl, h1, h2⟩ := ih h
      exact ⟨_ :: a', b', rfl, .cons hc h1, h2⟩

theorem sameLetters_join {a a' b b' : Str} (h : SameLetters a a') (h' : SameLetters b b') :
    SameLetters (a ++ b) (a' ++ b') := by
  induction h with
  | nil => exact h'
  | cons hc _ ih => exact .cons hc ih

theorem sameLetters_all {p q : Char → Prop} (hpq : ∀ c d, SameLetter c d → p c → q d) {s t : Str} (h : SameLetters s t)
    (hs : ∀ c ∈ s, p c) : ∀ c ∈ t, q c := by
  induction h with
  | nil => simp
  | cons hc _ ih =>
    intro x hx
    rcases List.mem_cons.1 hx with rfl | hx
    · exact hpq _ _ hc (hs _ List.mem_cons_self)
    · exact ih (fun y hy => hs y (List.mem_cons_of_mem _ hy)) x hx

theorem sameLetters_eq {p : Char → Prop} (hp : ∀ c d, SameLetter c d → p c → d = c) {s t : Str} (h : SameLetters s t)
    (hs : ∀ c ∈ s, p c) : t = s := by
  induction h with
  | nil => rfl
  | cons hc _ ih =>
    rw [hp _ _ hc (hs _ List.mem_cons_self), ih fun y hy => hs y (List.mem_cons_of_mem _ hy)]

theorem sameLetters_length {s t : Str} (h : SameLetters s t) : t.length = s.length := by
  induction h with
  | nil => rfl
  | cons _ _ ih => simp [ih]

theorem sameLetters_positional {s t : Str} (h : SameLetters s t) (hs : ∀ c ∈ s, Hexadecimal c) :
    positional 16 t = positional 16 s := by
  unfold positional
  generalize 0 = n
  induction h generalizing n with
  | nil => rfl
  | cons hc _ ih =>
    simp only [List.foldl_cons]
    rw [(sameLetter_hexadecimal hc (hs _ List.mem_cons_self)).2]
    exact ih (fun y hy => hs y (List.mem_cons_of_mem _ hy)) _

theorem sameLetters_single {c : Char} {t : Str} (hc : c.toNat < 65 ∨ (90 < c.toNat ∧ c.toNat < 97) ∨ 122 < c.toNat)
    (h : SameLetters [c] t) : t = [c] := by
  cases h with
  | cons h h' =>
    cases h'
    rw [sameLetter_fixed h hc]

theorem sameLetters_head {c : Char} {s t : Str} (hc : c.toNat < 65 ∨ (90 < c.toNat ∧ c.toNat < 97) ∨ 122 < c.toNat)
    (h : SameLetters (c :: s) t) : ∃ s', t = c :: s' ∧ SameLetters s s' := by
  cases h with
  | cons h h' =>
    rw [sameLetter_fixed h hc]
    exact ⟨_, rfl, h'⟩

theorem stringBody_recased {s t : Str} (h : StringBody s) (ht : SameLetters s t) : StringBody t := by
  induction h generalizing t with
  | nil => cases ht; exact .nil
  | plain h1 h2 _ ih =>
    cases ht with
    | cons hc ht =>
      refine .plain ?_ ?_ (ih ht)
      · rintro rfl
        exact h1 (sameLetter_fixed (sameLetter_symm hc) (by decide))
      · rintro rfl
        exact h2 (sameLetter_fixed (sameLetter_symm hc) (by decide))
  | escape h1 _ ih =>
    obtain ⟨t, rfl, ht2⟩ := sameLetters_head (by decide) ht
    cases ht2 with
    | cons hc ht3 =>
      refine .escape ?_ (ih ht3)
      rintro rfl
      exact h1 (sameLetter_fixed (sameLetter_symm hc) (by decide))

/-! ### Tokens -/

/-- A re-cased token is a token of the same kind. -/
theorem lexeme_recased {s t : Str} {k : Loc → Token} (h : Lexeme bin s k) (ht : SameLetters s t) :
    ∃ k', Lexeme bin t k' ∧ (∀ l, Recased (k l) (k' l)) ∧ (IsError k ↔ IsError k') := by
  have noErr : ∀ {k : Loc → Token}, (∀ l e l', k l ≠ .error e l') → ¬ IsError k := by
    rintro k h ⟨e, rfl⟩
    exact h noLoc e noLoc rfl
  cases h with
  | newline =>
    rw [sameLetters_single (by decide) ht]
    exact ⟨_, .newline, fun _ => .same, Iff.rfl⟩
  | comma =>
    rw [sameLetters_single (by decide) ht]
    exact ⟨_, .comma, fun _ => .same, Iff.rfl⟩
  | labelMarker =>
    rw [sameLetters_single (by decide) ht]
    exact ⟨_, .labelMarker, fun _ => .same, Iff.rfl⟩
  | directiveMarker =>
    rw [sameLetters_single (by decide) ht]
    exact ⟨_, .directiveMarker, fun _ => .same, Iff.rfl⟩
  | @comment u hu =>
    have ht' := ht
    obtain ⟨u', rfl, hu'⟩ := sameLetters_head (by decide) ht
    refine ⟨_, .comment ?_, fun _ => .comment ht', iff_of_false (noErr (by simp)) (noErr (by simp))⟩
    intro hm
    refine hu ?_
    have := sameLetters_all (p := (· ≠ '\n')) (q := (· ≠ '\n')) (fun c d h hc hd => ?_) hu' (fun c hc e => ?_)
    · exact (this _ hm rfl).elim
    · exact hc (by rw [hd] at h; exact sameLetter_fixed (sameLetter_symm h) (by decide))
    · rw [e] at hc
      exact hu hc
  | @name c u hc hu =>
    cases ht with
    | cons h1 h2 =>
      exact ⟨_, .name (sameLetter_nameStart h1 hc) (sameLetters_all (fun _ _ => sameLetter_nameChar) h2 hu),
        fun _ => .name (.cons h1 h2), iff_of_false (noErr (by simp)) (noErr (by simp))⟩
  | @indirect c hc =>
    have ht' := ht
    obtain ⟨t, rfl, ht2⟩ := sameLetters_head (by decide) ht
    cases ht2 with
    | @cons _ d _ t h1 h2 =>
      rw [sameLetters_single (by decide) h2] at ht' ⊢
      refine ⟨_, .indirect ?_, fun _ => .name ht', iff_of_false (noErr (by simp)) (noErr (by simp))⟩
      rcases hc with rfl | rfl
      · rcases h1 with rfl | h | h
        · exact .inl rfl
        · exact absurd h.2.1 (by decide)
        · exact .inr (char_ext (by have := h.2.2; simp at this; simp; omega))
      · rcases h1 with rfl | h | h
        · exact .inr rfl
        · exact .inl (char_ext (by have := h.2.2; simp at this; simp; omega))
        · have := h.2.2
          have := h.1
          simp at *
          omega
  | @string u hu =>
    obtain ⟨t, rfl, ht2⟩ := sameLetters_head (by decide) ht
    obtain ⟨u', q, rfl, h1, h2⟩ := sameLetters_append ht2
    rw [sameLetters_single (by decide) h2]
    exact ⟨_, .string (stringBody_recased hu h1), fun _ => .string h1, iff_of_false (noErr (by simp)) (noErr (by simp))⟩
  | @hex c u hc h1 h2 h3 =>
    obtain ⟨t, rfl, ht2⟩ := sameLetters_head (by rcases hc with rfl | rfl <;> decide) ht
    have hl := sameLetters_length ht2
    refine ⟨_, .hex hc ?_ (by omega) (sameLetters_all (fun _ _ h h' => (sameLetter_hexadecimal h h').1) ht2 h3), ?_,
      iff_of_false (noErr (by simp)) (noErr (by simp))⟩
    · rintro rfl
      exact h1 (List.length_eq_zero_iff.1 hl.symm)
    · rw [sameLetters_positional ht2 h3]
      exact fun _ => .same
  | decimal h1 h2 h3 =>
    rw [sameLetters_eq (fun _ _ => sameLetter_decimal) ht h2]
    exact ⟨_, .decimal h1 h2 h3, fun _ => .same, Iff.rfl⟩
  | decimalRange h1 h2 h3 =>
    rw [sameLetters_eq (fun _ _ => sameLetter_decimal) ht h2]
    exact ⟨_, .decimalRange h1 h2 h3, fun _ => .same, Iff.rfl⟩
  | binary h1 h2 h3 =>
    obtain ⟨t, rfl, ht2⟩ := sameLetters_head (by decide) ht
    rw [sameLetters_eq (fun _ _ => sameLetter_binary) ht2 h2]
    exact ⟨_, .binary h1 h2 h3, fun _ => .same, Iff.rfl⟩
  | binaryRange h1 h2 h3 =>
    obtain ⟨t, rfl, ht2⟩ := sameLetters_head (by decide) ht
    rw [sameLetters_eq (fun _ _ => sameLetter_binary) ht2 h2]
    exact ⟨_, .binaryRange h1 h2 h3, fun _ => .same, Iff.rfl⟩

theorem longest_recased {s rest t rest' : Str} {k : Loc → Token} (h : Longest bin s rest k) (hs : SameLetters s t)
    (hr : SameLetters rest rest') :
    ∃ k', Longest bin t rest' k' ∧ (∀ l, Recased (k l) (k' l)) ∧ (IsError k ↔ IsError k') := by
  obtain ⟨k', h1, h2, h3⟩ := lexeme_recased h.1 hs
  refine ⟨k', longest_iff.2 ⟨h1, ?_⟩, h2, h3⟩
  rintro d r rfl ⟨k2, hj⟩
  cases hr with
  | @cons c _ rest _ hc hr =>
    obtain ⟨k3, h4, _⟩ := lexeme_recased hj (sameLetters_join hs.symm (.cons (sameLetter_symm hc) .nil))
    exact (longest_iff.1 h).2 c rest rfl ⟨k3, h4⟩

/-! ### Locations -/

theorem sameLetters_newlines {s t : Str} (h : SameLetters s t) : newlines t = newlines s := by
  unfold newlines
  induction h with
  | nil => rfl
  | @cons c d s t hc _ ih =>
    rw [List.count_cons, List.count_cons, ih]
    congr 1
    by_cases e : c = '\n'
    · subst e
      rw [sameLetter_fixed hc (by decide)]
    · have : d ≠ '\n' := by
        rintro rfl
        exact e (sameLetter_fixed (sameLetter_symm hc) (by decide))
      simp [e, this]

theorem sameLetters_reverse {s t : Str} (h : SameLetters s t) : SameLetters s.reverse t.reverse := by
  induction h with
  | nil => exact .nil
  | cons hc _ ih =>
    rw [List.reverse_cons, List.reverse_cons]
    exact sameLetters_join ih (.cons hc .nil)

theorem sameLetters_sinceNewline {s t : Str} (h : SameLetters s t) : sinceNewline t = sinceNewline s := by
  unfold sinceNewline
  have h := sameLetters_reverse h
  generalize s.reverse = a at h
  generalize t.reverse = b at h
  induction h with
  | nil => rfl
  | @cons c d s t hc _ ih =>
    by_cases e : c = '\n'
    · subst e
      rw [sameLetter_fixed hc (by decide)]
      simp
    · have : d ≠ '\n' := by
        rintro rfl
        exact e (sameLetter_fixed (sameLetter_symm hc) (by decide))
      rw [List.takeWhile_cons_of_pos (by simp [this]), List.takeWhile_cons_of_pos (by simp [e]), List.length_cons,
        List.length_cons, ih]

theorem sameLetters_firstLine {s t : Str} (h : SameLetters s t) : firstLine t = firstLine s := by
  induction h with
  | nil => rfl
  | @cons c d s t hc _ ih =>
    unfold firstLine
    by_cases e : c = '\n'
    · subst e
      rw [sameLetter_fixed hc (by decide)]
      rfl
    · have : d ≠ '\n' := by
        rintro rfl
        exact e (sameLetter_fixed (sameLetter_symm hc) (by decide))
      rw [if_neg e, if_neg this, ih]

theorem sameLetters_locate {file before before' s t : Str} (hb : SameLetters before before') (h : SameLetters s t) :
    locate file before' t = locate file before s := by
  unfold locate
  rw [sameLetters_newlines hb, sameLetters_sinceNewline hb, sameLetters_firstLine h]

/-! ### Texts -/

theorem lex_recased {file before text : Str} {ts : List Token} (h : Lex bin file before text ts) {before' text' : Str}
    (hb : SameLetters before before') (ht : SameLetters text text') :
    ∃ ts', Lex bin file before' text' ts' ∧ Each Recased ts ts' := by
  induction h generalizing before' text' with
  | done hbl =>
    rw [sameLetters_eq (fun _ _ => sameLetter_blank) ht hbl]
    exact ⟨[], .done hbl, .nil⟩
  | token hbl hL hE _ ih =>
    obtain ⟨u, rest', rfl, hu, hrest⟩ := sameLetters_append ht
    obtain ⟨bl, s', rfl, hbs, hs⟩ := sameLetters_append hu
    have e := sameLetters_eq (fun _ _ => sameLetter_blank) hbs hbl
    subst e
    obtain ⟨k', h1, h2, h3⟩ := longest_recased hL hs hrest
    have hb1 := sameLetters_join hb (Spec.SameLetters.refl bl)
    obtain ⟨ts', h4, h5⟩ := ih (sameLetters_join hb1 hs) hrest
    refine ⟨_, .token hbl h1 (fun h => hE (h3.2 h)) h4, ?_⟩
    rw [sameLetters_locate hb1 hs]
    exact .cons (h2 _) h5
  | outOfRange hbl hL hE =>
    obtain ⟨u, rest', rfl, hu, hrest⟩ := sameLetters_append ht
    obtain ⟨bl, s', rfl, hbs, hs⟩ := sameLetters_append hu
    have e := sameLetters_eq (fun _ _ => sameLetter_blank) hbs hbl
    subst e
    obtain ⟨k', h1, h2, h3⟩ := longest_recased hL hs hrest
    have hb1 := sameLetters_join hb (Spec.SameLetters.refl bl)
    refine ⟨_, .outOfRange hbl h1 (h3.1 hE), ?_⟩
    rw [sameLetters_locate hb1 hs]
    exact .cons (h2 _) .nil
  | @malformed before blanks rest c e hbl hc hno hm =>
    obtain ⟨bl, u, rfl, hbs, hu⟩ := sameLetters_append ht
    have e' := sameLetters_eq (fun _ _ => sameLetter_blank) hbs hbl
    subst e'
    have hb1 := sameLetters_join hb (Spec.SameLetters.refl bl)
    cases hu with
    | @cons _ d _ rest' hcd hr =>
      have hcd' : d = c := by
        rcases hcd with rfl | h | h
        · rfl
        · refine (hno [c] rest _ rfl (.name (.inr (.inr ?_)) (by simp))).elim
          unfold Capital at h
          simp only [char_le_iff]
          simp
          omega
        · refine (hno [c] rest _ rfl (.name (.inr (.inl ?_)) (by simp))).elim
          unfold Capital at h
          simp only [char_le_iff]
          simp
          omega
      subst hcd'
      refine ⟨_, .malformed hbl hc ?_ hm, ?_⟩
      · intro s r k e hk
        have := SameLetters.cons hcd (Spec.SameLetters.symm hr)
        rw [← e] at this
        obtain ⟨s', r', e', hs, _⟩ := sameLetters_append this
        obtain ⟨k', h', _⟩ := lexeme_recased hk hs
        exact hno s' r' k' e'.symm h'
      · rw [sameLetters_locate hb1 (Spec.SameLetters.refl [d])]
        exact .cons .same .nil

end C8S
