import Verif.Proofs.Edit
import Verif.Props.Tool

/- Errors do not depend on the text that follows. -/

namespace C8S

open Spec

variable {bin : Str → Nat}

theorem ends_suffix {x y t : Str} (h : x ++ y = t ++ ['\n']) (hy : y ≠ []) : ∃ u, y = u ++ ['\n'] := by
  rcases List.eq_nil_or_concat y with rfl | ⟨u, c, rfl⟩
  · exact (hy rfl).elim
  · rw [List.concat_eq_append, ← List.append_assoc] at h
    have := (List.append_inj' h rfl).2
    exact ⟨u, by rw [List.concat_eq_append, this]⟩

/-- A token followed by something stays the longest when more text is added. -/
theorem longest_more {s rest b : Str} {k : Loc → Token} (h : Longest bin s rest k) (hr : rest ≠ []) :
    Longest bin s (rest ++ b) k := by
  rw [longest_iff] at h ⊢
  refine ⟨h.1, fun d r e => ?_⟩
  cases rest with
  | nil => exact (hr rfl).elim
  | cons c rest =>
    rw [List.cons_append] at e
    injection e with e1 e2
    exact h.2 d rest (by rw [e1])

/-- A text of whole lines with a lexical error, other than a string that is not closed, has the same tokens when more
text is added. -/
theorem lex_error_more {file before text b : Str} {ts : List Token} (h : Lex bin file before text ts)
    (hw : ∃ t, text = t ++ ['\n']) {e : ScanError} {l : Loc} (he : .error e l ∈ ts) (hs : e ≠ .invalidStringLiteral) :
    Lex bin file before (text ++ b) ts := by
  induction h with
  | done => cases he
  | @token before blanks s rest k ts hb hL hE hr ih =>
    have he' : .error e l ∈ ts := by
      rcases List.mem_cons.1 he with h | h
      · refine (hE ?_).elim
        obtain ⟨hx, _⟩ := hL
        cases hx <;> first | exact ⟨_, rfl⟩ | cases h
      · exact h
    have hne : rest ≠ [] := by
      rintro rfl
      cases lex_unique hr (.done (by simp))
      cases he'
    obtain ⟨t, e⟩ := hw
    have hw' := ends_suffix e hne
    rw [List.append_assoc]
    exact .token hb (longest_more hL hne) hE (ih hw' he')
  | @outOfRange before blanks s rest k hb hL hE =>
    have hne : rest ≠ [] := by
      rintro rfl
      obtain ⟨t, e⟩ := hw
      obtain ⟨x, _⟩ := hL
      rw [List.append_nil] at e
      obtain ⟨u, rfl⟩ := ends_suffix e (lexeme_ne_nil x)
      obtain ⟨er, rfl⟩ := hE
      generalize hu : u ++ ['\n'] = s at x
      have hm : '\n' ∈ s := by rw [← hu]; simp
      generalize hk : Token.error er = k at x
      cases x with
      | decimalRange _ h => exact absurd (h _ hm) (by decide)
      | binaryRange _ h =>
        rcases List.mem_cons.1 hm with h' | h'
        · exact absurd h' (by decide)
        · exact absurd (h _ h') (by decide)
      | _ => have := congrFun hk noLoc; cases this
    rw [List.append_assoc]
    exact .outOfRange hb (longest_more hL hne) hE
  | @malformed before blanks rest c er hb hc hno hm =>
    rw [List.append_assoc, List.cons_append]
    refine .malformed hb hc ?_ hm
    intro s rest' k e' hx
    obtain ⟨t, e⟩ := hw
    obtain ⟨u, hu⟩ := ends_suffix e (by simp)
    rw [List.mem_singleton] at he
    cases he
    rw [← List.cons_append] at e'
    rcases List.append_eq_append_iff.1 e' with ⟨v, h1, h2⟩ | ⟨v, h1, h2⟩
    · exact hno s v k h1.symm hx
    · have hmem : '\n' ∈ s := by rw [h1, hu]; simp
      rcases lexeme_newline_mem hx hmem with rfl | ⟨body, rfl, _⟩
      · have : c = '\n' := by
          rw [List.cons_append] at h1
          exact (List.cons.inj h1).1.symm
        subst this
        exact hno ['\n'] rest _ rfl .newline
      · have : c = '"' := by
          rw [List.cons_append] at h1
          exact (List.cons.inj h1).1.symm
        subst this
        cases hm with
        | string => exact hs rfl
        | hex h => simp at h
        | other h => exact h rfl

theorem lex_newline_last {file : Str} {t : Str} {ts : List Token} (h : Lex bin file [] (t ++ ['\n']) ts)
    (hn : NoLexError ts) : ∃ p l, ts = p ++ [.newline l] := by
  obtain ⟨p, hp⟩ := cut_whole (cut_of_lex h hn)
  rcases List.eq_nil_or_concat ts with rfl | ⟨q, x, rfl⟩
  · simp at hp
  · rw [List.concat_eq_append, List.map_append] at hp
    have := (List.append_inj' hp rfl).2
    cases x <;> simp [bare, mapLoc] at this
    exact ⟨q, _, List.concat_eq_append⟩

theorem program_split {ts : List Token} {ns : List Node} (h : Program ts ns) {a r : List Token} {t : Token}
    (ht : IsNewline t) (e : ts = a ++ t :: r) :
    ∃ n1 n2, ns = n1 ++ n2 ∧ Program (a ++ [t]) n1 ∧ Program r n2 := by
  induction h generalizing a with
  | empty => simp at e
  | @blank x ts ns hb hp ih =>
    cases a with
    | nil =>
      simp only [List.nil_append, List.cons.injEq] at e
      obtain ⟨rfl, rfl⟩ := e
      exact ⟨[], ns, rfl, .blank hb .empty, hp⟩
    | cons y a =>
      simp only [List.cons_append, List.cons.injEq] at e
      obtain ⟨rfl, e⟩ := e
      obtain ⟨n1, n2, rfl, h1, h2⟩ := ih e
      exact ⟨n1, n2, rfl, .blank hb h1, h2⟩
  | @label s l l' ts ns hp ih =>
    obtain ⟨ln, rfl⟩ := ht
    match a, e with
    | [_], e => simp at e
    | _ :: _ :: a, e =>
      simp only [List.cons_append, List.cons.injEq] at e
      obtain ⟨rfl, rfl, e⟩ := e
      obtain ⟨n1, n2, rfl, h1, h2⟩ := ih e
      exact ⟨_ :: n1, n2, rfl, .label h1, h2⟩
  | @directive s l l' o args ts xs ns hi ho hp ih =>
    obtain ⟨ln, rfl⟩ := ht
    match a, e with
    | [_], e => simp at e
    | _ :: _ :: a, e =>
      simp only [List.cons_append, List.cons.injEq] at e
      obtain ⟨rfl, rfl, e⟩ := e
      obtain ⟨a', rfl, rfl⟩ := split_list (items_no_blank literal_no_blank hi) (.inl ⟨ln, rfl⟩) e
      obtain ⟨n1, n2, rfl, h1, h2⟩ := ih rfl
      refine ⟨_ :: n1, n2, rfl, ?_, h2⟩
      rw [List.cons_append, List.cons_append, List.append_assoc]
      refine .directive hi (fun h => ?_) h1
      obtain ⟨x, q, hx, hq⟩ := ho h
      cases a' with
      | nil => exact ⟨_, _, rfl, ⟨ln, rfl⟩⟩
      | cons y a' =>
        simp only [List.cons_append, List.cons.injEq] at hx
        exact ⟨_, _, rfl, hx.1 ▸ hq⟩
  | @instruction s l o args ts fs ns hi ho hp ih =>
    obtain ⟨ln, rfl⟩ := ht
    match a, e with
    | _ :: a, e =>
      simp only [List.cons_append, List.cons.injEq] at e
      obtain ⟨rfl, e⟩ := e
      obtain ⟨a', rfl, rfl⟩ := split_list (items_no_blank operand_no_blank hi) (.inl ⟨ln, rfl⟩) e
      obtain ⟨n1, n2, rfl, h1, h2⟩ := ih rfl
      refine ⟨_ :: n1, n2, rfl, ?_, h2⟩
      rw [List.cons_append, List.append_assoc]
      refine .instruction hi (fun h => ?_) h1
      obtain ⟨x, q, hx, hq⟩ := ho h
      cases a' with
      | nil => exact ⟨_, _, rfl, .inl ⟨ln, rfl⟩⟩
      | cons y a' =>
        simp only [List.cons_append, List.cons.injEq] at hx
        exact ⟨_, _, rfl, hx.1 ▸ hq⟩

end C8S
