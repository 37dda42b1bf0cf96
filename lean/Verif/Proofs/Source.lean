import Verif.Spec.Source
import Verif.Proofs.Numerals
import Verif.Proofs.Text

/- Canonical source text. -/

namespace C8S

open Spec

variable {bin : Str → Nat}

/-- A token written in the text that does not run into what follows a blank, a comma, a colon or a newline. -/
def Plain (bin : Str → Nat) (s : Str) (k : Loc → Token) : Prop := Lexeme bin s k ∧ ¬ IsError k ∧ ∀ t, s ≠ ';' :: t

theorem plain_joins {s : Str} {k : Loc → Token} {d : Char} (h : Plain bin s k) (hd : ¬ (NameChar d ∨ d = '.')) :
    ¬ Joins bin s d := by
  intro hj
  rcases joins_char h.1 hj with ⟨t, e, _⟩ | ⟨_, h'⟩
  · exact h.2.2 t e
  · exact hd h'

theorem cut_plain {s rest : Str} {k : Loc → Token} {d : Char} {ts : List Token} (h : Plain bin s k)
    (hd : ¬ (NameChar d ∨ d = '.')) (hr : Cut bin (d :: rest) ts) : Cut bin (s ++ d :: rest) (k noLoc :: ts) :=
  cut_cons h.1 h.2.1 (fun _ _ e => by cases e; exact plain_joins h hd) hr

theorem cut_newline {rest : Str} {ts : List Token} (h : Cut bin rest ts) : Cut bin ('\n' :: rest) (.newline noLoc :: ts) := by
  refine cut_cons (s := ['\n']) .newline (error_not_at (by simp)) ?_ h
  rintro d r rfl ⟨k, hk⟩
  exact absurd (lexeme_newline (t := [d]) hk).1 (by simp)

theorem cut_comma {rest : Str} {ts : List Token} (h : Cut bin rest ts) : Cut bin (',' :: rest) (.comma noLoc :: ts) := by
  refine cut_cons (s := [',']) .comma (error_not_at (by simp)) ?_ h
  rintro d r rfl ⟨k, hk⟩
  exact absurd (lexeme_comma (t := [d]) hk).1 (by simp)

theorem cut_colon {rest : Str} {ts : List Token} (h : Cut bin rest ts) : Cut bin (':' :: rest) (.labelMarker noLoc :: ts) := by
  refine cut_cons (s := [':']) .labelMarker (error_not_at (by simp)) ?_ h
  rintro d r rfl ⟨k, hk⟩
  exact absurd (lexeme_labelMarker (t := [d]) hk).1 (by simp)

theorem cut_dot {rest : Str} {ts : List Token} (h : Cut bin rest ts) :
    Cut bin ('.' :: rest) (.directiveMarker noLoc :: ts) := by
  refine cut_cons (s := ['.']) .directiveMarker (error_not_at (by simp)) ?_ h
  rintro d r rfl ⟨k, hk⟩
  exact absurd (lexeme_directiveMarker (t := [d]) hk).1 (by simp)

theorem cut_space {rest : Str} {ts : List Token} (h : Cut bin rest ts) : Cut bin (' ' :: rest) ts :=
  cut_blanks (blanks := [' ']) (by decide) h

/-- The tokens of a comma-separated list. -/
def commas : List Token → List Token
  | [] => []
  | [t] => [t]
  | t :: t' :: r => t :: .comma noLoc :: commas (t' :: r)

theorem cut_separated {α : Type} (text : α → Str) (kind : α → Loc → Token) (xs : List α)
    (h : ∀ x ∈ xs, Plain bin (text x) (kind x)) {rest : Str} {ts : List Token} (hr : Cut bin ('\n' :: rest) ts) :
    Cut bin (separated (xs.map text) ++ '\n' :: rest) (commas (xs.map fun x => kind x noLoc) ++ ts) := by
  induction xs with
  | nil => exact hr
  | cons x xs ih =>
    have ih := ih fun y hy => h y (List.mem_cons_of_mem _ hy)
    have hx := h x List.mem_cons_self
    cases xs with
    | nil => exact cut_plain hx (by decide) hr
    | cons y ys =>
      simp only [List.map_cons, separated, commas] at ih ⊢
      rw [show text x ++ ", ".toList ++ separated (text y :: List.map text ys) ++ '\n' :: rest =
        text x ++ ',' :: ' ' :: (separated (text y :: List.map text ys) ++ '\n' :: rest) by simp]
      exact cut_plain hx (by decide) (cut_comma (cut_space ih))

theorem items_commas {α : Type} {item : Token → α → Prop} (kind : α → Loc → Token) (xs : List α)
    (h : ∀ x ∈ xs, item (kind x noLoc) x) :
    ItemList item xs.isEmpty (commas (xs.map fun x => kind x noLoc)) xs := by
  induction xs with
  | nil => exact .empty
  | cons x xs ih =>
    have ih := ih fun y hy => h y (List.mem_cons_of_mem _ hy)
    have hx := h x List.mem_cons_self
    cases xs with
    | nil => exact .one hx
    | cons y ys => exact .more hx ih

theorem name_plain {s : Str} (h : IsName s) : Plain bin s (.identifier s) := by
  rcases h with ⟨c, t, rfl, hc, ht⟩ | rfl | rfl
  · refine ⟨.name hc ht, error_not_at (by simp), ?_⟩
    intro u e
    cases e
    exact absurd hc (by decide)
  · exact ⟨.indirect (.inl rfl), error_not_at (by simp), by simp⟩
  · exact ⟨.indirect (.inr rfl), error_not_at (by simp), by simp⟩

/-! ### Arguments and operands -/

def argumentKind : Literal → Loc → Token
  | .string s => .stringLiteral s
  | .numeric n => .numericLiteral n

theorem digits_plain {n : Nat} (h : n ≤ 4095) : Plain bin (Nat.toDigits 10 n) (.numericLiteral n) := by
  refine ⟨lexeme_toDigits bin h, error_not_at (by simp), ?_⟩
  intro t e
  have := toDigits_all (b := 10) (by omega) digitChar_decimal n ';' (by rw [e]; simp)
  exact absurd this (by decide)

theorem argument_plain {x : Literal} (h : ArgumentFormed x) : Plain bin (argumentText x) (argumentKind x) := by
  cases x with
  | string s => exact ⟨.string h, error_not_at (by simp [argumentKind]), by simp [argumentText]⟩
  | numeric n => exact digits_plain h

theorem argument_token (x : Literal) (l : Loc) : LiteralTok (argumentKind x l) x := by
  cases x <;> constructor

def operandKind : Field → Loc → Token
  | .numericLiteral w => .numericLiteral w.toNat
  | f => .identifier (operandText f)

theorem register_digit : ∀ n, n < 16 → HexDigit (hexDigits.getD n '?') n := by decide

theorem digit_nameChar : ∀ n, n < 16 → NameChar (hexDigits.getD n '?') := by decide

theorem operand_plain {f : Field} (h : OperandFormed f) : Plain bin (operandText f) (operandKind f) := by
  have hn : ∀ {s : Str}, IsName s → Plain bin s (.identifier s) := name_plain
  cases f with
  | numericLiteral w => exact digits_plain (by have := w.isLt; omega)
  | generalPurposeRegister r =>
    have hr : r.toNat ≤ 15 := h
    refine hn (.inl ⟨'v', _, rfl, by decide, ?_⟩)
    intro d hd
    rw [List.mem_singleton.1 hd]
    exact digit_nameChar _ (by omega)
  | identifier s => exact hn h.1
  | indexRegisterIndirect => exact hn (.inr (.inl rfl))
  | delayTimer => exact hn (.inl ⟨_, _, rfl, by decide, by decide⟩)
  | soundTimer => exact hn (.inl ⟨_, _, rfl, by decide, by decide⟩)
  | keypadRegister => exact hn (.inl ⟨_, _, rfl, by decide, by decide⟩)
  | indexRegister => exact hn (.inl ⟨_, _, rfl, by decide, by decide⟩)
  | bcd => exact hn (.inl ⟨_, _, rfl, by decide, by decide⟩)
  | sprite => exact hn (.inl ⟨_, _, rfl, by decide, by decide⟩)

theorem operand_token {f : Field} (h : OperandFormed f) (l : Loc) : OperandTok (operandKind f l) f := by
  cases f with
  | numericLiteral w => exact .numeric (by have := w.isLt; omega)
  | generalPurposeRegister r =>
    have hr : r.toNat ≤ 15 := h
    exact .name (.register (.general (.inl rfl) (register_digit _ (by omega))))
  | identifier s => exact .name (.label h.2)
  | _ => exact .name (.register (.special (by decide)))

/-! ### Lines -/

/-- The tokens of a statement. -/
def lineTokens : Node → List Token
  | .label _ s => [.identifier s noLoc, .labelMarker noLoc, .newline noLoc]
  | .directive _ s xs => .directiveMarker noLoc :: .identifier s noLoc ::
      (commas (xs.map fun x => argumentKind x noLoc) ++ [.newline noLoc])
  | .instruction _ s fs => .identifier s noLoc :: (commas (fs.map fun f => operandKind f noLoc) ++ [.newline noLoc])

theorem cut_line {n : Node} (h : Formed n) {rest : Str} {ts : List Token} (hr : Cut bin rest ts) :
    Cut bin (lineText n ++ rest) (lineTokens n ++ ts) := by
  cases n with
  | label l s =>
    rw [show lineText (.label l s) ++ rest = s ++ ':' :: '\n' :: rest by simp [lineText]]
    exact cut_plain (name_plain h) (by decide) (cut_colon (cut_newline hr))
  | directive l s xs =>
    rw [show lineText (.directive l s xs) ++ rest = '.' :: (s ++ ' ' :: (separated (xs.map argumentText) ++ '\n' :: rest)) by
      simp [lineText]]
    rw [show lineTokens (.directive l s xs) ++ ts = .directiveMarker noLoc :: .identifier s noLoc ::
      (commas (xs.map fun x => argumentKind x noLoc) ++ .newline noLoc :: ts) by simp [lineTokens]]
    exact cut_dot (cut_plain (name_plain h.1) (by decide)
      (cut_space (cut_separated argumentText argumentKind xs (fun x hx => argument_plain (h.2 x hx)) (cut_newline hr))))
  | instruction l s fs =>
    rw [show lineText (.instruction l s fs) ++ rest = s ++ ' ' :: (separated (fs.map operandText) ++ '\n' :: rest) by
      simp [lineText]]
    rw [show lineTokens (.instruction l s fs) ++ ts = .identifier s noLoc ::
      (commas (fs.map fun x => operandKind x noLoc) ++ .newline noLoc :: ts) by simp [lineTokens]]
    exact cut_plain (name_plain h.1) (by decide)
      (cut_space (cut_separated operandText operandKind fs (fun x hx => operand_plain (h.2 x hx)) (cut_newline hr)))

theorem program_line {n : Node} (h : Formed n) {ts : List Token} {ns : List Node} (hp : Program ts ns) :
    Program (lineTokens n ++ ts) (bareNode n :: ns) := by
  have hnl : Program (.newline noLoc :: ts) ns := .blank (.inl ⟨_, rfl⟩) hp
  cases n with
  | label l s => exact .label hnl
  | directive l s xs =>
    rw [show lineTokens (.directive l s xs) ++ ts = .directiveMarker noLoc :: .identifier s noLoc ::
      (commas (xs.map fun x => argumentKind x noLoc) ++ .newline noLoc :: ts) by simp [lineTokens]]
    exact .directive (items_commas argumentKind xs fun x _ => argument_token x _) (fun _ => ⟨_, _, rfl, _, rfl⟩) hnl
  | instruction l s fs =>
    rw [show lineTokens (.instruction l s fs) ++ ts = .identifier s noLoc ::
      (commas (fs.map fun x => operandKind x noLoc) ++ .newline noLoc :: ts) by simp [lineTokens]]
    exact .instruction (items_commas operandKind fs fun x hx => operand_token (h.2 x hx) _)
      (fun _ => ⟨_, _, rfl, .inl ⟨_, rfl⟩⟩) hnl

theorem cut_source {ns : List Node} (h : ∀ n ∈ ns, Formed n) :
    Cut bin (sourceText ns) (ns.flatMap lineTokens) ∧ Program (ns.flatMap lineTokens) (ns.map bareNode) := by
  induction ns with
  | nil => exact ⟨.done (by simp [sourceText]), .empty⟩
  | cons n ns ih =>
    obtain ⟨h1, h2⟩ := ih fun m hm => h m (List.mem_cons_of_mem _ hm)
    have hn := h n List.mem_cons_self
    exact ⟨cut_line hn h1, program_line hn h2⟩

/-! ### What the parser yields can be written -/

theorem lexed_tokens {file before text : Str} {ts : List Token} (h : Lex bin file before text ts) : ∀ t ∈ ts,
    (∀ s l, t = .identifier s l → IsName s) ∧ (∀ s l, t = .stringLiteral s l → StringBody s) ∧
      ∀ n l, t = .numericLiteral n l → n ≤ 4095 := by
  intro t ht
  refine ⟨?_, ?_, ?_⟩
  · rintro s l rfl
    exact lex_identifier_mem h ht
  · rintro s l rfl
    exact lex_string_mem h ht
  · rintro n l rfl
    exact lex_numeric_mem h ht

theorem program_formed {ts : List Token} {ns : List Node} (h : Program ts ns)
    (ht : ∀ t ∈ ts, (∀ s l, t = .identifier s l → IsName s) ∧ (∀ s l, t = .stringLiteral s l → StringBody s) ∧
      ∀ n l, t = .numericLiteral n l → n ≤ 4095) : ∀ n ∈ ns, Formed n := by
  have hitems : ∀ {α : Type} {item : Token → α → Prop} {b : Bool} {args : List Token} {xs : List α},
      ItemList item b args xs → ∀ x ∈ xs, ∃ t ∈ args, item t x := by
    intro α item b args xs h
    induction h with
    | empty => simp
    | one hx =>
      intro x hm
      rw [List.mem_singleton.1 hm]
      exact ⟨_, List.mem_singleton_self _, hx⟩
    | more hx _ ih =>
      intro x hm
      rcases List.mem_cons.1 hm with rfl | hm
      · exact ⟨_, List.mem_cons_self, hx⟩
      · obtain ⟨t, ht, hi⟩ := ih x hm
        exact ⟨t, by simp [ht], hi⟩
  induction h with
  | empty => simp
  | blank _ _ ih => exact ih fun t hm => ht t (List.mem_cons_of_mem _ hm)
  | @label s l l' ts ns _ ih =>
    intro n hn
    rcases List.mem_cons.1 hn with rfl | hn
    · exact (ht (.identifier s l) (by simp)).1 s l rfl
    · exact ih (fun t hm => ht t (by simp [hm])) n hn
  | @directive s l l' isOpen args ts xs ns hi _ _ ih =>
    intro n hn
    rcases List.mem_cons.1 hn with rfl | hn
    · refine ⟨(ht (.identifier s l) (by simp)).1 s l rfl, ?_⟩
      intro x hx
      obtain ⟨t, hm, hl⟩ := hitems hi x hx
      have := ht t (by simp [hm])
      cases hl with
      | string => exact this.2.1 _ _ rfl
      | numeric => exact this.2.2 _ _ rfl
    · exact ih (fun t hm => ht t (by simp [hm])) n hn
  | @instruction s l isOpen args ts fs ns hi _ _ ih =>
    intro n hn
    rcases List.mem_cons.1 hn with rfl | hn
    · refine ⟨(ht (.identifier s l) (by simp)).1 s l rfl, ?_⟩
      intro x hx
      obtain ⟨t, hm, hl⟩ := hitems hi x hx
      have := ht t (by simp [hm])
      cases hl with
      | numeric => trivial
      | name ho =>
        cases ho with
        | label hno => exact ⟨this.1 _ _ rfl, hno⟩
        | register hr =>
          cases hr with
          | general hv hd =>
            show _ ≤ 15
            unfold HexDigit at hd
            omega
          | special hs =>
            simp only [specialNames, List.mem_cons, Prod.mk.injEq, List.not_mem_nil, or_false] at hs
            rcases hs with h | h | h | h | h | h | h | h | h | h | h | h | h | h <;> (rw [h.2]; trivial)
    · exact ih (fun t hm => ht t (by simp [hm])) n hn

end C8S
