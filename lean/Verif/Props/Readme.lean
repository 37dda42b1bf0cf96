import Verif.Proofs.Standing
import Verif.Props.Respell

/- Property C100: where a label may stand for a literal. -/

namespace C8S

open Spec RespellExample

theorem fitsAll_swap {L : LabelMap} {v : Vars} {f f' : Field} {gs : List Field}
    (h : ∀ s, Fits L v s f → Fits L v s f') : ∀ {fs : List Field} {slots : List Slot},
    FitsAll L v slots (fs ++ f :: gs) → FitsAll L v slots (fs ++ f' :: gs)
  | [], _, .cons h1 h2 => .cons (h _ h1) h2
  | _ :: _, _, .cons h1 h2 => .cons h1 (fitsAll_swap h h2)

theorem fits_label {L : LabelMap} {v : Vars} {name : Str} {w : U12} (h : L.get name = some w) (s : Slot) :
    Fits L v s (.numericLiteral w) ↔ Fits L v s (.identifier name) := by
  have hd : ∀ k, Denotes L (.numericLiteral w) k ↔ Denotes L (.identifier name) k := by
    intro k
    constructor
    · intro hk
      cases hk
      exact .label h
    · intro hk
      cases hk with
      | label h' =>
        cases h.symm.trans h'
        exact .literal w
  constructor
  · intro hf
    cases hf with
    | nn h1 h2 => exact .nn ((hd _).1 h1) h2
    | n h1 h2 => exact .n ((hd _).1 h1) h2
    | addr h1 => exact .addr ((hd _).1 h1)
  · intro hf
    cases hf with
    | nn h1 h2 => exact .nn ((hd _).2 h1) h2
    | n h1 h2 => exact .n ((hd _).2 h1) h2
    | addr h1 => exact .addr ((hd _).2 h1)

theorem block_swap {L : LabelMap} {l : Loc} {m : Str} {fs gs : List Field} {f f' : Field}
    (h : ∀ v s, Fits L v s f → Fits L v s f') {bytes : List U8} (he : EmitsBlock L [.instruction l m (fs ++ f :: gs)] bytes) :
    EmitsBlock L [.instruction l m (fs ++ f' :: gs)] bytes := by
  cases he with
  | cons he hn =>
    refine .cons ?_ hn
    cases he with
    | instruction he =>
      obtain ⟨row, hr, v, h1, h2, h3⟩ := he
      exact .instruction ⟨row, hr, v, h1, fitsAll_swap (h v) h2, h3⟩

theorem sameSize_one (l : Loc) (m : Str) (fs gs : List Field) : SameSize [.instruction l m fs] [.instruction l m gs] := by
  refine ⟨?_, ?_, by simp, by simp, 2, .cons .instruction .nil, .cons .instruction .nil⟩
  · intro n hn
    cases List.mem_singleton.1 hn
    exact .inl ⟨_, _, _, rfl⟩
  · intro n hn
    cases List.mem_singleton.1 hn
    exact .inl ⟨_, _, _, rfl⟩

/-- One operand of a program written as the label of the same value. -/
theorem assemble_swap {A B : List Node} {l : Loc} {m : Str} {fs gs : List Field} {w : U12} {name : Str}
    (h : LabelValue (A ++ .instruction l m (fs ++ .numericLiteral w :: gs) :: B) name w) (ranges : List DataRange) :
    assemble (A ++ .instruction l m (fs ++ .numericLiteral w :: gs) :: B) = .ret (.ok ranges) ↔
      assemble (A ++ .instruction l m (fs ++ .identifier name :: gs) :: B) = .ret (.ok ranges) := by
  have hs := sameSize_one l m (fs ++ .numericLiteral w :: gs) (fs ++ .identifier name :: gs)
  constructor
  · exact fun ha => hs.assemble (A := A) (B := B) (fun L hl bytes he =>
      block_swap (fun v s => (fits_label ((hl name w).2 h) s).1) he) ha
  · exact fun ha => hs.symm.assemble (A := A) (B := B) (fun L hl bytes he =>
      block_swap (fun v s => (fits_label (((hs.labelsOf (A := A) (B := B)).2 hl name w).2 h) s).2) he) ha

/-- C100: an argument of a directive may not be a label: the replaced text is rejected, and the message says that a
literal is expected in the place of the name. -/
theorem C100_directive (pre post : List Token) (n : Nat) (l : Loc) (name : Str) (ns : List Node)
    (h : parse (pre ++ .numericLiteral n l :: post) = .ret (.ok ns)) (ho : OpenDirective pre) :
    parse (pre ++ .identifier name l :: post) =
      .ret (.error (.unexpectedToken ["numeric literal".toList, "string literal".toList] (.identifier name l))) := by
  obtain ⟨p, l', s, l1, args, xs, rfl, hi⟩ := ho
  have h1 := (parse_ok_iff _ _).1 h
  rw [List.append_assoc, List.cons_append, List.cons_append] at h1 ⊢
  obtain ⟨ns', hp⟩ := program_before_marker h1 rfl
  exact argument_error hp hi (fun x h => by cases h) (by rintro ⟨_, h⟩; cases h) post

namespace ReadmeExample

/-- `five: .equ 5` and the tokens of a statement on the next line. -/
def five (ts : List Token) : List Token := [.identifier "five".toList noLoc, .labelMarker noLoc, .directiveMarker noLoc,
  .identifier "equ".toList noLoc, .numericLiteral 5 noLoc, .newline noLoc] ++ ts

/-- `ld v1,` -/
def load : List Token := five [.identifier "ld".toList noLoc, .identifier "v1".toList noLoc, .comma noLoc]

/-- `.db 7,` -/
def data : List Token := five [.directiveMarker noLoc, .identifier "db".toList noLoc, .numericLiteral 7 noLoc, .comma noLoc]

def fiveNodes : List Node := [.label noLoc "five".toList, .directive noLoc "equ".toList [.numeric 5]]

def loadNodes : List Node := fiveNodes ++ [.instruction noLoc "ld".toList [.generalPurposeRegister 1, .numericLiteral 5]]

def dataNodes : List Node := fiveNodes ++ [.directive noLoc "db".toList [.numeric 7, .numeric 5]]

theorem parse_load : parse (load ++ .numericLiteral 5 noLoc :: []) = .ret (.ok loadNodes) := by rfl

theorem parse_data : parse (data ++ .numericLiteral 5 noLoc :: []) = .ret (.ok dataNodes) := by rfl

theorem five_value (ns : List Node) : LabelValue (fiveNodes ++ ns) "five".toList 5 :=
  LabelValue.constant (pre := []) (post := .directive noLoc "equ".toList [.numeric 5] :: ns)
    (.intro (.equ 5 (by decide)))

theorem open_data : OpenDirective data :=
  ⟨five [], noLoc, "db".toList, noLoc, [.numericLiteral 7 noLoc, .comma noLoc], [.numeric 7], rfl, .more .numeric .empty⟩

theorem load_closed : ¬ OpenDirective load := by
  intro ho
  have h := C100_directive load [] 5 noLoc "five".toList _ parse_load ho
  have h' : parse (load ++ .identifier "five".toList noLoc :: []) = .ret (.ok (fiveNodes ++
    [.instruction noLoc "ld".toList [.generalPurposeRegister 1, .identifier "five".toList]])) := by rfl
  rw [h'] at h
  cases h

end ReadmeExample

open ReadmeExample

example : parse (data ++ .identifier "five".toList noLoc :: []) = .ret (.error (.unexpectedToken
    ["numeric literal".toList, "string literal".toList] (.identifier "five".toList noLoc))) :=
  C100_directive data [] 5 noLoc "five".toList _ parse_data open_data

/-- C100: a numeric literal may be replaced by a label with its value, with the same output: the replaced text is still
a program, and assembles to the same ranges or, like the first one, not at all. Partial: not if the literal is an
argument of a directive (see `C100_directive`, `C100_claim_false`). -/
theorem C100_label_partial (pre post : List Token) (n : Nat) (l : Loc) (name : Str) (ns : List Node) (w : U12)
    (h : parse (pre ++ .numericLiteral n l :: post) = .ret (.ok ns)) (hv : LabelValue ns name w) (hn : n = w.toNat)
    (hr : ∀ f, ¬ RegisterNamed name f) (ho : ¬ OpenDirective pre) :
    ∃ ns', parse (pre ++ .identifier name l :: post) = .ret (.ok ns') ∧
      ∀ ranges, assemble ns = .ret (.ok ranges) ↔ assemble ns' = .ret (.ok ranges) := by
  rcases numeral_place ((parse_ok_iff _ _).1 h) rfl with ⟨p, _, l1, d, l2, args, xs, _, e, hi⟩ |
    ⟨ns1, l1, m, fs, w', gs, ns2, rfl, h2, h3⟩
  · exact (ho ⟨p, l1, d, l2, args, xs, e, hi⟩).elim
  · have hw : w' = w := by
      apply BitVec.eq_of_toNat_eq
      have := w.isLt
      omega
    subst hw
    exact ⟨_, (parse_ok_iff _ _).2 (h3 _ _ (.name (.label hr))), fun r => assemble_swap hv r⟩

example : ∃ ns', parse (load ++ .identifier "five".toList noLoc :: []) = .ret (.ok ns') ∧
    ∀ ranges, assemble loadNodes = .ret (.ok ranges) ↔ assemble ns' = .ret (.ok ranges) :=
  C100_label_partial load [] 5 noLoc "five".toList _ 5 parse_load (five_value _) (by decide)
    (not_register (by decide) (by decide) (by decide)) load_closed

example : assemble loadNodes = .ret (.ok [⟨0, [0x61, 0x05]⟩]) := rfl

/-- C100: the same of texts that differ in one token, a number in the one and the name of a label in the other. -/
theorem C100_text_partial [Target] (file text text' : Str) (pre post : List Token) (n : Nat) (name : Str) (ns : List Node) (w : U12)
    (hc : Cut wordBinary text (pre ++ .numericLiteral n noLoc :: post))
    (hc' : Cut wordBinary text' (pre ++ .identifier name noLoc :: post))
    (h : parse (pre ++ .numericLiteral n noLoc :: post) = .ret (.ok ns)) (hv : LabelValue ns name w) (hn : n = w.toNat)
    (hr : ∀ f, ¬ RegisterNamed name f) (ho : ¬ OpenDirective pre) (bytes : List (Nat × U8)) :
    Describes wordBinary file text bytes ↔ Describes wordBinary file text' bytes := by
  obtain ⟨ns', h1, h2⟩ := C100_label_partial pre post n noLoc name ns w h hv hn hr ho
  rw [describes_of_cut hc ((parse_ok_iff _ _).1 h), describes_of_cut hc' ((parse_ok_iff _ _).1 h1)]
  simp only [h2]

namespace ReadmeExample

theorem cut_load : Cut wordBinary "five: .equ 5\nld v1, 5".toList (load ++ .numericLiteral 5 noLoc :: []) := by
  obtain ⟨ts, h, e, hn⟩ : ∃ ts, scan [] "five: .equ 5\nld v1, 5".toList = .ret ts ∧
      ts.map bare = load ++ .numericLiteral 5 noLoc :: [] ∧ NoLexError ts :=
    ⟨_, by rfl, by rfl, by simp [NoLexError]⟩
  exact e ▸ cut_of_scan h hn

theorem cut_five : Cut wordBinary "five: .equ 5\nld v1, five".toList (load ++ .identifier "five".toList noLoc :: []) := by
  obtain ⟨ts, h, e, hn⟩ : ∃ ts, scan [] "five: .equ 5\nld v1, five".toList = .ret ts ∧
      ts.map bare = load ++ .identifier "five".toList noLoc :: [] ∧ NoLexError ts :=
    ⟨_, by rfl, by rfl, by simp [NoLexError]⟩
  exact e ▸ cut_of_scan h hn

end ReadmeExample

example (bytes : List (Nat × U8)) : Describes wordBinary [] "five: .equ 5\nld v1, 5".toList bytes ↔
    Describes wordBinary [] "five: .equ 5\nld v1, five".toList bytes :=
  C100_text_partial [] _ _ load [] 5 "five".toList _ 5 cut_load cut_five parse_load (five_value _) (by decide)
    (not_register (by decide) (by decide) (by decide)) load_closed bytes

/-- C100: a text with a label as an argument of a directive has no output. -/
theorem C100_directive_text [Target] (file text : Str) (pre post : List Token) (name : Str)
    (hc : Cut wordBinary text (pre ++ .identifier name noLoc :: post)) (ho : OpenDirective pre) (bytes : List (Nat × U8)) :
    ¬ Describes wordBinary file text bytes := by
  intro hd
  obtain ⟨ts, ns, r, h1, h2, _⟩ := (describes_cut _ _ _).1 hd
  cases cut_unique h1 hc
  obtain ⟨p, l', s, l1, args, xs, rfl, hi⟩ := ho
  rw [List.append_assoc, List.cons_append, List.cons_append] at h2
  obtain ⟨ns', hp⟩ := program_before_marker h2 rfl
  have := argument_error (l' := l') (l := l1) (s := s) hp hi (t := .identifier name noLoc) (fun x h => by cases h)
    (by rintro ⟨_, h⟩; cases h) post
  rw [(parse_ok_iff _ _).2 h2] at this
  cases this

example (bytes : List (Nat × U8)) : ¬ Describes wordBinary [] "five: .equ 5\n.db 7, five".toList bytes := by
  obtain ⟨ts, h, e, hn⟩ : ∃ ts, scan [] "five: .equ 5\n.db 7, five".toList = .ret ts ∧
      ts.map bare = data ++ .identifier "five".toList noLoc :: [] ∧ NoLexError ts :=
    ⟨_, by rfl, by rfl, by simp [NoLexError]⟩
  exact C100_directive_text [] _ data [] _ (e ▸ cut_of_scan h hn) open_data bytes

/-- C100: the code does not accept a label in the place of every literal: `.db 7, 5` is accepted and `.db 7, five` is
not, though `five` is 5. -/
theorem C100_claim_false : ¬ ∀ (pre post : List Token) (n : Nat) (l : Loc) (name : Str) (ns : List Node) (w : U12),
    parse (pre ++ .numericLiteral n l :: post) = .ret (.ok ns) → LabelValue ns name w → n = w.toNat →
    (∀ f, ¬ RegisterNamed name f) → ∃ ns', parse (pre ++ .identifier name l :: post) = .ret (.ok ns') ∧
      ∀ ranges, assemble ns = .ret (.ok ranges) ↔ assemble ns' = .ret (.ok ranges) := by
  intro h
  obtain ⟨ns', h1, _⟩ := h data [] 5 noLoc "five".toList _ 5 parse_data (five_value _) (by decide)
    (not_register (by decide) (by decide) (by decide))
  rw [C100_directive data [] 5 noLoc "five".toList _ parse_data open_data] at h1
  cases h1

end C8S
