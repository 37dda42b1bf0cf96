import Verif.Proofs.Rewrite
import Verif.Props.Layout
import Verif.Props.Source

/- Properties on changes of a program that keep its output: C57 to C59. -/

namespace C8S

open Spec LayoutExample

theorem assemble_bare {a b : List Node} {ranges : List DataRange} (e : a.map bareNode = b.map bareNode)
    (h : assemble a = .ret (.ok ranges)) : assemble b = .ret (.ok ranges) := by
  have h1 := assemble_map nowhere h
  have h2 := assemble_run nowhere b
  rw [show b.map (nodeMap nowhere) = a.map (nodeMap nowhere) from e.symm, h1] at h2
  cases hb : assemble b with
  | panic => rw [hb] at h2; cases h2
  | ret out =>
    rw [hb] at h2
    cases out with
    | error _ => cases h2
    | ok r => cases h2; rfl

/-- A change of statements that keeps the assembled output keeps the output of the texts. -/
theorem describes_rewritten [Target] {file text : Str} {tokens : List Token} {ns ms : List Node} (hs : scan file text = .ret tokens)
    (hp : parse tokens = .ret (.ok ns)) (hf : ∀ n ∈ ms, Formed n)
    (h : ∀ r, assemble ns = .ret (.ok r) → assemble ms = .ret (.ok r)) {bytes : List (Nat × U8)}
    (hd : Describes wordBinary file text bytes) : Describes wordBinary file (sourceText ms) bytes := by
  obtain ⟨tokens', ms', hs', hp', e⟩ := C13_round_trip file ms hf
  rw [describes_iff] at hd ⊢
  obtain ⟨t, n, ranges, h1, h2, h3, h4⟩ := hd
  cases hs.symm.trans h1
  cases hp.symm.trans h2
  exact ⟨tokens', ms', ranges, hs', hp', assemble_bare e.symm (h _ h3), h4⟩

theorem describes_rewritten' [Target] {file text : Str} {tokens : List Token} {ns ms : List Node} (hs : scan file text = .ret tokens)
    (hp : parse tokens = .ret (.ok ns)) (hf : ∀ n ∈ ms, Formed n)
    (h : ∀ r, assemble ms = .ret (.ok r) → assemble ns = .ret (.ok r)) {bytes : List (Nat × U8)}
    (hd : Describes wordBinary file (sourceText ms) bytes) : Describes wordBinary file text bytes := by
  obtain ⟨tokens', ms', hs', hp', e⟩ := C13_round_trip file ms hf
  rw [describes_iff] at hd ⊢
  obtain ⟨t, n, ranges, h1, h2, h3, h4⟩ := hd
  cases hs'.symm.trans h1
  cases hp'.symm.trans h2
  exact ⟨tokens, ns, ranges, hs, hp, h _ (assemble_bare e h3), h4⟩

/-! ### C57: renaming labels -/

namespace RewriteExample

def suffix (s : Str) : Str := s ++ "_2".toList

theorem suffix_injective : ∀ a b, Mentions program a → Mentions program b → suffix a = suffix b → a = b :=
  fun _ _ _ _ h => List.append_cancel_right h

end RewriteExample

open RewriteExample

/-- C57: renaming labels, in definitions and uses, keeps the output exactly, as long as different names stay
different. -/
theorem C57_renamed (f : Str → Str) (ns : List Node) (hinj : ∀ a b, Mentions ns a → Mentions ns b → f a = f b → a = b)
    (ranges : List DataRange) :
    assemble ns = .ret (.ok ranges) ↔ assemble (ns.map (renameNode f)) = .ret (.ok ranges) :=
  (assemble_rename hinj).ok_iff ranges

example : assemble program = .ret (.ok [⟨0x200, [7, 0x12, 0x01]⟩]) ∧
    assemble (program.map (renameNode suffix)) = .ret (.ok [⟨0x200, [7, 0x12, 0x01]⟩]) ∧
    Mentions program "here".toList ∧ Mentions program "limit".toList := by
  refine ⟨rfl, rfl, .inl ⟨loc, ?_⟩, .inl ⟨loc, ?_⟩⟩ <;> simp [program, here, limit]

/-- C57: and a rejected program is still rejected, for the same reason at the same place. -/
theorem C57_error (f : Str → Str) (ns : List Node) (hinj : ∀ a b, Mentions ns a → Mentions ns b → f a = f b → a = b)
    (e : SemanticError) (h : assemble ns = .ret (.error e)) :
    ∃ e', assemble (ns.map (renameNode f)) = .ret (.error e') ∧ SameError f e e' :=
  (assemble_rename hinj).error_of h

example : assemble [here, here] = .ret (.error (.redefinitionOfLabel loc "here".toList)) ∧
    assemble ([here, here].map (renameNode suffix)) = .ret (.error (.redefinitionOfLabel loc "here_2".toList)) := ⟨rfl, rfl⟩

theorem formed_rename {f : Str → Str} {ns : List Node} (h : ∀ n ∈ ns, Formed n)
    (hf : ∀ s, Mentions ns s → IsName (f s) ∧ ∀ r, ¬ RegisterNamed (f s) r) : ∀ n ∈ ns.map (renameNode f), Formed n := by
  intro n hn
  obtain ⟨m, hm, rfl⟩ := List.mem_map.1 hn
  have h := h m hm
  cases m with
  | label l s => exact (hf s (.inl ⟨l, hm⟩)).1
  | directive l s xs => exact h
  | instruction l s fs =>
    refine ⟨h.1, fun x hx => ?_⟩
    obtain ⟨y, hy, rfl⟩ := List.mem_map.1 hx
    have h := h.2 y hy
    cases y with
    | identifier t => exact hf t (.inr ⟨l, s, fs, hm, hy⟩)
    | _ => exact h

/-- C57: the same on source text: the renamed program, written out, has the same output. The new names must be
identifiers, and not the names of registers. -/
theorem C57_text [Target] (f : Str → Str) (file text : Str) (tokens : List Token) (ns : List Node)
    (hs : scan file text = .ret tokens) (hp : parse tokens = .ret (.ok ns))
    (hinj : ∀ a b, Mentions ns a → Mentions ns b → f a = f b → a = b)
    (hf : ∀ s, Mentions ns s → IsName (f s) ∧ ∀ r, ¬ RegisterNamed (f s) r) (bytes : List (Nat × U8)) :
    Describes wordBinary file text bytes ↔ Describes wordBinary file (sourceText (ns.map (renameNode f))) bytes := by
  have h := formed_rename (C13_formed file text tokens ns hs hp) hf
  exact ⟨describes_rewritten hs hp h fun r => (C57_renamed f ns hinj r).1,
    describes_rewritten' hs hp h fun r => (C57_renamed f ns hinj r).2⟩

example : scan [] ".org $200\n.db 7\nlimit:\n.equ 5\nhere:\njp here\n".toList ≠ .panic ∧
    sourceText (program.map (renameNode suffix)) =
      ".org 512\n.db 7\nlimit_2:\n.equ 5\nhere_2:\njp here_2\n".toList := by
  refine ⟨?_, rfl⟩
  decide +kernel

example : ∀ s, Mentions program s → IsName (suffix s) ∧ ∀ r, ¬ RegisterNamed (suffix s) r := by
  intro s hs
  have : s = "here".toList ∨ s = "limit".toList := by
    rcases hs with ⟨l, h⟩ | ⟨l, m, fs, h, hx⟩
    · simp [program, org200, db7, limit, equ5, here, jpHere] at h
      rcases h with h | h <;> simp [h]
    · simp [program, org200, db7, limit, equ5, here, jpHere] at h
      obtain ⟨rfl, rfl, rfl⟩ := h
      simp at hx
      simp [hx]
  have hlong : ∀ (s : Str) r, 3 < s.length → ¬ RegisterNamed s r := by
    intro s r hs h
    cases h with
    | special h => simp [specialNames] at h; rcases h with h | h | h | h | h | h | h | h | h | h | h | h | h | h <;> (rw [h.1] at hs; simp at hs)
    | general => simp at hs
  rcases this with rfl | rfl
  · exact ⟨.inl ⟨'h', "ere_2".toList, rfl, by decide, by decide⟩, fun r => hlong _ r (by decide)⟩
  · exact ⟨.inl ⟨'l', "imit_2".toList, rfl, by decide, by decide⟩, fun r => hlong _ r (by decide)⟩

/-- C57: the names must stay different: merging two labels can turn a valid program into a rejected one. -/
theorem C57_needs_injective : ∃ (f : Str → Str) (ns : List Node) (r : List DataRange),
    assemble ns = .ret (.ok r) ∧ ∀ r', assemble (ns.map (renameNode f)) ≠ .ret (.ok r') :=
  ⟨fun _ => "x".toList, program, [⟨0x200, [7, 0x12, 0x01]⟩], by rfl, fun r' h => by
    have : assemble (program.map (renameNode fun _ => "x".toList)) =
      .ret (.error (.redefinitionOfLabel loc "x".toList)) := rfl
    rw [this] at h
    cases h⟩

/-! ### C58: labels are names of numbers -/

/-- C58: replacing uses of labels by their values keeps the output exactly. -/
theorem C58_inlined (L : LabelMap) (ns : List Node) (hl : LabelsOf ns L) (ranges : List DataRange) :
    assemble ns = .ret (.ok ranges) ↔ assemble (ns.map (inlineNode L)) = .ret (.ok ranges) :=
  (assemble_inline hl).ok_iff ranges

example : LabelsOf program [("here".toList, 0x201), ("limit".toList, 5)] := (defineLabels_ok (by rfl)).2

/-- C58: and a rejected program is still rejected, for the same reason at the same place. -/
theorem C58_error (L : LabelMap) (ns : List Node) (hl : LabelsOf ns L) (e : SemanticError)
    (h : assemble ns = .ret (.error e)) :
    ∃ e', assemble (ns.map (inlineNode L)) = .ret (.error e') ∧ SameError id e e' :=
  (assemble_inline hl).error_of h

/-- C58: an assembled program has the output of the program without any label or constant that has their values in
their place. -/
theorem C58_plain (L : LabelMap) (ns : List Node) (hl : LabelsOf ns L) (ranges : List DataRange)
    (h : assemble ns = .ret (.ok ranges)) : assemble (withoutLabels L ns) = .ret (.ok ranges) :=
  assemble_withoutLabels hl h

example : withoutLabels [("here".toList, 0x201), ("limit".toList, 5)] program =
      [org200, db7, .instruction loc "jp".toList [.numericLiteral 0x201]] ∧
    assemble (withoutLabels [("here".toList, 0x201), ("limit".toList, 5)] program) =
      .ret (.ok [⟨0x200, [7, 0x12, 0x01]⟩]) := ⟨by decide, rfl⟩

theorem formed_plain {L : LabelMap} {ns : List Node} (h : ∀ n ∈ ns, Formed n) : ∀ n ∈ withoutLabels L ns, Formed n := by
  intro n hn
  obtain ⟨m, hm, rfl⟩ := List.mem_map.1 hn
  have h := h m (List.mem_filter.1 hm).1
  cases m with
  | label l s => exact h
  | directive l s xs => exact h
  | instruction l s fs =>
    refine ⟨h.1, fun x hx => ?_⟩
    obtain ⟨y, hy, rfl⟩ := List.mem_map.1 hx
    have h := h.2 y hy
    cases y with
    | identifier t =>
      simp only [inlineField]
      cases L.get t with
      | none => exact h
      | some v => trivial
    | _ => exact h

/-- C58: the same on source text: every text with an output has that of a text that defines and uses no labels. -/
theorem C58_text [Target] (file text : Str) (bytes : List (Nat × U8)) (h : Describes wordBinary file text bytes) :
    ∃ ms, labelNames ms = [] ∧ (∀ l m fs s, .instruction l m fs ∈ ms → .identifier s ∉ fs) ∧
      Describes wordBinary file (sourceText ms) bytes := by
  obtain ⟨tokens, ns, ranges, hs, hp, ha, rfl⟩ := (describes_iff _ _ _).1 h
  obtain ⟨L, secs, hc, hl, hsec, rfl⟩ := assemble_ok_iff.1 ha
  refine ⟨withoutLabels L ns, labelNames_withoutLabels L ns, ?_, ?_⟩
  · intro l m fs s hm hx
    obtain ⟨w, hw⟩ := sections_instructions (sections_withoutLabels (L' := []) hsec) l m fs hm
    obtain ⟨row, _, v, _, hfa, _⟩ := hw
    have hno : ∀ {n : Nat}, ¬ Denotes [] (.identifier s) n := by
      intro n h
      cases h with
      | label h => cases h
    have : ∀ {slots : List Slot} {fs : List Field}, FitsAll [] v slots fs → .identifier s ∉ fs := by
      intro slots fs hfa
      induction hfa with
      | nil => simp
      | cons h0 _ ih =>
        intro hx
        rcases List.mem_cons.1 hx with rfl | hx
        · cases h0 with
          | nn hd _ => exact hno hd
          | n hd _ => exact hno hd
          | addr hd => exact hno hd
        · exact ih hx
    exact this hfa hx
  · exact describes_rewritten hs hp (formed_plain (C13_formed file text tokens ns hs hp))
      (fun r => C58_plain L ns hl r) h

example : ∃ bytes, Describes wordBinary [] "a: jp a\n".toList bytes := by
  refine ⟨[(0, 0x10), (1, 0)], (describes_iff _ _ _).2 ⟨[.identifier "a".toList ⟨[], 1, 1, 1⟩, .labelMarker ⟨[], 1, 2, 1⟩,
    .identifier "jp".toList ⟨[], 1, 4, 2⟩, .identifier "a".toList ⟨[], 1, 7, 1⟩, .newline ⟨[], 1, 8, 1⟩],
    [.label ⟨[], 1, 1, 1⟩ "a".toList, .instruction ⟨[], 1, 4, 2⟩ "jp".toList [.identifier "a".toList]], [⟨0, [0x10, 0]⟩],
    by decide +kernel, rfl, rfl, by decide⟩⟩

/-- An undefined label is reported under its name in the inlined program, too. -/
example : LabelsOf [jpHere] [] ∧ assemble [jpHere] = .ret (.error (.assemblyFailed loc (.unableToResolveLabel "here".toList))) :=
  ⟨no_labels_value rfl, rfl⟩

/-! ### C59: the same bytes in another notation -/

/-- C59: instructions and data can be replaced by others of the same size that emit the same bytes. -/
theorem C59_replaced (A X Y B : List Node) (hX : DataOnly X) (hY : DataOnly Y) (hX' : X ≠ []) (hY' : Y ≠ []) (k : Nat)
    (hk : Reaches X 0 k) (hk' : Reaches Y 0 k)
    (he : ∀ L, LabelsOf (A ++ (X ++ B)) L → ∀ bytes, EmitsBlock L X bytes ↔ EmitsBlock L Y bytes) (ranges : List DataRange) :
    assemble (A ++ (X ++ B)) = .ret (.ok ranges) ↔ assemble (A ++ (Y ++ B)) = .ret (.ok ranges) := by
  have h : SameSize X Y := ⟨hX, hY, hX', hY', k, hk, hk'⟩
  refine ⟨h.assemble fun L hL b => (he L hL b).1, h.symm.assemble fun L hL b => (he L (h.labelsOf.2 hL) b).2⟩

theorem db_data (l : Loc) (s : Str) (xs : List Literal) (hs : SameLetters s "db".toList) : DataOnly [.directive l s xs] := by
  intro n hn
  rw [List.mem_singleton] at hn
  exact .inr ⟨l, s, xs, hn, hs⟩

theorem block_unique {L : LabelMap} {ns : List Node} {b b' : List U8} (h : EmitsBlock L ns b) (h' : EmitsBlock L ns b') :
    b = b' := by
  induction h generalizing b' with
  | nil => cases h'; rfl
  | cons h1 _ ih =>
    cases h' with
    | cons h1' h2' => rw [emits_unique h1 h1', ih h2']

/-- C59: two `.db` lists with the same bytes are interchangeable, for example a string and the list of its bytes. -/
theorem C59_data (A B : List Node) (l l' : Loc) (s s' : Str) (xs ys : List Literal) (bytes : List U8)
    (hx : DirectiveMeans s xs (.db bytes)) (hy : DirectiveMeans s' ys (.db bytes)) (ranges : List DataRange) :
    assemble (A ++ .directive l s xs :: B) = .ret (.ok ranges) ↔
    assemble (A ++ .directive l' s' ys :: B) = .ret (.ok ranges) := by
  have hs : ∀ {s : Str} {xs : List Literal}, DirectiveMeans s xs (.db bytes) → SameLetters s "db".toList := by
    intro s xs h
    cases h with | db h _ _ => exact h
  have hb : ∀ {l : Loc} {s : Str} {xs : List Literal} {L : LabelMap}, DirectiveMeans s xs (.db bytes) →
      ∀ b, EmitsBlock L [.directive l s xs] b ↔ b = bytes := by
    intro l s xs L h b
    rw [emitsBlock_single]
    exact ⟨fun h' => emits_unique h' (.db h), fun e => e ▸ .db h⟩
  exact C59_replaced A [_] [_] B (db_data _ _ _ (hs hx)) (db_data _ _ _ (hs hy)) (by simp) (by simp) (0 + bytes.length)
    (.cons (.db hx) .nil) (.cons (.db hy) .nil) (fun L _ b => (hb hx b).trans (hb hy b).symm) ranges

example : DirectiveMeans "db".toList [.string "ab".toList] (.db [0x61, 0x62]) ∧
    DirectiveMeans "DB".toList [.numeric 0x61, .numeric 0x62] (.db [0x61, 0x62]) := ⟨means_iff.1 rfl, means_iff.1 rfl⟩

/-- C59: a long `.db` list can be split into two lines. -/
theorem C59_split (A B : List Node) (l l1 l2 : Loc) (s : Str) (xs ys : List Literal) (bx by' : List U8)
    (hx : DirectiveMeans s xs (.db bx)) (hy : DirectiveMeans s ys (.db by')) (ranges : List DataRange) :
    assemble (A ++ .directive l s (xs ++ ys) :: B) = .ret (.ok ranges) ↔
    assemble (A ++ .directive l1 s xs :: .directive l2 s ys :: B) = .ret (.ok ranges) := by
  cases hx with
  | db hs hx1 hx2 =>
  cases hy with
  | db _ hy1 hy2 =>
  have hx : DirectiveMeans s xs (.db bx) := .db hs hx1 hx2
  have hy : DirectiveMeans s ys (.db by') := .db hs hy1 hy2
  have hxy : DirectiveMeans s (xs ++ ys) (.db (bx ++ by')) := .db hs (by simp [hx1]) (emitsAll_append hx2 hy2)
  refine C59_replaced A [_] [_, _] B (db_data _ _ _ hs) ?_ (by simp) (by simp) (0 + (bx ++ by').length)
    (.cons (.db hxy) .nil) ?_ ?_ ranges
  · intro n hn
    rcases List.mem_cons.1 hn with rfl | hn
    · exact .inr ⟨_, _, _, rfl, hs⟩
    · exact db_data _ _ _ hs n hn
  · rw [List.length_append, ← Nat.add_assoc]
    exact .cons (.db hx) (.cons (.db hy) .nil)
  · intro L _ b
    have h1 : EmitsBlock L [.directive l s (xs ++ ys)] (bx ++ by') := emitsBlock_single.2 (.db hxy)
    have h2 : EmitsBlock L [.directive l1 s xs, .directive l2 s ys] (bx ++ by') :=
      .cons (.db hx) (emitsBlock_single.2 (.db hy))
    exact ⟨fun h => block_unique h h1 ▸ h2, fun h => block_unique h h2 ▸ h1⟩

example : assemble [org200, .directive loc "db".toList [.numeric 1], .directive loc "db".toList [.numeric 2]] =
    .ret (.ok [⟨0x200, [1, 2]⟩]) :=
  (C59_split [org200] [] loc loc loc "db".toList [.numeric 1] [.numeric 2] [1] [2] (means_iff.1 rfl) (means_iff.1 rfl) _).1 rfl

/-- C59: an instruction can be replaced by the two bytes of its encoding. -/
theorem C59_encoded (A B : List Node) (l l' : Loc) (m s : Str) (fs : List Field) (xs : List Literal) (hi lo : U8)
    (hm : ∀ L, LabelsOf (A ++ .instruction l m fs :: B) L → Encodes L m fs (hi.toNat * 256 + lo.toNat))
    (hx : DirectiveMeans s xs (.db [hi, lo])) (ranges : List DataRange) :
    assemble (A ++ .instruction l m fs :: B) = .ret (.ok ranges) ↔
    assemble (A ++ .directive l' s xs :: B) = .ret (.ok ranges) := by
  have hs : SameLetters s "db".toList := by cases hx with | db h _ _ => exact h
  refine C59_replaced A [_] [_] B ?_ (db_data _ _ _ hs) (by simp) (by simp) (0 + 2)
    (.cons .instruction .nil) (.cons (.db hx) .nil) ?_ ranges
  · intro n hn
    rw [List.mem_singleton] at hn
    exact .inl ⟨l, m, fs, hn⟩
  · intro L hL b
    have h1 : EmitsBlock L [.instruction l m fs] [hi, lo] := emitsBlock_single.2 (.instruction (hm L hL))
    have h2 : EmitsBlock L [.directive l' s xs] [hi, lo] := emitsBlock_single.2 (.db hx)
    exact ⟨fun h => block_unique h h1 ▸ h2, fun h => block_unique h h2 ▸ h1⟩

example : (∀ L, LabelsOf ([org200] ++ .instruction loc "CLS".toList [] :: [here]) L →
      Encodes L "CLS".toList [] ((0x00 : U8).toNat * 256 + (0xE0 : U8).toNat)) ∧
    DirectiveMeans "db".toList [.numeric 0, .numeric 0xE0] (.db [0x00, 0xE0]) := by
  refine ⟨fun L _ => ?_, means_iff.1 rfl⟩
  exact ⟨⟨"00E0".toList, "cls".toList, []⟩, by decide, {}, by decide, .nil, by decide, by decide⟩

example : DirectiveMeans "db".toList [.string "ab".toList] (.db [0x61, 0x62]) ∧
    DirectiveMeans "DB".toList [.numeric 0x61, .numeric 0x62] (.db [0x61, 0x62]) := ⟨means_iff.1 rfl, means_iff.1 rfl⟩

example : assemble ([org200, jpHere] ++ .directive loc "db".toList [.string "ab".toList] :: [here]) =
      .ret (.ok [⟨0x200, [0x12, 0x04, 0x61, 0x62]⟩]) ∧
    assemble ([org200, jpHere] ++ .directive loc "DB".toList [.numeric 0x61, .numeric 0x62] :: [here]) =
      .ret (.ok [⟨0x200, [0x12, 0x04, 0x61, 0x62]⟩]) ∧
    assemble ([org200, jpHere] ++ .directive loc "db".toList [.numeric 0x61] ::
        .directive loc "db".toList [.numeric 0x62] :: [here]) =
      .ret (.ok [⟨0x200, [0x12, 0x04, 0x61, 0x62]⟩]) ∧
    assemble ([org200] ++ .directive loc "db".toList [.numeric 0x12, .numeric 0x02] :: [here]) =
      .ret (.ok [⟨0x200, [0x12, 0x02]⟩]) ∧
    assemble ([org200] ++ jpHere :: [here]) = .ret (.ok [⟨0x200, [0x12, 0x02]⟩]) := ⟨rfl, rfl, rfl, rfl, rfl⟩

end C8S
