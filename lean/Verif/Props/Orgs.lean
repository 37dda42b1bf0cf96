import Verif.Proofs.Orgs
import Verif.Props.Combine

/- Properties on `.org`s that make no difference, and on the order of labels: C85. -/

namespace C8S

open Spec LayoutExample

namespace OrgsExample

/-- `.org $201` -/
def org201 : Node := .directive loc "org".toList [.numeric 0x201]

theorem org201_means : DirectiveMeans "org".toList [.numeric 0x201] (.org 0x201) := means_iff.1 rfl

end OrgsExample

open OrgsExample

/-- C85: an `.org` to the address already reached can be added or removed: the same bytes are placed at the same
addresses in the same order. It must not stand before a constant, which it would take from its label. -/
theorem C85_dropped (A B : List Node) (l : Loc) (s : Str) (xs : List Literal) (v : U12) (hv : DirectiveMeans s xs (.org v))
    (hr : Reaches A 0 v.toNat) (hB : ∀ c, ¬ ConstantNext B c) (bytes : List (Nat × U8)) :
    (∃ r, assemble (A ++ .directive l s xs :: B) = .ret (.ok r) ∧ image r = bytes) ↔
    (∃ r, assemble (A ++ B) = .ret (.ok r) ∧ image r = bytes) := by
  have h : SameOrgs A [.directive l s xs] [] B := by
    refine ⟨orgs_single hv, orgs_nil, hB, .inr fun c => ?_⟩
    rw [List.append_nil, reaches_append]
    constructor
    · rintro ⟨b, _, h⟩
      rw [org_moves hv] at h
      exact h ▸ hr
    · intro h
      exact ⟨_, h, (org_moves hv).2 (reaches_unique h hr)⟩
  constructor
  · rintro ⟨r, ha, rfl⟩
    exact h.image ha
  · rintro ⟨r, ha, rfl⟩
    exact h.symm.image (X := []) ha

/-- The label and the jump are behind the `.org`. -/
example : Reaches [org200, db7] 0 0x201 ∧
    assemble [org200, db7, org201, here, jpHere] = .ret (.ok [⟨0x200, [7]⟩, ⟨0x201, [0x12, 0x01]⟩]) ∧
    assemble [org200, db7, here, jpHere] = .ret (.ok [⟨0x200, [7, 0x12, 0x01]⟩]) :=
  ⟨.cons (.org org200_means) (.cons (.db db7_means) .nil), rfl, rfl⟩

/-- C85: the same on source text. -/
theorem C85_text [Target] (file file' text text' : Str) (tokens tokens' : List Token) (ns ms A B : List Node) (l : Loc)
    (s : Str) (xs : List Literal) (v : U12) (hs : scan file text = .ret tokens) (hp : parse tokens = .ret (.ok ns))
    (hn : ns.map bareNode = (A ++ .directive l s xs :: B).map bareNode) (hs' : scan file' text' = .ret tokens')
    (hp' : parse tokens' = .ret (.ok ms)) (hm : ms.map bareNode = (A ++ B).map bareNode)
    (hv : DirectiveMeans s xs (.org v)) (hr : Reaches A 0 v.toNat) (hB : ∀ c, ¬ ConstantNext B c)
    (bytes : List (Nat × U8)) : Describes wordBinary file text bytes ↔ Describes wordBinary file' text' bytes := by
  have h := C85_dropped A B l s xs v hv hr hB bytes
  rw [describes_iff, describes_iff]
  constructor
  · rintro ⟨t, n, r, h1, h2, h3, rfl⟩
    cases hs.symm.trans h1
    cases hp.symm.trans h2
    obtain ⟨r', h4, h5⟩ := h.1 ⟨r, assemble_bare hn h3, rfl⟩
    exact ⟨tokens', ms, r', hs', hp', assemble_bare hm.symm h4, h5.symm⟩
  · rintro ⟨t, n, r, h1, h2, h3, rfl⟩
    cases hs'.symm.trans h1
    cases hp'.symm.trans h2
    obtain ⟨r', h4, h5⟩ := h.2 ⟨r, assemble_bare hm h3, rfl⟩
    exact ⟨tokens, ns, r', hs, hp, assemble_bare hn.symm h4, h5.symm⟩

/-- The texts `.db 7 .org 1 .db 7` and `.db 7 .db 7`. -/
example (bytes : List (Nat × U8)) : Describes wordBinary [] ".db 7 .org 1 .db 7".toList bytes ↔
    Describes wordBinary [] ".db 7 .db 7".toList bytes :=
  C85_text [] [] _ _
    [.directiveMarker ⟨[], 1, 1, 1⟩, .identifier "db".toList ⟨[], 1, 2, 2⟩, .numericLiteral 7 ⟨[], 1, 5, 1⟩,
      .directiveMarker ⟨[], 1, 7, 1⟩, .identifier "org".toList ⟨[], 1, 8, 3⟩, .numericLiteral 1 ⟨[], 1, 12, 1⟩,
      .directiveMarker ⟨[], 1, 14, 1⟩, .identifier "db".toList ⟨[], 1, 15, 2⟩, .numericLiteral 7 ⟨[], 1, 18, 1⟩]
    [.directiveMarker ⟨[], 1, 1, 1⟩, .identifier "db".toList ⟨[], 1, 2, 2⟩, .numericLiteral 7 ⟨[], 1, 5, 1⟩,
      .directiveMarker ⟨[], 1, 7, 1⟩, .identifier "db".toList ⟨[], 1, 8, 2⟩, .numericLiteral 7 ⟨[], 1, 11, 1⟩]
    [.directive ⟨[], 1, 2, 2⟩ "db".toList [.numeric 7], .directive ⟨[], 1, 8, 3⟩ "org".toList [.numeric 1],
      .directive ⟨[], 1, 15, 2⟩ "db".toList [.numeric 7]]
    [.directive ⟨[], 1, 2, 2⟩ "db".toList [.numeric 7], .directive ⟨[], 1, 8, 2⟩ "db".toList [.numeric 7]]
    [db7] [db7] loc "org".toList [.numeric 1] 1 (by decide +kernel) rfl rfl (by decide +kernel) rfl rfl (means_iff.1 rfl)
    (.cons (.db db7_means) .nil) (fun c h => by cases h with | intro h => cases means_unique db7_means h) bytes

/-- C85: the exclusion is needed: an `.org` to the address reached, put between a label and its constant, makes the
program invalid. -/
theorem C85_needs_place : ∃ (A B : List Node) (l : Loc) (s : Str) (xs : List Literal) (v : U12) (r : List DataRange),
    DirectiveMeans s xs (.org v) ∧ Reaches A 0 v.toNat ∧ assemble (A ++ B) = .ret (.ok r) ∧
    ∀ r', assemble (A ++ .directive l s xs :: B) ≠ .ret (.ok r') :=
  ⟨[org200, db7, limit], [equ5], loc, _, _, 0x201, [⟨0x200, [7]⟩], org201_means,
    .cons (.org org200_means) (.cons (.db db7_means) (.cons .label .nil)), rfl, fun r' h => by
      rw [show assemble ([org200, db7, limit] ++ .directive loc "org".toList [.numeric 0x201] :: [equ5]) =
        .ret (.error (.constantWithoutLabel loc)) from rfl] at h
      cases h⟩

/-- A constant right behind an `.org`, or at the start, is not accepted. -/
theorem no_stray_constant {A B : List Node} {c : U12} {r : List DataRange} (h : ConstantNext B c) (hA : ¬ EndsWithLabel A) :
    assemble (A ++ B) ≠ .ret (.ok r) := by
  intro ha
  obtain ⟨_, _, hc, _⟩ := assemble_ok_iff.1 ha
  exact hA ((clean_iff.1 hc).2.1 A B c rfl h)

theorem ends_with_directive {A : List Node} {l : Loc} {s : Str} {xs : List Literal} :
    ¬ EndsWithLabel (A ++ [.directive l s xs]) := by
  rw [endsWithLabel_append (by simp)]
  rintro ⟨p, l', nm, e⟩
  cases p with
  | nil => cases e
  | cons _ p => simp at e

/-- C85: of two `.org`s in a row only the second counts. -/
theorem C85_last (A B : List Node) (l l' : Loc) (s s' : Str) (xs xs' : List Literal) (v w : U12)
    (hv : DirectiveMeans s xs (.org v)) (hw : DirectiveMeans s' xs' (.org w)) (r : List DataRange) :
    assemble (A ++ .directive l s xs :: .directive l' s' xs' :: B) = .ret (.ok r) ↔
    assemble (A ++ .directive l' s' xs' :: B) = .ret (.ok r) := by
  by_cases hB : ∃ c, ConstantNext B c
  · obtain ⟨c, hc⟩ := hB
    have h1 := no_stray_constant (A := A ++ [.directive l s xs] ++ [.directive l' s' xs']) (r := r) hc ends_with_directive
    have h2 := no_stray_constant (A := A ++ [.directive l' s' xs']) (r := r) hc ends_with_directive
    simp only [List.append_assoc, List.cons_append, List.nil_append] at h1 h2
    exact ⟨fun h => (h1 h).elim, fun h => (h2 h).elim⟩
  have h : SameOrgs A [.directive l s xs, .directive l' s' xs'] [.directive l' s' xs'] B := by
    refine ⟨?_, orgs_single hw, fun c hc => hB ⟨c, hc⟩, .inr fun c => ?_⟩
    · intro n hn
      rcases List.mem_cons.1 hn with rfl | hn
      · exact orgs_single hv _ List.mem_cons_self
      · exact orgs_single hw _ hn
    · rw [reaches_append, reaches_append]
      refine exists_congr fun b => and_congr_right fun _ => ?_
      rw [org_moves hw]
      constructor
      · intro h
        cases h with
        | cons _ h => exact (org_moves hw).1 h
      · intro e
        exact .cons (.org hv) ((org_moves hw).2 e)
  constructor
  · refine h.ranges fun L start secs hs => ?_
    obtain ⟨r1, rfl, h1⟩ := org_sections hv hs
    obtain ⟨r2, rfl, h2⟩ := org_sections hw h1
    exact ⟨[], _, r2, rfl, .org hw h2, by rw [nonEmpty_cons]; rfl⟩
  · refine h.symm.ranges fun L start secs hs => ?_
    obtain ⟨r1, rfl, h1⟩ := org_sections hw hs
    exact ⟨[], _, ⟨v, []⟩ :: r1, rfl, .org hv (.org hw h1), by rw [nonEmpty_cons]; rfl⟩

example : assemble [db7, here, org201, org200, jpHere] = .ret (.ok [⟨0, [7]⟩, ⟨0x200, [0x10, 0x01]⟩]) ∧
    assemble [db7, here, org200, jpHere] = .ret (.ok [⟨0, [7]⟩, ⟨0x200, [0x10, 0x01]⟩]) := ⟨rfl, rfl⟩

/-- C85: an `.org` at the end makes no difference. -/
theorem C85_trailing (A : List Node) (l : Loc) (s : Str) (xs : List Literal) (v : U12) (hv : DirectiveMeans s xs (.org v))
    (r : List DataRange) : assemble (A ++ [.directive l s xs]) = .ret (.ok r) ↔ assemble A = .ret (.ok r) := by
  have h : SameOrgs A [.directive l s xs] [] [] :=
    ⟨orgs_single hv, orgs_nil, (fun _ hc => by cases hc), .inl rfl⟩
  have h1 : assemble (A ++ [.directive l s xs]) = .ret (.ok r) → assemble (A ++ ([] ++ [])) = .ret (.ok r) := by
    refine h.ranges (r := r) fun L start secs hs => ?_
    obtain ⟨r1, rfl, h1⟩ := org_sections hv hs
    cases h1
    exact ⟨[], _, [], rfl, .nil, rfl⟩
  have h2 : assemble (A ++ ([] ++ [])) = .ret (.ok r) → assemble (A ++ [.directive l s xs]) = .ret (.ok r) := by
    refine h.symm.ranges (r := r) fun L start secs hs => ?_
    cases hs
    exact ⟨[], _, [⟨v, []⟩], rfl, .org hv .nil, rfl⟩
  rw [List.append_nil, List.append_nil] at h1 h2
  exact ⟨h1, h2⟩

example : assemble (program ++ [org201]) = .ret (.ok [⟨0x200, [7, 0x12, 0x01]⟩]) :=
  (C85_trailing program loc _ _ 0x201 org201_means _).2 rfl

/-- C85: an `.org 0` at the start makes no difference. -/
theorem C85_leading (B : List Node) (l : Loc) (s : Str) (xs : List Literal) (hv : DirectiveMeans s xs (.org 0))
    (r : List DataRange) : assemble (.directive l s xs :: B) = .ret (.ok r) ↔ assemble B = .ret (.ok r) := by
  by_cases hB : ∃ c, ConstantNext B c
  · obtain ⟨c, hc⟩ := hB
    have h1 := no_stray_constant (A := [] ++ [.directive l s xs]) (r := r) hc ends_with_directive
    have h2 := no_stray_constant (A := []) (r := r) hc (by rintro ⟨p, l, nm, e⟩; simp at e)
    exact ⟨fun h => (h1 h).elim, fun h => (h2 h).elim⟩
  have h : SameOrgs [] [.directive l s xs] [] B := by
    refine ⟨orgs_single hv, orgs_nil, fun c hc => hB ⟨c, hc⟩, .inr fun c => ?_⟩
    rw [List.nil_append, org_moves hv]
    constructor
    · rintro rfl
      exact .nil
    · intro h
      cases h
      rfl
  constructor
  · intro ha
    obtain ⟨L, secs, hc, hl, hs, rfl⟩ := assemble_ok_iff.1 ha
    obtain ⟨r1, rfl, h1⟩ := org_sections hv hs
    exact assemble_ok_iff.2 ⟨L, r1, h.clean hc, h.labelsOf.1 hl, h1, by rw [nonEmpty_cons]; rfl⟩
  · intro ha
    obtain ⟨L, secs, hc, hl, hs, rfl⟩ := assemble_ok_iff.1 ha
    exact assemble_ok_iff.2 ⟨L, _, h.symm.clean hc, h.symm.labelsOf.1 hl, .org hv hs, by rw [nonEmpty_cons ⟨0, []⟩]; rfl⟩

example : assemble [.directive loc "org".toList [.numeric 0], db7, here, jpHere] = .ret (.ok [⟨0, [7, 0x10, 0x01]⟩]) :=
  (C85_leading [db7, here, jpHere] loc "org".toList [.numeric 0] (means_iff.1 rfl) _).2 rfl

/-- C85: the order of labels that follow one another does not matter, unless a constant comes next: it belongs to the
last of them. -/
theorem C85_labels (A B : List Node) (l l' : Loc) (x y : Str) (hB : ∀ c, ¬ ConstantNext B c) (r : List DataRange) :
    assemble (A ++ .label l x :: .label l' y :: B) = .ret (.ok r) ↔
    assemble (A ++ .label l' y :: .label l x :: B) = .ret (.ok r) := ⟨swap_assemble hB, swap_assemble hB⟩

example : assemble [db7, limit, here, jpHere] = .ret (.ok [⟨0, [7, 0x10, 0x01]⟩]) ∧
    assemble [db7, here, limit, jpHere] = .ret (.ok [⟨0, [7, 0x10, 0x01]⟩]) := ⟨rfl, rfl⟩

/-- C85: before a constant the order matters. -/
theorem C85_labels_constant : ∃ (A B : List Node) (l : Loc) (x y : Str) (r r' : List DataRange), r ≠ r' ∧
    assemble (A ++ .label l x :: .label l y :: B) = .ret (.ok r) ∧
    assemble (A ++ .label l y :: .label l x :: B) = .ret (.ok r') :=
  ⟨[db7], [equ5, jpHere], loc, "here".toList, "limit".toList, [⟨0, [7, 0x10, 0x01]⟩], [⟨0, [7, 0x10, 0x05]⟩],
    by decide, rfl, rfl⟩

end C8S
