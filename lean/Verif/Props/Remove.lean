import Verif.Proofs.Remove
import Verif.Props.Combine

/- Property C122: instructions and data taken out of a program. -/

namespace C8S

open Spec LayoutExample

/-- C122: an accepted program is still accepted when any instructions and `.db` are taken out of it, every label keeps its value
or gets a smaller one, and no address is used that was not used before, nor more often. -/
theorem C122_removed (N N' : List Node) (ht : Thinned N N') (ranges : List DataRange) (h : assemble N = .ret (.ok ranges)) :
    ∃ ranges', assemble N' = .ret (.ok ranges') ∧ ((image ranges').map Prod.fst).Sublist ((image ranges).map Prod.fst) ∧
      ∀ L L', LabelsOf N L → LabelsOf N' L' → ∀ s v, L.get s = some v → ∃ v' : U12, L'.get s = some v' ∧ v'.toNat ≤ v.toNat := by
  suffices hk : ∀ A ranges, assemble (A ++ N) = .ret (.ok ranges) → ∃ ranges', assemble (A ++ N') = .ret (.ok ranges') ∧
      ((image ranges').map Prod.fst).Sublist ((image ranges).map Prod.fst) ∧
      ∀ L L', LabelsOf (A ++ N) L → LabelsOf (A ++ N') L' → ∀ s v, L.get s = some v →
        ∃ v' : U12, L'.get s = some v' ∧ v'.toNat ≤ v.toNat from hk [] ranges h
  clear h ranges
  induction ht with
  | nil =>
    intro A ranges h
    exact ⟨ranges, h, List.Sublist.refl _, fun L L' hl hl' s v hv => ⟨v, (labelsOf_congr hl hl' s).symm.trans hv, Nat.le_refl _⟩⟩
  | @keep n ns ns' _ ih =>
    intro A ranges h
    have := ih (A ++ [n]) ranges (by simpa using h)
    simpa using this
  | @drop n ns ns' hn _ ih =>
    intro A ranges h
    obtain ⟨L0, _, hc, hl0, _⟩ := assemble_ok_iff.1 h
    obtain ⟨B, C, k, rfl, hg⟩ := remove_gap (X := [n]) (D := ns) hn (by simp) (by simpa using hc)
    obtain ⟨r1, h1⟩ := remove_accepted hg (by simpa using h)
    obtain ⟨u, v, a, j, _, _, e1, e2⟩ := remove_addresses hg (by simpa using h) h1
    obtain ⟨r2, h2, hsub, hlab⟩ := ih A r1 h1
    refine ⟨r2, h2, hsub.trans ?_, ?_⟩
    · rw [e1, e2]
      refine (List.Sublist.refl u).append (List.Sublist.append ?_ (List.Sublist.refl v))
      rw [← List.range'_append_1]
      exact List.sublist_append_left _ _
    · intro L L' hl hl' s v hv
      obtain ⟨L1, _, _, hl1, _⟩ := assemble_ok_iff.1 h1
      obtain ⟨v1, hv1, hle⟩ := remove_labels hg (by simpa using hc) (by simpa using hl) hl1 s v hv
      obtain ⟨v2, hv2, hle'⟩ := hlab L1 L' hl1 hl' s v1 hv1
      exact ⟨v2, hv2, Nat.le_trans hle' hle⟩

/-- `.org $200`, `.db 7`, `here:`, `jp here`, without the `.db 7`. -/
example : Thinned [org200, db7, here, jpHere] [org200, here, jpHere] ∧
    assemble [org200, db7, here, jpHere] = .ret (.ok [⟨0x200, [7, 0x12, 0x01]⟩]) ∧
    assemble [org200, here, jpHere] = .ret (.ok [⟨0x200, [0x12, 0x00]⟩]) :=
  ⟨.keep (.drop (by intro n hn; exact .inr ⟨_, _, _, List.mem_singleton.1 hn, by decide⟩) (.keep (.keep .nil))), rfl, rfl⟩

/-- C122: when consecutive statements of `k` bytes are taken out, the bytes behind them, up to the next `.org`, end `k` bytes
earlier. All other addresses are the same. -/
theorem C122_addresses (A X D : List Node) (hX : DataOnly X) (ranges ranges' : List DataRange)
    (h : assemble (A ++ (X ++ D)) = .ret (.ok ranges)) (h' : assemble (A ++ D) = .ret (.ok ranges')) :
    ∃ B C u v a n k, D = B ++ C ∧ NoOrg B ∧ (C = [] ∨ StartsWithOrg C) ∧ Reaches A 0 a ∧ Reaches X a (a + k) ∧
      Reaches B a (a + n) ∧ (image ranges).map Prod.fst = u ++ (List.range' a (n + k) ++ v) ∧
      (image ranges').map Prod.fst = u ++ (List.range' a n ++ v) := by
  obtain ⟨_, _, hc, _⟩ := assemble_ok_iff.1 h
  by_cases hne : X = []
  · subst hne
    cases h.symm.trans h'
    have hd := (clean_iff.1 hc).1
    obtain ⟨B, C, rfl, hB, hC⟩ := until_org (ns := D) fun l s xs hm => hd l s xs (by simp [hm])
    obtain ⟨L, secs, _, _, hs, rfl⟩ := assemble_ok_iff.1 h'
    obtain ⟨a, ha⟩ := reaches_exists (nodes := A) (fun l s xs hm => hd l s xs (by simp [hm])) 0
    obtain ⟨b, hb⟩ := reaches_exists (nodes := B) (fun l s xs hm => hd l s xs (by simp [hm])) a
    obtain ⟨n, rfl, hn⟩ := noOrg_reaches hB hb
    obtain ⟨u, r1, e1, hu, hr1⟩ := writes_append ha (sections_image hs)
    obtain ⟨y, v, e2, hy, hv⟩ := writes_append hb hr1
    obtain ⟨yb, hyb, rfl⟩ := (writes_block hB).1 hy
    have l1 := reaches_unique (hn 0) (emitsBlock_reaches hyb 0)
    have l1 : yb.length = n := by omega
    have e : (image (nonEmpty secs)).map Prod.fst = u.map Prod.fst ++ (List.range' a n ++ v.map Prod.fst) := by
      rw [image_nonEmpty, e1, e2]
      simp [placeAt_addresses, l1]
    exact ⟨B, C, u.map Prod.fst, v.map Prod.fst, a, n, 0, rfl, hB, hC, ha, .nil, hb, e, e⟩
  · obtain ⟨B, C, k, rfl, hg⟩ := remove_gap hX hne hc
    obtain ⟨u, v, a, n, h1, h2, h3, h4⟩ := remove_addresses hg h h'
    exact ⟨B, C, u, v, a, n, k, rfl, hg.section_end, hg.remainder, h1, hg.size_at a, h2, h3, h4⟩

example : assemble ([org200] ++ ([db7] ++ [here, jpHere])) = .ret (.ok [⟨0x200, [7, 0x12, 0x01]⟩]) ∧
    assemble ([org200] ++ [here, jpHere]) = .ret (.ok [⟨0x200, [0x12, 0x00]⟩]) ∧
    (image [⟨0x200, [7, 0x12, 0x01]⟩]).map Prod.fst = List.range' 0x200 (2 + 1) := ⟨rfl, rfl, rfl⟩

/-- C122: the same for source files. When lines with only instructions and `.db` are deleted, the file is still accepted, and if
no two bytes had the same address, none have. -/
theorem C122_text [Target] (file a x d : Str) (A X D : List Node) (ha : WholeLines a) (hx : WholeLines x) (hA : Statements a A)
    (hX : Statements x X) (hD : Statements d D) (hX' : DataOnly X) (bytes : List (Nat × U8))
    (h : Describes wordBinary file (a ++ (x ++ d)) bytes) :
    ∃ bytes', Describes wordBinary file (a ++ d) bytes' ∧ (bytes'.map Prod.fst).Sublist (bytes.map Prod.fst) ∧
      (NoCollision bytes → NoCollision bytes') := by
  have c1 := hasCut_append ha (statements_cut hA) (hasCut_append hx (statements_cut hX) (statements_cut hD))
  have c2 := hasCut_append ha (statements_cut hA) (statements_cut hD)
  obtain ⟨r, h1, rfl⟩ := (hasCut_describes c1 _).1 h
  have drop : ∀ {X : List Node}, DataOnly X → Thinned (X ++ D) D := by
    intro X hX
    induction X with
    | nil => exact thinned_refl D
    | cons n X ih =>
      exact .drop (fun m hm => hX m (by rw [List.mem_singleton.1 hm]; exact List.mem_cons_self))
        (ih fun m hm => hX m (List.mem_cons_of_mem _ hm))
  obtain ⟨r', h2, hsub, _⟩ := C122_removed (A ++ (X ++ D)) (A ++ D) (thinned_append A (drop hX')) r h1
  exact ⟨_, (hasCut_describes c2 _).2 ⟨r', h2, rfl⟩, hsub, fun hn => hsub.nodup hn⟩

example : WholeLines ".db 7\ncls\n".toList ∧
    Statements ".db 7\ncls\n".toList [.directive ⟨[], 1, 2, 2⟩ "db".toList [.numeric 7], .instruction ⟨[], 2, 1, 3⟩ "cls".toList []] ∧
    DataOnly [.directive ⟨[], 1, 2, 2⟩ "db".toList [.numeric 7], .instruction ⟨[], 2, 1, 3⟩ "cls".toList []] := by
  refine ⟨.inr ⟨".db 7\ncls".toList, rfl⟩, ⟨[], _, rfl, rfl⟩, ?_⟩
  intro n hn
  simp only [List.mem_cons, List.not_mem_nil, or_false] at hn
  rcases hn with rfl | rfl
  · exact .inr ⟨_, _, _, rfl, by decide⟩
  · exact .inl ⟨_, _, _, rfl⟩

/-- C122: taking out a label or an `.org` can make a program invalid. -/
theorem C122_needs_data : (∃ A B l name r e, assemble (A ++ .label l name :: B) = .ret (.ok r) ∧ assemble (A ++ B) = .ret (.error e)) ∧
    ∃ A B l xs r e, assemble (A ++ .directive l "org".toList xs :: B) = .ret (.ok r) ∧ assemble (A ++ B) = .ret (.error e) :=
  ⟨⟨[org200, db7], [jpHere], loc, "here".toList, [⟨0x200, [7, 0x12, 0x01]⟩], .assemblyFailed loc (.unableToResolveLabel "here".toList),
    rfl, rfl⟩, ⟨[.directive loc "org".toList [.numeric 0xFFE]], [.instruction loc "cls".toList []], loc, [.numeric 0x200],
    [⟨0x200, [0x00, 0xE0]⟩], .instructionWouldOverflow loc, rfl, rfl⟩⟩

end C8S
