import Verif.Spec.Image
import Verif.Props.Source
import Verif.Props.Tool

/- The statements of the source text for given memory contents, and what they assemble to. -/

namespace C8S

open Spec

namespace Image

def here : Loc := ⟨[], 0, 0, 0⟩

def rangeNodes (r : DataRange) : List Node :=
  [.directive here "org".toList [.numeric r.startAddress.toNat],
    .directive here "db".toList (r.data.map fun b => .numeric b.toNat)]

def imageNodes (ranges : List DataRange) : List Node := ranges.flatMap rangeNodes

theorem line_directive (l : Loc) (s : Str) (xs : List Literal) : lineText (.directive l s xs) =
    '.' :: s ++ [' '] ++ separated (xs.map argumentText) ++ ['\n'] := rfl

theorem rangeText_lines (r : DataRange) (org db : Str) (ho : org = ['o', 'r', 'g']) (hd : db = ['d', 'b']) :
    lineText (.directive here org [.numeric r.startAddress.toNat]) ++
      lineText (.directive here db (r.data.map fun b => .numeric b.toNat)) = rangeText r := by
  subst ho hd
  have h1 := line_directive here ['o', 'r', 'g'] [.numeric r.startAddress.toNat]
  have h2 := line_directive here ['d', 'b'] (r.data.map fun b => .numeric b.toNat)
  rw [List.map_map] at h2
  rw [h1, h2]
  unfold rangeText
  have e1 : ".org ".toList = ['.', 'o', 'r', 'g', ' '] := rfl
  have e2 : "\n.db ".toList = ['\n', '.', 'd', 'b', ' '] := rfl
  have e6 : "\n".toList = ['\n'] := rfl
  have e7 : separated (List.map argumentText [.numeric r.startAddress.toNat]) = decimal r.startAddress.toNat := rfl
  have e8 : (argumentText ∘ fun b : U8 => Literal.numeric b.toNat) = fun b => decimal b.toNat := rfl
  rw [e1, e2, e6, e7, e8]
  simp only [List.cons_append, List.append_assoc, List.nil_append]

theorem sourceText_image (ranges : List DataRange) : sourceText (imageNodes ranges) = imageText ranges := by
  induction ranges with
  | nil => rfl
  | cons r rs ih =>
    rw [imageNodes, List.flatMap_cons, imageText, List.flatMap_cons, sourceText, List.flatMap_append]
    rw [sourceText, imageNodes, imageText] at ih
    rw [ih]
    congr 1
    rw [rangeNodes, List.flatMap_cons, List.flatMap_cons, List.flatMap_nil, List.append_nil]
    exact rangeText_lines r _ _ rfl rfl

theorem emitsAll_bytes (bytes : List U8) : EmitsAll (bytes.map fun b => .numeric b.toNat) bytes := by
  induction bytes with
  | nil => exact .nil
  | cons b bs ih => exact .number ih

theorem org_means (r : DataRange) :
    DirectiveMeans "org".toList [.numeric r.startAddress.toNat] (.org r.startAddress) := .org _ (by decide)

theorem db_means {r : DataRange} (h : Placeable r) :
    DirectiveMeans "db".toList (r.data.map fun b => .numeric b.toNat) (.db r.data) :=
  .db (by decide) (by simpa using h.1) (emitsAll_bytes _)

theorem defineLabels_image {ranges : List DataRange} (h : ∀ r ∈ ranges, Placeable r) (a : U12) :
    defineLabelsLoop (imageNodes ranges) a [] = .ok [] := by
  induction ranges generalizing a with
  | nil => rfl
  | cons r rs ih =>
    have hr := h r List.mem_cons_self
    have hf := hr.2
    unfold rangeEnd at hf
    have ha := a.isLt
    show defineLabelsLoop (.directive _ _ _ :: .directive _ _ _ :: imageNodes rs) a [] = _
    rw [defineLabelsLoop, means_iff.2 (org_means r)]
    have e1 : failableInto12 (Directive.org r.startAddress).size = some 0 := rfl
    have e2 : checkedAdd a 0 = some a := by
      unfold checkedAdd
      rw [if_pos (by simp; omega)]
      simp
    simp only [e1, e2]
    rw [defineLabelsLoop, means_iff.2 (db_means hr)]
    have e3 : failableInto12 (Directive.db r.data).size = some (BitVec.ofNat 12 r.data.length) := by
      show failableInto12 r.data.length = _
      unfold failableInto12
      exact if_pos (by omega)
    have e4 : (BitVec.ofNat 12 r.data.length).toNat = r.data.length := by
      rw [BitVec.toNat_ofNat, Nat.mod_eq_of_lt (by omega)]
    have e5 : checkedAdd r.startAddress (BitVec.ofNat 12 r.data.length) =
        some (BitVec.ofNat 12 (r.startAddress.toNat + r.data.length)) := by
      unfold checkedAdd
      rw [e4, if_pos (by omega)]
    simp only [e3, e5]
    exact ih (fun r hr => h r (List.mem_cons_of_mem _ hr)) _

theorem sections_of_image {ranges : List DataRange} (h : ∀ r ∈ ranges, Placeable r) (start : U12) :
    Sections [] start (imageNodes ranges) (⟨start, []⟩ :: ranges) := by
  induction ranges generalizing start with
  | nil => exact .nil
  | cons r rs ih =>
    have hr := h r List.mem_cons_self
    refine .org (org_means r) ?_
    have := Sections.emit (Emits.db (loc := here) (labels := []) (db_means hr))
      (ih (fun r hr => h r (List.mem_cons_of_mem _ hr)) r.startAddress)
    rw [List.append_nil] at this
    exact this

theorem assemble_image {ranges : List DataRange} (h : ∀ r ∈ ranges, Placeable r) :
    assemble (imageNodes ranges) = .ret (.ok ranges) := by
  have hd := defineLabels_ok (defineLabels_image h 0)
  refine assemble_ok_iff.2 ⟨[], _, hd.1, hd.2, sections_of_image h 0, ?_⟩
  unfold nonEmpty
  rw [List.filter_cons_of_neg (by simp)]
  exact (List.filter_eq_self.2 fun r hr => by simpa using (h r hr).1).symm

theorem formed_image {ranges : List DataRange} : ∀ n ∈ imageNodes ranges, Formed n := by
  intro n hn
  obtain ⟨r, _, hn⟩ := List.mem_flatMap.1 hn
  have name : ∀ c t, NameStart c → (∀ d ∈ t, NameChar d) → IsName (c :: t) := fun c t h h' => .inl ⟨c, t, rfl, h, h'⟩
  rcases List.mem_cons.1 hn with rfl | hn
  · refine ⟨name _ _ (by decide) (by decide), ?_⟩
    intro x hx
    rw [List.mem_singleton.1 hx]
    show _ ≤ 4095
    have := r.startAddress.isLt
    omega
  · rw [List.mem_singleton.1 hn]
    refine ⟨name _ _ (by decide) (by decide), ?_⟩
    intro x hx
    obtain ⟨b, _, rfl⟩ := List.mem_map.1 hx
    show _ ≤ 4095
    have := b.isLt
    omega

/-- Statements equal but for locations are assembled to the same ranges. -/
theorem assemble_same {a b : List Node} {ranges : List DataRange} (e : a.map bareNode = b.map bareNode)
    (h : assemble a = .ret (.ok ranges)) : assemble b = .ret (.ok ranges) := by
  have h1 := assemble_map nowhere h
  have h2 := assemble_run nowhere b
  rw [show b.map (nodeMap nowhere) = a.map (nodeMap nowhere) from e.symm, h1] at h2
  cases hb : assemble b with
  | panic =>
    rw [hb] at h2
    cases h2
  | ret out =>
    rw [hb] at h2
    cases out with
    | error _ => cases h2
    | ok r =>
      cases h2
      rfl

theorem placeable_of_assemble {nodes : List Node} {ranges : List DataRange} (h : assemble nodes = .ret (.ok ranges)) :
    ∀ r ∈ ranges, Placeable r := by
  obtain ⟨labels, secs, hc, _, hs, rfl⟩ := assemble_ok_iff.1 h
  intro r hr
  obtain ⟨hm, hd⟩ := List.mem_filter.1 hr
  refine ⟨by simpa using hd, ?_⟩
  obtain ⟨d, rest, rfl⟩ := sections_head hs
  have hb := sections_bound hs d rest rfl 0
  rcases List.mem_cons.1 hm with rfl | hm
  · obtain ⟨p, q, rfl, hp⟩ := hb.1
    exact clean_fits (clean_prefix hc) hp
  · obtain ⟨p, q, rfl, hp⟩ := hb.2 r hm
    exact clean_fits (clean_prefix hc) hp

end Image

end C8S
