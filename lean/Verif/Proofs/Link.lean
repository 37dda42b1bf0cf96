import Verif.Spec.Link
import Verif.Props.Blocks
import Verif.Props.ByLine
import Verif.Props.Files
import Verif.Props.Text

/- Helper lemmas for Verif.Props.Link. -/

namespace C8S

open Spec

/-- The lines of the object file of these ranges, without the last one. -/
def DataLines (ranges : List DataRange) (b : Str) : Prop :=
  ∃ bs lines, AllBlocks ranges bs ∧ Each BlockLine bs lines ∧ b = lines.flatMap (· ++ ['\n'])

theorem dataLines_append {r r' : List DataRange} {b b' : Str} (h : DataLines r b) (h' : DataLines r' b') : DataLines (r ++ r') (b ++ b') := by
  obtain ⟨bs, ls, h1, h2, rfl⟩ := h
  obtain ⟨bs', ls', h3, h4, rfl⟩ := h'
  exact ⟨bs ++ bs', ls ++ ls', allBlocks_append.2 ⟨_, _, h1, h3, rfl⟩, each_join h2 h4, by rw [List.flatMap_append]⟩

theorem dataLines_unique {r : List DataRange} {b b' : Str} (h : DataLines r b) (h' : DataLines r b') : b = b' := by
  obtain ⟨bs, ls, h1, h2, rfl⟩ := h
  obtain ⟨bs', ls', h3, h4, rfl⟩ := h'
  cases allBlocks_unique h1 h3
  rw [lines_unique h2 h4]

theorem dataLines_of_assembled {nodes : List Node} {ranges : List DataRange} {text : Str} (ha : assemble nodes = .ret (.ok ranges))
    (h : ihexRepresentationOfDataRanges ranges = .ret text) : ∃ b, DataLines ranges b ∧ text = b ++ lastLine := by
  obtain ⟨bs, ls, h1, h2, _, rfl⟩ := ihex_blocks (ranges := ranges)
    (fun r hr => by have := (ranges_bound ha r hr).2; simp only [memorySize] at *; omega) h
  exact ⟨_, ⟨bs, ls, h1, h2, rfl⟩, by rw [List.flatMap_append]; rfl⟩

theorem labelNames_moved (f : Loc → Loc) (ns : List Node) : labelNames (ns.map (nodeMap f)) = labelNames ns := by
  induction ns with
  | nil => rfl
  | cons n ns ih => cases n <;> simp [nodeMap, labelNames, ih]

theorem org_moved (f : Loc → Loc) {ns : List Node} (h : StartsWithOrg ns) : StartsWithOrg (ns.map (nodeMap f)) := by
  obtain ⟨l, s, xs, v, body, hm, rfl⟩ := h
  exact ⟨f l, s, xs, v, body.map (nodeMap f), hm, rfl⟩

theorem statements_moved [Target] {file text : Str} {ns ms : List Node} (h : SyntaxOf file text (.ok ns)) (h' : Statements text ms) :
    ∃ f, ns = ms.map (nodeMap f) := by
  obtain ⟨file', ts', h1, h2⟩ := h'
  obtain ⟨ts, h3, h4⟩ := h
  have h5 := C55_file_name file' file text ts' h1
  cases h3.symm.trans h5
  have h6 := C55_parse (fun l => { l with fileName := file }) ts' _ h2
  cases h4.symm.trans h6
  exact ⟨_, rfl⟩

theorem statements_syntax [Target] {text : Str} {ms : List Node} (file : Str) (h' : Statements text ms) :
    ∃ f, SyntaxOf file text (.ok (ms.map (nodeMap f))) := by
  obtain ⟨file', ts', h1, h2⟩ := h'
  have h5 := C55_file_name file' file text ts' h1
  have h6 := C55_parse (fun l => { l with fileName := file }) ts' _ h2
  exact ⟨_, _, h5, h6⟩

/-- What a run that succeeds has written. -/
theorem run_object [Target] {env : Env} {program input output : Str}
    (h : (assembleFile env program input output).exit = .code 0) :
    ∃ text hex, env.readInput input = .ok text ∧ ObjectText input text hex ∧
      bytesTo (destination output) (assembleFile env program input output).events = utf8 hex := by
  rcases files_cases env program input output with ⟨_, h1⟩ | ⟨text, hex, _, hr, ho, he⟩
  · rw [h] at h1; cases h1
  · refine ⟨text, hex, hr, ho, ?_⟩
    rw [he] at h ⊢
    have hw : (writeResult env program output hex).events =
        (if output = "-".toList then [] else [.created output]) ++ [.wrote (destination output) (utf8 hex)] := by
      unfold writeResult destination at *
      simp only [utf8Bytes_eq] at h ⊢
      by_cases hd : output = "-".toList
      · simp only [if_pos hd] at h ⊢
        cases hx : env.writeOutput .stdout (utf8 hex) with
        | ok u => rfl
        | error e => rw [hx] at h; cases h
      · simp only [if_neg hd] at h ⊢
        cases hc : env.createOutput output with
        | error r => rw [hc] at h; cases h
        | ok u =>
          simp only [hc] at h ⊢
          cases hx : env.writeOutput (.file output) (utf8 hex) with
          | ok u => rfl
          | error e => rw [hx] at h; cases h
    simp only [hw]
    exact bytesTo_written output _ [.opening input, .reading input] (by simp)

/-- Joining the statements of the parts. -/
theorem link_parts [Target] (parts : List (Str × Str)) (hs : ∀ x ∈ parts, SectionText x.1) (hb : ∀ x ∈ parts, Builds x.1 x.2)
    (hd : parts.Pairwise fun x y => NoSharedLabel x.1 y.1) (file : Str) :
    ∃ (P : List Node) (R : List DataRange) (bodies : List Str), SyntaxOf file (parts.map Prod.fst).flatten (.ok P) ∧ assemble P = .ret (.ok R) ∧
      parts.map Prod.snd = bodies.map (· ++ lastLine) ∧ DataLines R bodies.flatten ∧
      (image R).map Prod.fst = parts.flatMap (fun x => loadedAddresses x.2) ∧ (P = [] ∨ StartsWithOrg P) ∧
      ∀ s ∈ labelNames P, ∃ x ∈ parts, ∃ ms, Statements x.1 ms ∧ s ∈ labelNames ms := by
  induction parts with
  | nil =>
    exact ⟨[], [], [], ⟨[], (scan_iff_lex _ _ _).2 (.done (by simp)), rfl⟩, rfl, rfl, ⟨[], [], .nil, .nil, rfl⟩, rfl, .inl rfl,
      fun s h => by cases h⟩
  | cons x rest ih =>
    rw [List.pairwise_cons] at hd
    obtain ⟨P, R, bodies, h1, h2, h3, h4, h5, h6, h7⟩ := ih (fun y hy => hs y (List.mem_cons_of_mem _ hy))
      (fun y hy => hb y (List.mem_cons_of_mem _ hy)) hd.2
    obtain ⟨hw, ns, hn, ho⟩ := hs x List.mem_cons_self
    obtain ⟨env, program, input, output, hr, he, hbytes⟩ := hb x List.mem_cons_self
    obtain ⟨text, hex, hr', ⟨ts, ns', R1, g1, g2, g3, g4, g5⟩, hbytes'⟩ := run_object he
    cases hr.symm.trans hr'
    cases utf8_inj (hbytes.symm.trans hbytes')
    obtain ⟨f, hf⟩ := statements_syntax file ⟨input, ts, g1, g2⟩
    obtain ⟨g, rfl⟩ := statements_moved ⟨ts, g1, g2⟩ hn
    obtain ⟨b, hbody, hx⟩ := dataLines_of_assembled g3 g5
    obtain ⟨hex', e1, e2⟩ := C44_assembled _ _ g3 g4
    cases g5.symm.trans e1
    have a1 : assemble ((ns.map (nodeMap g)).map (nodeMap f)) = .ret (.ok R1) := C55_assemble f _ _ g3
    have a2 : assemble (P.map (nodeMap (further (newlines x.1)))) = .ret (.ok R) := C55_assemble _ _ _ h2
    have hload : loadedAddresses x.2 = (image R1).map Prod.fst := by
      unfold loadedAddresses
      rw [e2]
      simp
    have hsyn := C109_after file x.1 (rest.map Prod.fst).flatten _ (.ok P) hw hf h1
    refine ⟨_, R1 ++ R, b :: bodies, hsyn, ?_, ?_, dataLines_append hbody h4, ?_, .inr ?_, ?_⟩
    · rcases h6 with rfl | h6
      · have hR : R = [] := by cases h2; rfl
        subst hR
        simpa using a1
      · refine assemble_join (org_moved _ h6) ?_ a1 a2
        intro s hs1 hs2
        rw [labelNames_moved, labelNames_moved] at hs1
        rw [labelNames_moved] at hs2
        obtain ⟨y, hy, ms, hm, hsm⟩ := h7 s hs2
        exact hd.1 y hy ns ms hn hm s hs1 hsm
    · rw [List.map_cons, List.map_cons, h3, hx]
    · rw [List.flatMap_cons, hload, ← h5]
      simp [image]
    · obtain ⟨l, s, xs, v, body, hm, rfl⟩ := ho
      exact ⟨f (g l), s, xs, v, _, hm, rfl⟩
    · intro s hs'
      rw [labelNames_append, labelNames_moved, labelNames_moved, labelNames_moved] at hs'
      rcases List.mem_append.1 hs' with hs' | hs'
      · exact ⟨x, List.mem_cons_self, ns, hn, hs'⟩
      · obtain ⟨y, hy, z⟩ := h7 s hs'
        exact ⟨y, List.mem_cons_of_mem _ hy, z⟩

end C8S
