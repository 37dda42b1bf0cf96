import Verif.Proofs.Image

/-
C65: the memory contents that source texts can produce. C66: canonical source text identifies programs.
-/

namespace C8S

open Spec Image

/-- C65: the text made from the ranges is accepted, and assembled to these ranges. -/
theorem C65_source [Target] (file : Str) (ranges : List DataRange) (h : ∀ r ∈ ranges, Placeable r) :
    ∃ tokens nodes, scan file (imageText ranges) = .ret tokens ∧ parse tokens = .ret (.ok nodes) ∧
      assemble nodes = .ret (.ok ranges) := by
  obtain ⟨tokens, nodes, hs, hp, e⟩ := C13_round_trip file (imageNodes ranges) formed_image
  rw [sourceText_image] at hs
  exact ⟨tokens, nodes, hs, hp, assemble_same e.symm (assemble_image h)⟩

example (file : Str) : ∃ tokens nodes, scan file ".org 512\n.db 7, 255\n".toList = .ret tokens ∧
    parse tokens = .ret (.ok nodes) ∧ assemble nodes = .ret (.ok [⟨0x200, [7, 255]⟩]) :=
  C65_source file [⟨0x200, [7, 255]⟩] (by unfold Placeable; decide)

/-- C65: the lists of ranges that some source text is assembled to are exactly those of ranges that hold at least one
byte and stay below the last address. -/
theorem C65_reachable [Target] (file : Str) (ranges : List DataRange) :
    (∃ text tokens nodes, scan file text = .ret tokens ∧ parse tokens = .ret (.ok nodes) ∧
      assemble nodes = .ret (.ok ranges)) ↔ ∀ r ∈ ranges, Placeable r := by
  constructor
  · rintro ⟨_, _, _, _, _, ha⟩
    exact placeable_of_assemble ha
  · intro h
    exact ⟨_, C65_source file ranges h⟩

example : imageText [⟨0x200, [7, 255]⟩, ⟨4094, [1]⟩] = ".org 512\n.db 7, 255\n.org 4094\n.db 1\n".toList := by decide

example : ∀ r ∈ ([⟨0x200, [7, 255]⟩, ⟨4094, [1]⟩] : List DataRange), Placeable r := by
  unfold Placeable; decide

example : ¬ Placeable ⟨4095, [1]⟩ ∧ ¬ Placeable ⟨512, []⟩ := by unfold Placeable; decide

/-- C65: whatever an accepted text does to the tool, a text of `.org` and `.db` lines with numbers does as well: the same
messages, or the same bytes written to the same file, and the same status. -/
theorem C65_same_run [Target] (file text : Str) (tokens : List Token) (nodes : List Node) (ranges : List DataRange)
    (hs : scan file text = .ret tokens) (hp : parse tokens = .ret (.ok nodes)) (ha : assemble nodes = .ret (.ok ranges))
    (env : Env) (program output : Str) :
    assembleText env program file output text = assembleText env program file output (imageText ranges) := by
  obtain ⟨tokens', nodes', hs', hp', ha'⟩ := C65_source file ranges (placeable_of_assemble ha)
  unfold assembleText
  rw [hs, hs']
  simp only [hp, hp', ha, ha']

example : scan "f".toList "cls\n".toList = .ret [.identifier "cls".toList ⟨"f".toList, 1, 1, 3⟩, .newline ⟨"f".toList, 1, 4, 1⟩] ∧
    assemble [.instruction ⟨"f".toList, 1, 1, 3⟩ "cls".toList []] = .ret (.ok [⟨0, [0x00, 0xE0]⟩]) ∧
    imageText [⟨0, [0x00, 0xE0]⟩] = ".org 0\n.db 0, 224\n".toList :=
  ⟨by decide +kernel, by rfl, by decide +kernel⟩

/-- The contents of memory, one range for each address. -/
private def singles (memory : Nat → Option U8) : List DataRange :=
  (List.range 4095).filterMap fun a => (memory a).map fun b => ⟨BitVec.ofNat 12 a, [b]⟩

private theorem image_singles (memory : Nat → Option U8) :
    image (singles memory) = (List.range 4095).filterMap fun a => (memory a).map fun b => (a, b) := by
  have key : ∀ as : List Nat, (∀ a ∈ as, a < 4095) →
      image (as.filterMap fun a => (memory a).map fun b => ⟨BitVec.ofNat 12 a, [b]⟩) =
        as.filterMap fun a => (memory a).map fun b => (a, b) := by
    intro as
    induction as with
    | nil => intro _; rfl
    | cons a as ih =>
      intro h
      have ha := h a List.mem_cons_self
      have ih := ih fun a ha => h a (List.mem_cons_of_mem _ ha)
      rw [List.filterMap_cons, List.filterMap_cons]
      cases hm : memory a with
      | none => exact ih
      | some b =>
        simp only [Option.map_some]
        have e : image (⟨BitVec.ofNat 12 a, [b]⟩ ::
            as.filterMap fun a => (memory a).map fun b => ⟨BitVec.ofNat 12 a, [b]⟩) =
            ((BitVec.ofNat 12 a).toNat, b) :: image (as.filterMap fun a => (memory a).map fun b => ⟨BitVec.ofNat 12 a, [b]⟩) := rfl
        rw [e, ih, BitVec.toNat_ofNat, Nat.mod_eq_of_lt (by omega)]
  exact key _ fun a ha => List.mem_range.1 ha

/-- C65: for any contents of the memory below the last address there is a source text that the tool assembles, without a
collision, to these contents; where the output can be written, the file written holds these contents. -/
theorem C65_memory [Target] (input : Str) (memory : Nat → Option U8) (h : ∀ a b, memory a = some b → a < 0xFFF) :
    ∃ text bytes, Describes wordBinary input text bytes ∧ NoCollision bytes ∧
      (∀ a b, (a, b) ∈ bytes ↔ memory a = some b) ∧
      ∀ env program output, env.openInput input = .ok () → env.readInput input = .ok text → CanWrite env output →
        (assembleFile env program input output).exit = .code 0 ∧
        ∃ hex, bytesTo (destination output) (assembleFile env program input output).events = utf8 hex ∧
          HexOf hex bytes := by
  have hp : ∀ r ∈ singles memory, Placeable r := by
    intro r hr
    obtain ⟨a, ha, e⟩ := List.mem_filterMap.1 hr
    have ha := List.mem_range.1 ha
    cases hm : memory a with
    | none => rw [hm] at e; cases e
    | some b =>
      rw [hm] at e
      cases e
      refine ⟨by simp, ?_⟩
      show (BitVec.ofNat 12 a).toNat + 1 ≤ 0xFFF
      rw [BitVec.toNat_ofNat, Nat.mod_eq_of_lt (by omega)]
      omega
  obtain ⟨tokens, nodes, hs, hpar, ha⟩ := C65_source input (singles memory) hp
  have hd : Describes wordBinary input (imageText (singles memory)) (image (singles memory)) :=
    (describes_iff _ _ _).2 ⟨tokens, nodes, _, hs, hpar, ha, rfl⟩
  have hmem : ∀ a b, (a, b) ∈ image (singles memory) ↔ memory a = some b := by
    intro a b
    rw [image_singles, List.mem_filterMap]
    constructor
    · rintro ⟨a', _, e⟩
      cases hm : memory a' with
      | none => rw [hm] at e; cases e
      | some b' =>
        rw [hm] at e
        cases e
        exact hm
    · intro hm
      exact ⟨a, List.mem_range.2 (h a b hm), by rw [hm]; rfl⟩
  have hn : NoCollision (image (singles memory)) := by
    unfold NoCollision
    rw [image_singles, List.map_filterMap]
    have e : (fun a => Option.map Prod.fst ((memory a).map fun b => (a, b))) =
        fun a => if (memory a).isSome then some a else none := by
      funext a
      cases memory a <;> rfl
    rw [e]
    refine List.pairwise_filterMap.2 (List.Pairwise.imp ?_ List.nodup_range)
    intro a a' hne b hb b' hb'
    split at hb
    · cases hb
      split at hb'
      · cases hb'; exact hne
      · cases hb'
    · cases hb
  refine ⟨_, _, hd, hn, hmem, fun env program output ho hr hw => ⟨?_, ?_⟩⟩
  · exact (C47_iff env program input output _ ho hr hw).2 ⟨_, hd, hn⟩
  · exact C47_content env program input output _ _ ho hr hw hd hn

example : ∀ a b, (fun a => if a % 2 = 0 ∧ a < 0xFFF then some (BitVec.ofNat 8 a) else none) a = some b → a < 0xFFF := by
  intro a b h
  by_cases hc : a % 2 = 0 ∧ a < 0xFFF
  · exact hc.2
  · simp only [if_neg hc] at h
    cases h

/-- C65: no source text puts a byte at the last address. -/
theorem C65_last [Target] (input text : Str) (bytes : List (Nat × U8)) (h : Describes wordBinary input text bytes) (b : U8) :
    (0xFFF, b) ∉ bytes := by
  obtain ⟨_, nodes, ranges, _, _, ha, rfl⟩ := (describes_iff _ _ _).1 h
  exact fun hm => absurd (C31_in_memory nodes ranges ha _ _ hm) (by decide)

example (file : Str) : ∃ text, Describes wordBinary file text [(4094, 1)] ∧ (0xFFF, (1 : U8)) ∉ [(4094, (1 : U8))] := by
  obtain ⟨tokens, nodes, hs, hp, ha⟩ := C65_source file [⟨4094, [1]⟩] (by unfold Placeable; decide)
  exact ⟨_, (describes_iff _ _ _).2 ⟨tokens, nodes, _, hs, hp, ha, rfl⟩, by decide⟩

/-- C66: the canonical text of a program is unchanged by parsing it and writing it again. -/
theorem C66_idempotent [Target] (file : Str) (ns : List Node) (h : ∀ n ∈ ns, Formed n) :
    ∃ tokens ns', scan file (sourceText ns) = .ret tokens ∧ parse tokens = .ret (.ok ns') ∧
      sourceText ns' = sourceText ns := by
  obtain ⟨tokens, ns', hs, hp, e⟩ := C13_round_trip file ns h
  refine ⟨tokens, ns', hs, hp, ?_⟩
  have hb : ∀ ms : List Node, sourceText (ms.map bareNode) = sourceText ms := by
    intro ms
    rw [sourceText, sourceText, List.flatMap_map]
    congr 1
    funext n
    cases n <;> rfl
  rw [← hb ns', e, hb ns]

example : (∀ n ∈ [Node.instruction ⟨[], 3, 7, 3⟩ "cls".toList []], Formed n) ∧
    sourceText [Node.instruction ⟨[], 3, 7, 3⟩ "cls".toList []] = "cls \n".toList := by
  refine ⟨?_, by decide⟩
  intro n hn
  rw [List.mem_singleton.1 hn]
  exact ⟨.inl ⟨'c', "ls".toList, rfl, by decide, by decide⟩, by simp⟩

/-- C66: two programs have the same canonical text exactly when they have the same statements, but for locations. -/
theorem C66_same_text (ns ms : List Node) (hn : ∀ n ∈ ns, Formed n) (hm : ∀ n ∈ ms, Formed n) :
    sourceText ns = sourceText ms ↔ ns.map bareNode = ms.map bareNode := by
  constructor
  · intro e
    obtain ⟨t, a, h1, h2, h3⟩ := C13_round_trip [] ns hn
    obtain ⟨t', a', h1', h2', h3'⟩ := C13_round_trip [] ms hm
    rw [e, h1'] at h1
    cases h1
    rw [h2'] at h2
    cases h2
    exact h3.symm.trans h3'
  · intro e
    have hb : ∀ ms : List Node, sourceText (ms.map bareNode) = sourceText ms := by
      intro ms
      rw [sourceText, sourceText, List.flatMap_map]
      congr 1
      funext n
      cases n <;> rfl
    rw [← hb ns, e, hb ms]

example : sourceText [Node.label ⟨[], 3, 1, 4⟩ "loop".toList] = sourceText [Node.label ⟨"f".toList, 9, 9, 4⟩ "loop".toList] ∧
    Formed (.label ⟨[], 3, 1, 4⟩ "loop".toList) :=
  ⟨by decide, .inl ⟨'l', "oop".toList, rfl, by decide, by decide⟩⟩

/-- C66: two accepted texts have the same canonical form exactly when they are read as the same statements, but for
locations; they then have the same output. -/
theorem C66_same_program [Target] (file file' text text' : Str) (tokens tokens' : List Token) (ns ms : List Node)
    (hs : scan file text = .ret tokens) (hp : parse tokens = .ret (.ok ns))
    (hs' : scan file' text' = .ret tokens') (hp' : parse tokens' = .ret (.ok ms)) :
    (sourceText ns = sourceText ms ↔ ns.map bareNode = ms.map bareNode) ∧
    (sourceText ns = sourceText ms → ∀ ranges, assemble ns = .ret (.ok ranges) ↔ assemble ms = .ret (.ok ranges)) := by
  have h := C66_same_text ns ms (C13_formed _ _ _ _ hs hp) (C13_formed _ _ _ _ hs' hp')
  exact ⟨h, fun e ranges => ⟨assemble_same (h.1 e), assemble_same (h.1 e).symm⟩⟩

example : (∀ n ∈ [Node.label ⟨[], 3, 1, 4⟩ "loop".toList, .instruction ⟨[], 3, 7, 3⟩ "cls".toList []], Formed n) ∧
    sourceText [Node.label ⟨[], 3, 1, 4⟩ "loop".toList, .instruction ⟨[], 3, 7, 3⟩ "cls".toList []] =
      "loop:\ncls \n".toList := by
  refine ⟨?_, by decide⟩
  intro n hn
  rcases List.mem_cons.1 hn with rfl | hn
  · exact .inl ⟨'l', "oop".toList, rfl, by decide, by decide⟩
  · rw [List.mem_singleton.1 hn]
    exact ⟨.inl ⟨'c', "ls".toList, rfl, by decide, by decide⟩, by simp⟩

end C8S
