import Verif.Proofs.Link
import Verif.Proofs.Missing
import Verif.Props.Reorder

/- Property C111: object files can be linked. -/

namespace C8S

open Spec

/-! ### C111 -/

/-- C111: the parts of a program, each of whole lines that begin with an `.org`, share no label and have been assembled one
by one. The tool accepts them as one file exactly if no address is used by two of the object files; and then its object file
is made up of theirs. -/
theorem C111_linked [Target] (parts : List (Str × Str)) (hs : ∀ x ∈ parts, SectionText x.1) (hb : ∀ x ∈ parts, Builds x.1 x.2)
    (hd : parts.Pairwise fun x y => NoSharedLabel x.1 y.1) (env : Env) (program input output : Str)
    (ho : env.openInput input = .ok ()) (hr : env.readInput input = .ok (parts.map Prod.fst).flatten) (hw : CanWrite env output) :
    ((assembleFile env program input output).exit = .code 0 ↔ (parts.flatMap fun x => loadedAddresses x.2).Nodup) ∧
    ((assembleFile env program input output).exit = .code 0 → ∃ hex, Linked (parts.map Prod.snd) hex ∧
      bytesTo (destination output) (assembleFile env program input output).events = utf8 hex) := by
  obtain ⟨P, R, bodies, ⟨ts, h0, h1⟩, h2, h3, h4, h5, _, _⟩ := link_parts parts hs hb hd input
  have hd' : Describes wordBinary input (parts.map Prod.fst).flatten (image R) := (describes_iff _ _ _).2 ⟨ts, P, R, h0, h1, h2, rfl⟩
  constructor
  · rw [C47_iff env program input output _ ho hr hw, ← h5]
    constructor
    · rintro ⟨bytes, hx, hn⟩
      cases describes_unique hx hd'
      exact hn
    · intro hn
      exact ⟨_, hd', hn⟩
  · intro he
    obtain ⟨text, hex, hr', ⟨ts', P', R', g0, g1, g2, _, g3⟩, hbytes⟩ := run_object he
    cases hr.symm.trans hr'
    cases h0.symm.trans g0
    cases h1.symm.trans g1
    cases h2.symm.trans g2
    obtain ⟨b, hb', rfl⟩ := dataLines_of_assembled h2 g3
    cases dataLines_unique hb' h4
    exact ⟨_, ⟨bodies, h3, rfl⟩, hbytes⟩

namespace LinkExample

/-- A section with a jump to itself. -/
def loop : Str := ".org $200\ny: jp y\n".toList

theorem loop_statements : Statements loop [.directive ⟨[], 1, 2, 3⟩ "org".toList [.numeric 0x200], .label ⟨[], 2, 1, 1⟩ "y".toList,
    .instruction ⟨[], 2, 4, 2⟩ "jp".toList [.identifier "y".toList]] := ⟨[], _, rfl, by rfl⟩

theorem loop_section : SectionText loop :=
  ⟨.inr ⟨".org $200\ny: jp y".toList, by rfl⟩, _, loop_statements, _, _, _, 0x200, _, means_iff.1 rfl, rfl⟩

theorem data_statements : Statements ReorderExample.data [.directive ⟨[], 1, 2, 3⟩ "org".toList [.numeric 0x300],
    .label ⟨[], 2, 1, 1⟩ "x".toList, .directive ⟨[], 2, 5, 2⟩ "db".toList [.numeric 1]] := ⟨[], _, rfl, by rfl⟩

theorem loop_builds : Builds loop ":020200001200EA\n:00000001FF\n".toList :=
  ⟨ToolExample.env loop, [], [], "-".toList, rfl, by decide +kernel, by decide +kernel⟩

theorem data_builds : Builds ReorderExample.data ":0103000001FB\n:00000001FF\n".toList :=
  ⟨ToolExample.env ReorderExample.data, [], [], "-".toList, rfl, by decide +kernel, by decide +kernel⟩

theorem apart : NoSharedLabel loop ReorderExample.data := by
  rintro ns ms ⟨f1, t1, h1, h2⟩ ⟨f2, t2, h3, h4⟩ s hs hs'
  obtain ⟨f, rfl⟩ := statements_moved ⟨t1, h1, h2⟩ loop_statements
  obtain ⟨g, rfl⟩ := statements_moved ⟨t2, h3, h4⟩ data_statements
  rw [labelNames_moved] at hs hs'
  revert hs hs'
  simp only [labelNames, List.mem_singleton]
  rintro rfl h
  exact absurd h (by decide)

end LinkExample

open LinkExample in
/-- A jump at $200 and a byte at $300, assembled apart and together. -/
example : ∃ hex, Linked [":020200001200EA\n:00000001FF\n".toList, ":0103000001FB\n:00000001FF\n".toList] hex ∧
    bytesTo .stdout (assembleFile (ToolExample.env [loop, ReorderExample.data].flatten) [] [] "-".toList).events = utf8 hex :=
  (C111_linked [(loop, _), (ReorderExample.data, _)]
    (by
      intro x hx
      simp only [List.mem_cons, List.not_mem_nil, or_false] at hx
      rcases hx with rfl | rfl
      · exact loop_section
      · exact ReorderExample.data_section)
    (by
      intro x hx
      simp only [List.mem_cons, List.not_mem_nil, or_false] at hx
      rcases hx with rfl | rfl
      · exact loop_builds
      · exact data_builds)
    (by simp [apart]) (ToolExample.env [loop, ReorderExample.data].flatten) [] [] "-".toList rfl rfl (ToolExample.can _ _)).2
    (by decide +kernel)

/-- C111: the linked file is determined by its parts. -/
theorem C111_unique (files : List Str) (whole whole' : Str) (h : Linked files whole) (h' : Linked files whole') : whole = whole' := by
  obtain ⟨b, rfl, rfl⟩ := h
  obtain ⟨b', e, rfl⟩ := h'
  have : b = b' := by
    induction b generalizing b' with
    | nil => cases b' <;> simp at e ⊢
    | cons x b ih =>
      cases b' with
      | nil => simp at e
      | cons y b' =>
        simp only [List.map_cons, List.cons.injEq] at e
        rw [List.append_cancel_right e.1, ih b' e.2]
  rw [this]

example : Linked [":020200001200EA\n:00000001FF\n".toList, ":0103000001FB\n:00000001FF\n".toList]
    ":020200001200EA\n:0103000001FB\n:00000001FF\n".toList :=
  ⟨[":020200001200EA\n".toList, ":0103000001FB\n".toList], by decide, by decide⟩

/-- C111: parts that share a label are not accepted as one file, whatever the tool makes of each of them. -/
theorem C111_shared [Target] (a b c d e : Str) (ns ms : List Node) (s : Str) (hwa : WholeLines a) (hwb : WholeLines b)
    (hwc : WholeLines c) (hwd : WholeLines d) (hla : ∃ n, Statements a n) (hlb : Statements b ns) (hlc : ∃ n, Statements c n)
    (hld : Statements d ms) (hs : s ∈ labelNames ns) (hs' : s ∈ labelNames ms) (env : Env) (program input output : Str)
    (hr : env.readInput input = .ok (a ++ (b ++ (c ++ (d ++ e))))) :
    (assembleFile env program input output).exit ≠ .code 0 := by
  intro he
  obtain ⟨text, hex, hr', ⟨ts, P, R, g0, g1, g2, _, _⟩, _⟩ := run_object he
  cases hr.symm.trans hr'
  obtain ⟨na, hna⟩ := hla
  obtain ⟨nc, hnc⟩ := hlc
  obtain ⟨f1, s1⟩ := statements_syntax input hna
  obtain ⟨f2, s2⟩ := statements_syntax input hlb
  obtain ⟨f3, s3⟩ := statements_syntax input hnc
  obtain ⟨f4, s4⟩ := statements_syntax input hld
  obtain ⟨out, s5⟩ := syntax_exists input e
  have t4 := C109_after input d e _ out hwd s4 s5
  have t3 := C109_after input c _ _ _ hwc s3 t4
  have t2 := C109_after input b _ _ _ hwb s2 t3
  have t1 := C109_after input a _ _ _ hwa s1 t2
  have hP := syntax_unique ⟨ts, g0, g1⟩ t1
  cases out with
  | error e => cases hP
  | ok q =>
    cases hP
    obtain ⟨_, _, hc, _⟩ := assemble_ok_iff.1 g2
    have hnd := (clean_iff.1 hc).2.2.1
    simp only [labelNames_append, labelNames_moved, List.map_append] at hnd
    rw [List.nodup_append] at hnd
    have hnd := hnd.2.1
    rw [List.nodup_append] at hnd
    exact hnd.2.2 s hs s (by simp [hs']) rfl

/-- The same section twice. -/
example : (assembleFile (ToolExample.env ([] ++ (LinkExample.loop ++ ([] ++ (LinkExample.loop ++ []))))) [] [] "-".toList).exit ≠ .code 0 :=
  C111_shared [] LinkExample.loop [] LinkExample.loop [] _ _ "y".toList (.inl rfl) LinkExample.loop_section.1 (.inl rfl)
    LinkExample.loop_section.1 ⟨[], [], [], rfl, rfl⟩ LinkExample.loop_statements ⟨[], [], [], rfl, rfl⟩ LinkExample.loop_statements
    (by simp [labelNames]) (by simp [labelNames]) _ [] [] "-".toList rfl

/-- C111: a part that uses a label it does not define cannot be assembled alone. -/
theorem C111_missing [Target] (a hex : Str) (ns : List Node) (l : Loc) (m s : Str) (fs : List Field) (hs : Statements a ns)
    (hi : .instruction l m fs ∈ ns) (hf : .identifier s ∈ fs) (hn : s ∉ labelNames ns) : ¬ Builds a hex := by
  rintro ⟨env, program, input, output, hr, he, _⟩
  obtain ⟨text, _, hr', ho, _⟩ := run_object he
  cases hr.symm.trans hr'
  obtain ⟨bytes, hd, _⟩ := objectText_hexOf ho
  obtain ⟨ranges, ha, _⟩ := (hasCut_describes (statements_cut hs) _).1 hd
  obtain ⟨L, secs, _, hl, hS, _⟩ := assemble_ok_iff.1 ha
  obtain ⟨w, hw⟩ := sections_instructions hS l m fs hi
  exact encodes_defined hw hf (labelsOf_none hl hn)

example (hex : Str) : ¬ Builds ".org $200\njp x\n".toList hex :=
  C111_missing _ hex [.directive ⟨[], 1, 2, 3⟩ "org".toList [.numeric 0x200], .instruction ⟨[], 2, 1, 2⟩ "jp".toList [.identifier "x".toList]]
    ⟨[], 2, 1, 2⟩ "jp".toList "x".toList [.identifier "x".toList] ⟨[], _, rfl, by rfl⟩ (by simp) (by simp) (by decide)

/-- C111: two parts of which only the second, and both together, can be assembled. -/
theorem C111_alone : ∃ a b : Str, SectionText a ∧ SectionText b ∧ NoSharedLabel a b ∧ (∀ hex, ¬ Builds a hex) ∧
    (∃ hex, Builds b hex) ∧ ∃ hex, Builds (a ++ b) hex := by
  refine ⟨ReorderExample.code, ReorderExample.data, ReorderExample.code_section, ReorderExample.data_section, ?_, ?_, ?_, ?_⟩
  · rintro ns ms ⟨f1, t1, h1, h2⟩ ⟨f2, t2, h3, h4⟩ s hs hs'
    obtain ⟨f, rfl⟩ := statements_moved (ms := [.directive ⟨[], 1, 2, 3⟩ "org".toList [.numeric 0x200],
      .instruction ⟨[], 2, 1, 2⟩ "jp".toList [.identifier "x".toList]]) ⟨t1, h1, h2⟩ ⟨[], _, rfl, by rfl⟩
    rw [labelNames_moved] at hs
    cases hs
  · rintro hex ⟨env, program, input, output, hr, he, _⟩
    obtain ⟨text, hex', hr', ho, _⟩ := run_object he
    cases hr.symm.trans hr'
    obtain ⟨bytes, hd, _, _⟩ := objectText_hexOf ho
    obtain ⟨ts, ns, rs, h1, h2, h3, _⟩ := (describes_iff _ _ _).1 ((C55_describes input [] _ bytes).1 hd)
    obtain ⟨f, rfl⟩ := statements_moved (ms := [.directive ⟨[], 1, 2, 3⟩ "org".toList [.numeric 0x200],
      .instruction ⟨[], 2, 1, 2⟩ "jp".toList [.identifier "x".toList]]) ⟨ts, h1, h2⟩ ⟨[], _, rfl, by rfl⟩
    cases h3
  · exact ⟨_, LinkExample.data_builds⟩
  · exact ⟨":020200001300E9\n:0103000001FB\n:00000001FF\n".toList, ToolExample.env (ReorderExample.code ++ ReorderExample.data), [], [],
      "-".toList, rfl, by decide +kernel, by decide +kernel⟩

end C8S
