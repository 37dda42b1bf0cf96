import Verif.Spec.Reorder
import Verif.Props.Combine
import Verif.Props.Relocation
import Verif.Props.Tool

/- Properties on the order of the sections in a file: C88. -/

namespace C8S

open Spec

namespace Reorder

theorem starts_bare {ns : List Node} (h : StartsWithOrg ns) : StartsWithOrg (ns.map bareNode) := by
  obtain ⟨l, s, xs, v, b, hm, rfl⟩ := h
  exact ⟨_, _, _, v, b.map bareNode, hm, rfl⟩

theorem section_cut [Target] {part : Str} (h : SectionText part) :
    ∃ ts ns, Cut wordBinary part ts ∧ Program ts ns ∧ StartsWithOrg ns := by
  obtain ⟨_, nodes, ⟨file, tokens, hs, hp⟩, ho⟩ := h
  exact ⟨_, _, cut_of_lex ((scan_iff_lex _ _ _).1 hs) (program_no_error ((parse_ok_iff _ _).1 hp)),
    (parse_ok_iff _ _).1 (parse_map nowhere hp), starts_bare ho⟩

theorem parts_cut [Target] (tokens : Str → List Token) (nodes : Str → List Node) (parts : List Str)
    (h : ∀ p ∈ parts, WholeLines p ∧ Cut wordBinary p (tokens p) ∧ Program (tokens p) (nodes p)) :
    Cut wordBinary parts.flatten (parts.flatMap tokens) ∧ Program (parts.flatMap tokens) (parts.map nodes).flatten := by
  induction parts with
  | nil => exact ⟨.done (by simp), .empty⟩
  | cons p parts ih =>
    obtain ⟨h1, h2⟩ := ih fun q hq => h q (List.mem_cons_of_mem _ hq)
    obtain ⟨hw, hc, hp⟩ := h p List.mem_cons_self
    exact ⟨cut_append hc h1 (whole_apart hw hc), program_append hp h2⟩

end Reorder

open Reorder

/-- C88: the sections of a source file can be put in another order: the file describes the same bytes. -/
theorem C88_moved [Target] (file file' : Str) (parts parts' : List Str) (hp : parts.Perm parts') (h : ∀ p ∈ parts, SectionText p) :
    SameMemory file parts.flatten file' parts'.flatten := by
  have key : ∀ (file file' : Str) (parts parts' : List Str), parts.Perm parts' → (∀ p ∈ parts, SectionText p) →
      ∀ bytes, Describes wordBinary file parts.flatten bytes →
        ∃ bytes', Describes wordBinary file' parts'.flatten bytes' ∧ bytes.Perm bytes' := by
    intro file file' parts parts' hp h bytes hd
    have hx : ∀ p, ∃ ts ns, p ∈ parts → WholeLines p ∧ Cut wordBinary p ts ∧ Program ts ns ∧ StartsWithOrg ns := by
      intro p
      by_cases hm : p ∈ parts
      · obtain ⟨ts, ns, h1, h2, h3⟩ := section_cut (h p hm)
        exact ⟨ts, ns, fun _ => ⟨(h p hm).1, h1, h2, h3⟩⟩
      · exact ⟨[], [], fun h => (hm h).elim⟩
    have hT : ∃ T : Str → List Token, ∃ N : Str → List Node, ∀ p ∈ parts,
        WholeLines p ∧ Cut wordBinary p (T p) ∧ Program (T p) (N p) ∧ StartsWithOrg (N p) :=
      ⟨fun p => (hx p).choose, fun p => (hx p).choose_spec.choose, fun p hm => (hx p).choose_spec.choose_spec hm⟩
    obtain ⟨T, N, hTN⟩ := hT
    obtain ⟨c1, p1⟩ := parts_cut T N parts fun p hm => ⟨(hTN p hm).1, (hTN p hm).2.1, (hTN p hm).2.2.1⟩
    obtain ⟨c2, p2⟩ := parts_cut T N parts' fun p hm => by
      have hm := hp.mem_iff.2 hm
      exact ⟨(hTN p hm).1, (hTN p hm).2.1, (hTN p hm).2.2.1⟩
    obtain ⟨ts, ns, r, hc, hpr, ha, rfl⟩ := (describes_cut _ _ _).1 hd
    cases cut_unique hc c1
    cases program_unique hpr p1
    obtain ⟨r', ha', _, him⟩ := C52_ranges _ _ (hp.map N) (fun s hs => by
      obtain ⟨p, hm, rfl⟩ := List.mem_map.1 hs
      exact (hTN p hm).2.2.2) r ha
    exact ⟨image r', (describes_cut _ _ _).2 ⟨_, _, r', c2, p2, ha', rfl⟩, him⟩
  refine ⟨key file file' parts parts' hp h, fun bytes' hd => ?_⟩
  obtain ⟨bytes, h1, h2⟩ := key file' file parts' parts hp.symm (fun p hm => h p (hp.mem_iff.2 hm)) bytes' hd
  exact ⟨bytes, h1, h2.symm⟩

/-- C88: the tool has the same exit status for two files that describe the same bytes, if all can be read and written. -/
theorem C88_status [Target] (env : Env) (program input input' output output' text text' : Str)
    (h : SameMemory input text input' text') (ho : env.openInput input = .ok ()) (hr : env.readInput input = .ok text)
    (ho' : env.openInput input' = .ok ()) (hr' : env.readInput input' = .ok text') (hw : CanWrite env output)
    (hw' : CanWrite env output') :
    (assembleFile env program input output).exit = (assembleFile env program input' output').exit := by
  have hiff : (assembleFile env program input output).exit = .code 0 ↔
      (assembleFile env program input' output').exit = .code 0 := by
    rw [C47_iff env program input output text ho hr hw, C47_iff env program input' output' text' ho' hr' hw']
    constructor
    · rintro ⟨b, hb, hn⟩
      obtain ⟨b', hb', hp⟩ := h.1 b hb
      exact ⟨b', hb', (hp.map Prod.fst).nodup_iff.1 hn⟩
    · rintro ⟨b', hb', hn⟩
      obtain ⟨b, hb, hp⟩ := h.2 b' hb'
      exact ⟨b, hb, (hp.map Prod.fst).nodup_iff.2 hn⟩
  by_cases h0 : (assembleFile env program input output).exit = .code 0
  · rw [h0, hiff.1 h0]
  · have h1 := fun h => h0 (hiff.2 h)
    rw [C47_iff env program input output text ho hr hw] at h0
    rw [C47_iff env program input' output' text' ho' hr' hw'] at h1
    rw [(C45_failure env program input output ?_).2, (C45_failure env program input' output' ?_).2]
    · rintro ⟨t, b, _, e, hd, hn⟩
      cases hr'.symm.trans e
      exact h1 ⟨b, hd, hn⟩
    · rintro ⟨t, b, _, e, hd, hn⟩
      cases hr.symm.trans e
      exact h0 ⟨b, hd, hn⟩

/-- C88: and if it succeeds, loading either output file fills the memory alike. -/
theorem C88_memory [Target] (env : Env) (program input input' output output' text text' : Str)
    (h : SameMemory input text input' text') (ho : env.openInput input = .ok ()) (hr : env.readInput input = .ok text)
    (ho' : env.openInput input' = .ok ()) (hr' : env.readInput input' = .ok text') (hw : CanWrite env output)
    (hw' : CanWrite env output') (h0 : (assembleFile env program input output).exit = .code 0) :
    ∃ hex hex' bytes bytes', bytesTo (destination output) (assembleFile env program input output).events = utf8 hex ∧
      bytesTo (destination output') (assembleFile env program input' output').events = utf8 hex' ∧
      HexOf hex bytes ∧ HexOf hex' bytes' ∧ NoCollision bytes ∧ bytes.Perm bytes' := by
  obtain ⟨b, hb, hn⟩ := (C47_iff env program input output text ho hr hw).1 h0
  obtain ⟨b', hb', hp⟩ := h.1 b hb
  obtain ⟨hex, h1, h2⟩ := C47_content env program input output text b ho hr hw hb hn
  obtain ⟨hex', h3, h4⟩ := C47_content env program input' output' text' b' ho' hr' hw' hb' ((hp.map Prod.fst).nodup_iff.1 hn)
  exact ⟨hex, hex', b, b', h1, h3, h2, h4, hn, hp⟩

namespace ReorderExample

/-- A section with a jump. -/
def code : Str := ".org $200\njp x\n".toList

/-- A section with the label it uses. -/
def data : Str := ".org $300\nx: .db 1\n".toList

theorem code_section : SectionText code :=
  ⟨.inr ⟨".org $200\njp x".toList, by rfl⟩, [.directive ⟨[], 1, 2, 3⟩ "org".toList [.numeric 0x200],
    .instruction ⟨[], 2, 1, 2⟩ "jp".toList [.identifier "x".toList]], ⟨[], _, rfl, by rfl⟩, _, _, _, 0x200, _, means_iff.1 rfl, rfl⟩

theorem data_section : SectionText data :=
  ⟨.inr ⟨".org $300\nx: .db 1".toList, by rfl⟩, [.directive ⟨[], 1, 2, 3⟩ "org".toList [.numeric 0x300],
    .label ⟨[], 2, 1, 1⟩ "x".toList, .directive ⟨[], 2, 5, 2⟩ "db".toList [.numeric 1]], ⟨[], _, rfl, by rfl⟩, _, _, _, 0x300, _,
    means_iff.1 rfl, rfl⟩

end ReorderExample

open ReorderExample

example : SameMemory [] [code, data].flatten [] [data, code].flatten :=
  C88_moved _ _ _ _ (.swap _ _ _) fun p hp => by
    rcases List.mem_cons.1 hp with rfl | hp
    · exact code_section
    · rw [List.mem_singleton.1 hp]
      exact data_section

/-- C88: parts that do not begin with an `.org` cannot change places. -/
theorem C88_needs_org : ∃ a b, WholeLines a ∧ WholeLines b ∧ (∃ ns, Statements a ns) ∧ (∃ ns, Statements b ns) ∧
    ¬ SameMemory [] (a ++ b) [] (b ++ a) := by
  refine ⟨".db 1\n".toList, ".db 2\n".toList, .inr ⟨".db 1".toList, rfl⟩, .inr ⟨".db 2".toList, rfl⟩,
    ⟨[.directive ⟨[], 1, 2, 2⟩ "db".toList [.numeric 1]], [], _, rfl, by rfl⟩,
    ⟨[.directive ⟨[], 1, 2, 2⟩ "db".toList [.numeric 2]], [], _, rfl, by rfl⟩, fun h => ?_⟩
  have h1 : Describes wordBinary [] (".db 1\n".toList ++ ".db 2\n".toList) [(0, 1), (1, 2)] :=
    (describes_iff _ _ _).2 ⟨_, [.directive ⟨[], 1, 2, 2⟩ "db".toList [.numeric 1],
      .directive ⟨[], 2, 2, 2⟩ "db".toList [.numeric 2]], [⟨0, [1, 2]⟩], rfl, by rfl, by rfl, rfl⟩
  have h2 : Describes wordBinary [] (".db 2\n".toList ++ ".db 1\n".toList) [(0, 2), (1, 1)] :=
    (describes_iff _ _ _).2 ⟨_, [.directive ⟨[], 1, 2, 2⟩ "db".toList [.numeric 2],
      .directive ⟨[], 2, 2, 2⟩ "db".toList [.numeric 1]], [⟨0, [2, 1]⟩], rfl, by rfl, by rfl, rfl⟩
  obtain ⟨b, h3, h4⟩ := h.1 _ h1
  cases C47_unique _ _ _ _ h3 h2
  exact absurd (h4.mem_iff.1 List.mem_cons_self) (by decide)

end C8S
