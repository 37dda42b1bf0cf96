import Verif.Proofs.AutomatonText
import Verif.Props.Parser
import Verif.Props.Adjust
import Verif.Props.Source
import Verif.Props.ByLine

/- Property C124: how much memory a check of the syntax needs. -/

namespace C8S

open Spec

/-- C124: whether a sequence of tokens is accepted by the parser can be found out with a memory of 8 states. -/
theorem C124_tokens : Recognised 8 fun tokens => ∃ ns, parse tokens = .ret (.ok ns) := by
  refine ⟨Auto.Phase, Auto.phases, Auto.next, .between, fun p => Auto.good p, Nat.le_refl _, Auto.mem_phases, fun w => ?_⟩
  refine Iff.trans ?_ (Auto.program_iff w)
  exact exists_congr fun ns => C11_grammar w ns

/-- C124: whether a text is accepted by scanner and parser can be found out character by character, with a memory that does not
depend on the text. -/
theorem C124_text [Target] (file : Str) : Recognised (8 * (4116 + 2 ^ usizeBits)) fun text => ∃ p, SyntaxOf file text (.ok p) := by
  refine ⟨Auto.Phase × Auto.Inside, Auto.phases.flatMap fun p => Auto.insides.map fun i => (p, i), Auto.step, (.between, .nothing),
    fun s => Auto.good (Auto.finish s), ?_, ?_, fun text => ?_⟩
  · simp [Auto.phases, Auto.length_insides]
    omega
  · rintro ⟨p, i⟩
    simp [Auto.mem_phases, Auto.mem_insides]
  · obtain ⟨tokens, hs, hl⟩ := scan_lex file text
    show _ ↔ Auto.good (Auto.finish _) = true
    rw [Auto.lex_finish hl, ← Auto.program_iff]
    constructor
    · rintro ⟨p, ts, h1, h2⟩
      cases hs.symm.trans h1
      exact ⟨p, (C11_grammar _ _).1 h2⟩
    · rintro ⟨p, h⟩
      exact ⟨p, tokens, hs, (C11_grammar _ _).2 h⟩

namespace AutomatonExample

def place : Loc := ⟨[], 0, 0, 0⟩

def newline : Token := .newline place
def comma : Token := .comma place
def dot : Token := .directiveMarker place
def word : Token := .identifier "a".toList place
def one : Token := .numericLiteral 1 place
def remark : Token := .singleLineComment ";".toList place
def colon : Token := .labelMarker place

/-- Nothing, `.`, `a`, `.a`, `.a 1`, `a 1,`, `a 1` and `,`. -/
def starts : List (List Token) := [[], [dot], [word], [dot, word], [dot, word, one], [word, one, comma], [word, one], [comma]]

/-- Continuations. -/
def ends : List (List Token) := [[], [newline], [remark], [colon], [one], [comma, newline], [comma, remark], [word, newline]]

theorem starts_apart : starts.Pairwise fun w w' => ∃ z ∈ ends, Auto.good ((w ++ z).foldl Auto.next .between) ≠
    Auto.good ((w' ++ z).foldl Auto.next .between) := by
  decide

/-- `.a 1,` and a line break are accepted, `.a 1,` and a comment are not. -/
example : (∃ ns, parse [dot, word, one, comma, newline] = .ret (.ok ns)) ∧ ¬ ∃ ns, parse [dot, word, one, comma, remark] = .ret (.ok ns) := by
  constructor
  · exact ⟨_, rfl⟩
  · rintro ⟨ns, h⟩
    cases h

/-- `%101` and `a` are accepted as a directive's argument and as an instruction, `"` is not a string. -/
example : (∃ p, SyntaxOf [] ".a %101\na\n".toList (.ok p)) ∧ ¬ ∃ p, SyntaxOf [] ".a \"\n".toList (.ok p) := by
  constructor
  · exact ⟨_, _, rfl, rfl⟩
  · rintro ⟨p, ts, h1, h2⟩
    cases h1
    cases h2

end AutomatonExample

open AutomatonExample

/-- C124: fewer than 8 states do not suffice. -/
theorem C124_tokens_least (n : Nat) (h : Recognised n fun tokens => ∃ ns, parse tokens = .ret (.ok ns)) : 8 ≤ n := by
  refine Auto.distinct_states h AutomatonExample.starts (starts_apart.imp fun {w w'} hz => ?_)
  obtain ⟨z, _, hz⟩ := hz
  refine ⟨z, fun e => hz ?_⟩
  simp only [C11_grammar, Auto.program_iff] at e
  exact Bool.eq_iff_iff.2 e

namespace AutomatonExample

/-- `x`, `xx`, `xxx`, … -/
def long (i : Nat) : Str := List.replicate (i + 1) 'x'

theorem long_name (i : Nat) : IsName (long i) :=
  .inl ⟨'x', List.replicate i 'x', rfl, by decide, fun d hd => by rw [List.eq_of_mem_replicate hd]; decide⟩

theorem long_label (i : Nat) (f : Field) : ¬ RegisterNamed (long i) f := by
  intro h
  have hall : ∀ c ∈ long i, c = 'x' := fun c hc => List.eq_of_mem_replicate hc
  generalize long i = s at h hall
  cases h with
  | special hm =>
    simp only [specialNames, List.mem_cons, Prod.mk.injEq, List.not_mem_nil, or_false] at hm
    rcases hm with ⟨rfl, _⟩ | ⟨rfl, _⟩ | ⟨rfl, _⟩ | ⟨rfl, _⟩ | ⟨rfl, _⟩ | ⟨rfl, _⟩ | ⟨rfl, _⟩ | ⟨rfl, _⟩ | ⟨rfl, _⟩ | ⟨rfl, _⟩ |
      ⟨rfl, _⟩ | ⟨rfl, _⟩ | ⟨rfl, _⟩ | ⟨rfl, _⟩ <;> revert hall <;> decide
  | general hv _ =>
    have := hall _ List.mem_cons_self
    rcases hv with rfl | rfl <;> revert this <;> decide

theorem long_inj {i j : Nat} (h : long i = long j) : i = j := by
  have := congrArg List.length h
  simpa [long] using this

/-- `xx:` -/
def define (i : Nat) : Str := sourceText [.label place (long i)]

/-- `jp xx` -/
def use (i : Nat) : Str := sourceText [.instruction place "jp".toList [.identifier (long i)]]

theorem accepted [Target] (file : Str) (i j : Nat) : (∃ bytes, Describes wordBinary file (define i ++ use j) bytes) ↔ i = j := by
  have hf : ∀ n ∈ ([.label place (long i), .instruction place "jp".toList [.identifier (long j)]] : List Node), Formed n := by
    intro n hn
    simp only [List.mem_cons, List.not_mem_nil, or_false] at hn
    rcases hn with rfl | rfl
    · exact long_name i
    · refine ⟨.inl ⟨'j', ['p'], rfl, by decide, by decide⟩, fun f hf => ?_⟩
      rw [List.mem_singleton] at hf
      subst hf
      exact ⟨long_name j, long_label j⟩
  obtain ⟨tokens, ns', hs, hp, hb⟩ := C13_round_trip file _ hf
  have htext : sourceText [.label place (long i), .instruction place "jp".toList [.identifier (long j)]] = define i ++ use j := by
    simp only [define, use, sourceText, List.flatMap_cons, List.flatMap_nil, List.append_nil]
  rw [htext] at hs
  have hcut : HasCut (define i ++ use j) ns' := statements_cut ⟨file, tokens, hs, hp⟩
  obtain ⟨l1, l2, rfl⟩ : ∃ l1 l2, ns' = [.label l1 (long i), .instruction l2 "jp".toList [.identifier (long j)]] := by
    rcases ns' with _ | ⟨a, _ | ⟨b, _ | ⟨c, r⟩⟩⟩
    · simp at hb
    · simp at hb
    · cases a <;> cases b <;> cases hb
      exact ⟨_, _, rfl⟩
    · simp at hb
  constructor
  · rintro ⟨bytes, h⟩
    obtain ⟨ranges, h, _⟩ := (hasCut_describes hcut _).1 h
    obtain ⟨L, secs, _, hl, hsec, _⟩ := assemble_ok_iff.1 h
    obtain ⟨w, hw⟩ := sections_instructions hsec l2 "jp".toList [.identifier (long j)] (by simp)
    have hg := encodes_defined hw (s := long j) (by simp)
    obtain ⟨v, hv⟩ := Option.ne_none_iff_exists'.1 hg
    obtain ⟨p, loc, q, e, _⟩ := labelValue_iff.1 ((hl _ _).1 hv)
    have hm : (.label loc (long j) : Node) ∈ [Node.label l1 (long i), .instruction l2 "jp".toList [.identifier (long j)]] := by
      rw [e]; simp
    simp only [List.mem_cons, Node.label.injEq, reduceCtorEq, List.not_mem_nil, or_false] at hm
    exact (long_inj hm.2).symm
  · rintro rfl
    have h1 : Instruction.fromMnemonicAndParameters "jp".toList [.identifier (long i)] [(long i, 0)] = .ok (.JP 0) :=
      ((C22_label_for_literal [(long i, 0)] "jp".toList [] [] (long i) 0 (by simp [LabelMap.get])).1 _).2 rfl
    refine ⟨_, (hasCut_describes hcut _).2 ⟨[⟨0, [0x10, 0x00]⟩], ?_, rfl⟩⟩
    show emitLoop [.label l1 (long i), .instruction l2 "jp".toList [.identifier (long i)]] [(long i, 0)] (DataRange.new 0) [] = _
    simp only [emitLoop, h1]
    rfl

end AutomatonExample

/-- C124: whether a text can be assembled cannot be found out with a memory that does not depend on the text. -/
theorem C124_labels [Target] (file : Str) (n : Nat) : ¬ Recognised n fun text => ∃ bytes, Describes wordBinary file text bytes := by
  intro h
  have := Auto.distinct_states h ((List.range (n + 1)).map define) (by
    rw [List.pairwise_map]
    refine List.nodup_range.imp fun {i j} hne => ⟨use j, fun e => hne ?_⟩
    rw [accepted, accepted] at e
    exact e.2 rfl)
  simp only [List.length_map, List.length_range] at this
  omega

end C8S
