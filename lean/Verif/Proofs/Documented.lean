import Verif.Spec.Documented
import Verif.Props.Depends
import Verif.Props.Target
import Verif.Props.Possible
import Verif.Props.Skeleton

/-! Lemmas for C130. -/

namespace C8S

open Spec

theorem small_of_length (t : Target) {text : Str} (h : text.length ≤ t.bits) : @SmallBinaries t text := by
  intro before s rest e hd
  have hl : s.length ≤ t.bits := by
    have := congrArg List.length e
    simp only [List.length_append, List.length_cons] at this
    omega
  refine Nat.lt_of_lt_of_le (positional_lt 2 s (fun d hd' => ?_)) (Nat.pow_le_pow_right (by omega) hl)
  rcases hd d hd' with rfl | rfl | rfl <;> decide

section
variable {bin bin' : Str → Nat} {file text : Str}

theorem sections_swap (h : ∀ ts, Lex bin file [] text ts → Lex bin' file [] text ts) {sections : List DataRange} :
    HasSections bin file text sections → HasSections bin' file text sections := by
  rintro ⟨tokens, nodes, labels, h1, h2⟩
  exact ⟨tokens, nodes, labels, h _ h1, h2⟩

theorem object_swap (h : ∀ ts, Lex bin file [] text ts → Lex bin' file [] text ts) {hex : Str} :
    HasObject bin file text hex → HasObject bin' file text hex := by
  rintro ⟨sections, blocks, h1, h2⟩
  exact ⟨sections, blocks, sections_swap h h1, h2⟩

theorem refused_swap (h : ∀ ts, Lex bin file [] text ts → Lex bin' file [] text ts) {program : Str} {events : List Event} :
    Refused bin program file text events → Refused bin' program file text events := by
  intro hr
  cases hr with
  | syntactic h1 h2 => exact .syntactic (h _ h1) h2
  | semantic h1 h2 h3 => exact .semantic (h _ h1) h2 h3
  | overlap h1 h2 => exact .overlap (sections_swap h h1) h2

end

theorem handles_swap {bin bin' : Str → Nat} {env : Env} {program input output : Str} {events : List Event} {exit : Exit}
    (h : ∀ text ts, env.openInput input = .ok () → env.readInput input = .ok text → Lex bin input [] text ts →
      Lex bin' input [] text ts) (hh : Handles bin env program input output events exit) :
    Handles bin' env program input output events exit := by
  cases hh with
  | unopened h1 => exact .unopened h1
  | unread h1 h2 => exact .unread h1 h2
  | refused h1 h2 h3 => exact .refused h1 h2 (refused_swap (fun ts => h _ ts h1 h2) h3)
  | uncreated h1 h2 h3 h4 h5 => exact .uncreated h1 h2 (object_swap (fun ts => h _ ts h1 h2) h3) h4 h5
  | unwritten h1 h2 h3 h4 h5 h6 => exact .unwritten h1 h2 (object_swap (fun ts => h _ ts h1 h2) h3) h4 h5 h6
  | written h1 h2 h3 h4 h5 h6 => exact .written h1 h2 (object_swap (fun ts => h _ ts h1 h2) h3) h4 h5 h6
  | unshown h1 h2 h3 h4 h5 => exact .unshown h1 h2 (object_swap (fun ts => h _ ts h1 h2) h3) h4 h5
  | shown h1 h2 h3 h4 h5 => exact .shown h1 h2 (object_swap (fun ts => h _ ts h1 h2) h3) h4 h5

theorem behaves_swap {bin bin' : Str → Nat} {env : Env} {program : Str} {words : List Str} {events : List Event} {exit : Exit}
    (h : ∀ input output, Asks words input output → Handles bin env program input output events exit →
      Handles bin' env program input output events exit) (hb : Behaves bin env (program :: words) events exit) :
    Behaves bin' env (program :: words) events exit := by
  cases hb with
  | wrong h1 => exact .wrong h1
  | help h1 h2 h3 => exact .help h1 h2 h3
  | version h1 h2 h3 h4 => exact .version h1 h2 h3 h4
  | usage h1 h2 h3 h4 h5 => exact .usage h1 h2 h3 h4 h5
  | file h1 h2 h3 h4 h5 h6 h7 => exact .file h1 h2 h3 h4 h5 h6 (h _ _ ⟨_, h1, h2, h3, h4, h5, .inl h6⟩ h7)
  | standard h1 h2 h3 h4 h5 h6 h7 => exact .standard h1 h2 h3 h4 h5 h6 (h _ _ ⟨_, h1, h2, h3, h4, h5, .inr ⟨h6, rfl⟩⟩ h7)

/-- A machine with words for all digits of this text. -/
@[instance_reducible] def wideFor [narrow : Target] (text : Str) : Target :=
  ⟨max narrow.bits text.length, Nat.le_trans narrow.wide (Nat.le_max_left _ _)⟩

theorem lex_wideFor [narrow : Target] (file text : Str) (ts : List Token) :
    Lex trueBinary file [] text ts ↔ Lex (@wordBinary (wideFor text)) file [] text ts :=
  have ha := @agree_of_small (wideFor text) text (small_of_length _ (Nat.le_max_right _ _))
  ⟨lex_agree ha.symm, lex_agree ha⟩

/-- The tokens of the text are those that are documented, or it is misread. -/
theorem lex_documented [Target] (file text : Str) :
    (∀ ts, Lex trueBinary file [] text ts ↔ Lex wordBinary file [] text ts) ∨ Misread usizeBits file text := by
  obtain ⟨ts, hs, hl⟩ := @scan_lex (wideFor text) file text
  have ht := (lex_wideFor file text ts).2 hl
  rcases lex_narrow _ (wideFor text) (Nat.le_max_left _ _) hl with h | ⟨pre, digits, l, more, rfl, hd, h⟩
  · refine .inl fun ts' => ⟨fun h' => ?_, fun h' => ?_⟩
    · rwa [lex_unique h' ht]
    · rwa [lex_unique h' h]
  · refine .inr ⟨pre, digits, l, ht, hd, ?_, ?_⟩
    · have := (@C120_lexical (wideFor text) _).1 ⟨file, text, _, l, hs, List.mem_append_right _ (List.mem_singleton.2 rfl)⟩
      cases this with
      | binaryRange _ _ h => exact Nat.lt_of_lt_of_le h (Nat.mod_le _ _)
    · exact C05_range file text _ ((scan_iff_lex _ _ _).2 h) _ _ (List.mem_append_right _ (List.mem_cons_self ..))

theorem asks_input {words : List Str} {input input' output output' : Str} (h : Asks words input output)
    (h' : Asks words input' output') : input' = input := by
  let env : Env := ⟨fun _ => .ok (), fun _ => .ok [], fun _ => .ok (), fun _ _ => .ok ()⟩
  have e := (C128_asked env [] _ _ _ h).2.symm.trans (C128_asked env [] _ _ _ h').2
  cases e
  rfl

/-- For each command line there is a machine on which the tool does what is documented. -/
theorem behaves_wide (env : Env) (program : Str) (words : List Str) :
    ∃ wide : Target, (∀ input output text ts, Asks words input output → env.readInput input = .ok text →
        (Lex trueBinary input [] text ts ↔ Lex (@wordBinary wide) input [] text ts)) ∧
      ∀ events exit, Behaves trueBinary env (program :: words) events exit ↔
        Behaves (@wordBinary wide) env (program :: words) events exit := by
  have key : ∃ wide : Target, ∀ input output text ts, Asks words input output → env.readInput input = .ok text →
      (Lex trueBinary input [] text ts ↔ Lex (@wordBinary wide) input [] text ts) := by
    by_cases hx : ∃ input output text, Asks words input output ∧ env.readInput input = .ok text
    · obtain ⟨input, output, text, ha, ht⟩ := hx
      refine ⟨wideFor text, fun input' output' text' ts ha' ht' => ?_⟩
      obtain rfl := asks_input ha ha'
      rw [ht] at ht'
      cases ht'
      exact lex_wideFor _ _ _
    · exact ⟨bits64, fun i o t _ hi h2 => (hx ⟨i, o, t, hi, h2⟩).elim⟩
  obtain ⟨wide, key⟩ := key
  exact ⟨wide, key, fun events exit =>
    ⟨behaves_swap fun i o hi => handles_swap fun t ts _ h2 => (key i o t ts hi h2).1,
      behaves_swap fun i o hi => handles_swap fun t ts _ h2 => (key i o t ts hi h2).2⟩⟩

/-- What the command line is taken for is what it asks. -/
theorem asks_of_parse {words : List Str} {m : Matches} {input : Str} (h : getopts0214.parse words = .ok m)
    (hh : m.help = false) (hv : m.version = false) (hi : m.free = [input]) : ∃ output, Asks words input output := by
  obtain ⟨said, h1, h2, h3, h4, h5, h6⟩ := (C63_accepted _ _).1 h
  have k3 : Said.help ∉ said := fun hm => by rw [h3.2 hm] at hh; cases hh
  have k4 : Said.version ∉ said := fun hm => by rw [h4.2 hm] at hv; cases hv
  cases ho : m.output with
  | none =>
    have k5 : ∀ p, Said.output p ∉ said := fun p hp => by
      rw [(h5 p).2 hp] at ho
      cases ho
    exact ⟨_, said, h1, h2, k3, k4, h6.symm.trans hi, .inr ⟨k5, rfl⟩⟩
  | some p => exact ⟨p, said, h1, h2, k3, k4, h6.symm.trans hi, .inl ((h5 p).1 ho)⟩

/-- A misread text should be reported. -/
theorem handles_misread {env : Env} {bits : Nat} {program input output text : Str} {events : List Event} {exit : Exit}
    (h2 : env.readInput input = .ok text) (hm : Misread bits input text)
    (hh : Handles trueBinary env program input output events exit) : exit = .code 1 := by
  have key : ∀ {text' hex}, env.readInput input = .ok text' → ¬ HasObject trueBinary input text' hex := by
    intro text' hex h2' ho
    rw [h2] at h2'
    cases h2'
    obtain ⟨before, digits, l, hl, _⟩ := hm
    obtain ⟨sections, blocks, ⟨tokens, nodes, labels, hl', hp, _⟩, _⟩ := ho
    obtain rfl := lex_unique hl hl'
    exact not_completable_error before _ l ⟨[], nodes, by simpa using hp⟩
  cases hh with
  | written _ h2' h3 => exact (key h2' h3).elim
  | shown _ h2' h3 => exact (key h2' h3).elim
  | _ => rfl

end C8S
