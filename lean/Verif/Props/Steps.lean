import Mathlib.Logic.ExistsUnique
import Verif.Spec.Steps
import Verif.Proofs.Whole

/- C127: a complete specification of the steps. -/

namespace C8S

open Spec

private theorem mayFollow_of_error {tokens : List Token} {e : ParseError} (h : parse tokens = .ret (.error e)) :
    Rejects tokens e := by
  have hk := expectations_of_error h
  cases e with
  | unexpectedEndOfFile names =>
    obtain ⟨h1, h2, _⟩ := C15_end tokens names h
    exact .endOfFile h1 h2 ⟨hk, C54_end_iff tokens names h⟩
  | unexpectedToken names t =>
    obtain ⟨pre, post, rfl, h1, h2, _⟩ := C15_token tokens names t h
    exact .token rfl h1 h2 ⟨hk, C54_token_iff pre post names t h1 h2 h⟩

private theorem rejects_unique {tokens : List Token} {e e' : ParseError} (h : Rejects tokens e) (h' : Rejects tokens e') :
    e = e' := by
  have apart : ∀ {pre post : List Token} {t : Token}, tokens = pre ++ t :: post → ¬ Completable (pre ++ [t]) →
      ¬ Completable tokens := by
    rintro pre post t rfl hn ⟨ext, ns, hp⟩
    exact hn ⟨post ++ ext, ns, by simpa using hp⟩
  cases h with
  | token h1 h2 h3 h4 =>
    cases h' with
    | token h1' h2' h3' h4' =>
      obtain rfl := first_bad_unique (h1.symm.trans h1') h2 h3 h2' h3'
      have := List.append_cancel_left (h1.symm.trans h1')
      cases this
      rw [mayFollow_unique h4 h4']
    | endOfFile h1' _ _ => exact (apart h1 h3 h1').elim
  | endOfFile h1 h2 h3 =>
    cases h' with
    | token h1' _ h3' _ => exact (apart h1' h3' h1).elim
    | endOfFile _ _ h3' => rw [mayFollow_unique h3 h3']

private theorem rejects_not_program {tokens : List Token} {e : ParseError} (h : Rejects tokens e) :
    ¬ ∃ ns, Program tokens ns := by
  cases h with
  | @token pre post t _ h1 _ h3 _ =>
    rintro ⟨ns, hp⟩
    exact h3 ⟨post, ns, by rw [List.append_assoc, List.singleton_append, ← h1]; exact hp⟩
  | endOfFile _ h2 _ => exact h2

/-- C127: whatever the tokens, parsing yields what is specified: the program, or the first token that cannot stand where
it is, or that tokens are missing, with the kinds of tokens that can come there. -/
theorem C127_parse (tokens : List Token) (r : Except ParseError (List Node)) :
    parse tokens = .ret r ↔ ParsesTo tokens r := by
  cases r with
  | ok nodes => exact parse_ok_iff _ _
  | error e =>
    refine ⟨mayFollow_of_error, fun h => ?_⟩
    obtain ⟨e', he⟩ := (C11_rejects tokens).2 (rejects_not_program h)
    rw [he, rejects_unique h (mayFollow_of_error he)]

/-- A comma at the beginning, among tokens that need not come from a text. -/
example (l : Loc) : Rejects [.comma l, .error .invalidStringLiteral l, .comma l]
    (.unexpectedToken ["directive marker".toList, "identifier".toList] (.comma l)) :=
  (C127_parse _ (.error _)).1 rfl

example (l : Loc) : Rejects [.directiveMarker l] (.unexpectedEndOfFile ["identifier".toList]) :=
  (C127_parse _ (.error _)).1 rfl

/-- There is exactly one thing to which tokens are parsed. -/
theorem C127_parse_unique (tokens : List Token) : ∃! r, ParsesTo tokens r := by
  obtain ⟨r, h⟩ := C10_total tokens
  refine ⟨r, (C127_parse _ _).1 h, fun r' h' => ?_⟩
  have := ((C127_parse _ _).2 h').symm.trans h
  cases this
  rfl

example (l : Loc) : ¬ ParsesTo [.directiveMarker l] (.ok []) := by
  intro h
  have := (C127_parse_unique _).unique h ((C127_parse [.directiveMarker l] (.error (.unexpectedEndOfFile ["identifier".toList]))).1 rfl)
  cases this

/-- C127: whatever the program, assembling it yields what is specified: the data of its sections, or what is wrong with the
statement at fault. -/
theorem C127_assemble (nodes : List Node) (r : Except SemanticError (List DataRange)) :
    assemble nodes = .ret r ↔ AssemblesTo nodes r := by
  cases r with
  | ok ranges =>
    rw [assemble_ok_iff]
    constructor
    · rintro ⟨labels, secs, hc, hl, hs, rfl⟩
      exact ⟨labels, secs, valid_iff.2 ⟨hc, hl, sections_instructions hs⟩, hs, rfl⟩
    · rintro ⟨labels, secs, hv, hs, rfl⟩
      obtain ⟨hc, hl, _⟩ := valid_iff.1 hv
      exact ⟨labels, secs, hc, hl, hs, rfl⟩
  | error e => exact assemble_atFault

example (l : Loc) : AssemblesTo [.label l "a".toList, .label l "a".toList] (.error (.redefinitionOfLabel l "a".toList)) :=
  (C127_assemble _ _).1 rfl

/-- C127: for all ranges that can be built, the writer yields what is specified, or crashes since two of them have an
address in common and do not reach the last address. -/
theorem C127_write_built (ranges : List DataRange) (h : ∀ r ∈ ranges, Built r) :
    ((ranges.Pairwise fun a b => ¬ Noticed a b) →
      ∀ text, ihexRepresentationOfDataRanges ranges = .ret text ↔ WrittenAs ranges text) ∧
    ((¬ ranges.Pairwise fun a b => ¬ Noticed a b) → ihexRepresentationOfDataRanges ranges = .panic) := by
  have ho : findOverlappingRanges ranges = [] ↔ ranges.Pairwise fun a b => ¬ Noticed a b := by
    rw [findOverlapping_eq_pairs, pairsWhere_eq_nil]
    constructor
    · intro hp
      refine hp.imp_of_mem fun {a b} ha hb hi hs => ?_
      rw [(C39_intersects_partial a b (h a ha) (h b hb)).1.2 hs] at hi
      cases hi
    · intro hp
      refine hp.imp_of_mem fun {a b} ha hb hs => ?_
      cases hi : a.intersects b with
      | false => rfl
      | true => exact (hs ((C39_intersects_partial a b (h a ha) (h b hb)).1.1 hi)).elim
  have hm : ∀ r ∈ ranges, rangeEnd r ≤ memorySize := fun r hr => (C38_built_iff_inMemory r).1 (h r hr)
  constructor
  · intro hp text
    have key : ∀ {text}, ihexRepresentationOfDataRanges ranges = .ret text → WrittenAs ranges text := by
      intro text ht
      obtain ⟨bs, lines, g1, g2, _, g4⟩ := ihex_blocks hm ht
      exact ⟨bs, g1, fileOf_lines.2 ⟨lines, g2, g4⟩⟩
    refine ⟨key, ?_⟩
    rintro ⟨bs, h1, h2⟩
    obtain ⟨text', ht, _⟩ := C42_decodes ranges h (ho.2 hp)
    obtain ⟨bs', h1', h2'⟩ := key ht
    obtain rfl := allBlocks_unique h1 h1'
    obtain ⟨lines, g1, rfl⟩ := fileOf_lines.1 h2
    obtain ⟨lines', g1', rfl⟩ := fileOf_lines.1 h2'
    rw [ht, lines_unique g1 g1']
  · intro hp
    have hne : findOverlappingRanges ranges ≠ [] := fun e => hp (ho.1 e)
    simp [ihexRepresentationOfDataRanges, rustAssert, hne]

/-- Two ranges at the last address are both written. -/
example : WrittenAs [⟨0xFFF, [7]⟩, ⟨0xFFF, [8]⟩] ":010FFF0007EA\n:010FFF0008E9\n:00000001FF\n".toList := by
  have hb : ∀ r ∈ [(⟨0xFFF, [7]⟩ : DataRange), ⟨0xFFF, [8]⟩], rangeEnd r ≤ 4096 := by decide
  exact ((C127_write_built _ fun r hr => (C38_built_iff_inMemory r).2 (hb r hr)).1
    (by simp [Noticed, Occupies, rangeEnd]) _).1 (by decide +kernel)

/-- C127: for ranges that end before the last address, the writer yields what is specified if no two of them have an address
in common, and crashes otherwise. -/
theorem C127_write (ranges : List DataRange) (h : ∀ r ∈ ranges, rangeEnd r < 4096) :
    ((ranges.Pairwise fun a b => ¬ Shares a b) →
      ∀ text, ihexRepresentationOfDataRanges ranges = .ret text ↔ WrittenAs ranges text) ∧
    ((¬ ranges.Pairwise fun a b => ¬ Shares a b) → ihexRepresentationOfDataRanges ranges = .panic) := by
  have hb : ∀ r ∈ ranges, Built r := fun r hr => (C38_built_iff_inMemory r).2 (by
    have := h r hr
    simp only [InMemory, memorySize]
    omega)
  have last : ∀ r ∈ ranges, ¬ Occupies r 0xFFF := by
    rintro r hr ⟨_, h2⟩
    have := h r hr
    omega
  have hp : (ranges.Pairwise fun a b => ¬ Noticed a b) ↔ ranges.Pairwise fun a b => ¬ Shares a b :=
    ⟨fun hp => hp.imp_of_mem fun {a b} ha hb hn hs => hn ⟨hs, last a ha, last b hb⟩,
      fun hp => hp.imp fun hn hs => hn hs.1⟩
  rw [← hp]
  exact C127_write_built ranges hb

example : WrittenAs [⟨0x200, [7]⟩, ⟨0, []⟩] ":0102000007F6\n:00000001FF\n".toList :=
  ((C127_write [⟨0x200, [7]⟩, ⟨0, []⟩] (by decide)).1 (by decide) _).1 (by decide +kernel)

example : ihexRepresentationOfDataRanges [⟨0x200, [7, 8]⟩, ⟨0x201, [8]⟩] = .panic :=
  (C127_write _ (by decide)).2 (by decide)

end C8S
