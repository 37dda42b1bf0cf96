import Verif.Proofs.Profile
import Verif.Spec.Complaints
import Verif.Proofs.Complaints

/- C105: builds with and without overflow checks behave the same. -/

namespace C8S

open Spec

/-- C105: on a text whose size and two more is a word, every build of the tokenizer yields the tokens of the model with
unbounded numbers. -/
theorem C105_tokens [Target] (p : Profile) (file text : Str) (h : (utf8 text).length + 2 < 2 ^ usizeBits) :
    p.scan file text = scan file text := p.scan_eq (by rwa [utf8_length] at h)

example : Profile.release.scan "f".toList "cls ; é\n".toList = .ret [.identifier "cls".toList ⟨"f".toList, 1, 1, 3⟩,
    .singleLineComment "; é".toList ⟨"f".toList, 1, 5, 3⟩, .newline ⟨"f".toList, 1, 8, 1⟩] := by decide +kernel

/-- C105: for any statements, every build of the assembler has the same result. -/
theorem C105_assemble [Target] (p : Profile) (nodes : List Node) : p.assemble nodes = assemble nodes := p.assemble_eq nodes

example : Profile.release.assemble [.directive ⟨[], 1, 1, 1⟩ "db".toList [.numeric 7]] = .ret (.ok [⟨0, [7]⟩]) := by rfl

/-- C105: on ranges made by the constructor and by appending, appending is the same in every build. -/
theorem C105_append [Target] (p : Profile) (r : DataRange) (h : Built r) (data : List U8) : p.append r data = r.append data :=
  p.append_eq ((C38_built_iff_inMemory r).1 h) data

example : Profile.debug.append ⟨0xFFF, []⟩ [1] = .ret (true, ⟨0xFFF, [1]⟩) ∧
    Profile.release.append ⟨0xFFF, [1]⟩ [2] = .ret (false, ⟨0xFFF, [1]⟩) := ⟨by rfl, by rfl⟩

/-- C105: so is writing the object file of such ranges. -/
theorem C105_file [Target] (p : Profile) (ranges : List DataRange) (h : ∀ r ∈ ranges, Built r)
    (hl : ranges.length < 2 ^ usizeBits) :
    p.ihexRepresentationOfDataRanges ranges = ihexRepresentationOfDataRanges ranges := p.ihex_eq h hl

example : Profile.release.ihexRepresentationOfDataRanges [⟨0, [97, 98]⟩] =
    .ret ":0200000061623B\n:00000001FF\n".toList := by decide +kernel

/-- C105: if the size and two more of every text that can be read is a word, every build of the tool behaves as the model
with unbounded numbers. -/
theorem C105_main [Target] (p : Profile) (getopts : Getopts) (env : Env) (arguments : List Str)
    (h : ∀ path text, env.readInput path = .ok text → (utf8 text).length + 2 < 2 ^ usizeBits) :
    p.main getopts env arguments = main getopts env arguments :=
  p.main_eq getopts env arguments fun path text hr => by
    have := h path text hr
    rwa [utf8_length] at this

/-- C105: no text in memory has more than `isize::MAX` bytes. So a build with overflow checks and a build without behave
the same. -/
theorem C105_builds [Target] (getopts : Getopts) (env : Env) (arguments : List Str)
    (h : ∀ path text, env.readInput path = .ok text → (utf8 text).length < 2 ^ (usizeBits - 1)) :
    Profile.debug.main getopts env arguments = Profile.release.main getopts env arguments := by
  have hw : 16 ≤ usizeBits := Target.wide
  have h1 : 2 ^ usizeBits = 2 * 2 ^ (usizeBits - 1) := by
    obtain ⟨k, hk⟩ : ∃ k, usizeBits = k + 1 := ⟨usizeBits - 1, by omega⟩
    rw [hk, Nat.add_sub_cancel, Nat.pow_succ, Nat.mul_comm]
  have h2 : 2 ^ 15 ≤ 2 ^ (usizeBits - 1) := Nat.pow_le_pow_right (by omega) (by omega)
  have h3 : ∀ path text, env.readInput path = .ok text → (utf8 text).length + 2 < 2 ^ usizeBits := by
    intro path text hr
    have := h path text hr
    omega
  rw [C105_main .debug getopts env arguments h3, C105_main .release getopts env arguments h3]

namespace ProfileExample

/-- A source file with an error in it. -/
def env : Env where
  openInput _ := .ok ()
  readInput _ := .ok "\n  jp a".toList
  createOutput _ := .error "denied".toList
  writeOutput _ _ := .ok ()

end ProfileExample

example : (∀ path text, ProfileExample.env.readInput path = .ok text → (utf8 text).length < 2 ^ (usizeBits - 1)) ∧
    Profile.release.assembleFile ProfileExample.env "c8s".toList "a.s".toList "-".toList =
      ⟨[.opening "a.s".toList, .reading "a.s".toList,
        .printed "a.s:2:3-4: error: Unable to resolve label a.\n".toList], .code 1⟩ := by
  refine ⟨?_, by decide +kernel⟩
  intro path text h
  cases h
  rw [utf8_length]
  decide +kernel

theorem range_end (r : DataRange) : r.addressRange.2.toNat = (r.startAddress.toNat + r.data.length) % 4096 := by
  unfold DataRange.addressRange DataRange.len
  rw [BitVec.toNat_add, BitVec.toNat_ofNat]
  omega

/-- C105: shown alone, a range is the same in both builds exactly when its end is not a multiple of 4096. -/
theorem C105_range [Target] (r : DataRange) : Profile.debug.showRange r = Profile.release.showRange r ↔
    (r.startAddress.toNat + r.data.length) % 4096 ≠ 0 := by
  rw [← range_end]
  constructor
  · intro h h0
    unfold Profile.showRange Profile.sub at h
    simp only [h0] at h
    exact nomatch h
  · intro h
    rw [Profile.showRange_eq _ h, Profile.showRange_eq _ h]

/-- C105: then the build with overflow checks panics, and the other shows the largest word. -/
theorem C105_range_wraps [Target] (r : DataRange) (h : (r.startAddress.toNat + r.data.length) % 4096 = 0) :
    Profile.debug.showRange r = .panic ∧ Profile.release.showRange r = .ret (say ["$".toList,
      upperTriple r.startAddress.toNat, "...$".toList, hexa (2 ^ usizeBits - 1), " (".toList, dec r.data.length,
      " bytes)".toList]) := by
  have hend : r.addressRange.2.toNat = 0 := by rw [range_end, h]
  have hb : 2 ^ 16 ≤ 2 ^ usizeBits := Nat.pow_le_pow_right (by omega) Target.wide
  unfold Profile.showRange Profile.sub
  simp only [hend]
  refine ⟨rfl, ?_⟩
  rw [if_neg (by omega)]
  simp only [Run.ret_bind, Nat.zero_add]
  have hlast : (2 ^ usizeBits - 1) % 2 ^ usizeBits = 2 ^ usizeBits - 1 := Nat.mod_eq_of_lt (by omega)
  have hlong : 3 ≤ (Nat.toDigits 16 (2 ^ usizeBits - 1)).length := by
    have := mt (Nat.length_toDigits_le_iff (b := 16) (n := 2 ^ usizeBits - 1) (k := 2) (by omega) (by omega)).1 (by omega)
    omega
  have hpad : padLeft '0' 3 (showHexUpper (2 ^ usizeBits - 1)) = hexa (2 ^ usizeBits - 1) := by
    rw [padLeft, showHexUpper, List.length_map, show 3 - (Nat.toDigits 16 (2 ^ usizeBits - 1)).length = 0 by omega]
    rfl
  have hs := r.startAddress.isLt
  rw [hlast, hpad, addressRange_start, padded_triple _ (by omega)]
  simp only [say_cons, say_nil, List.append_nil, List.append_assoc, Run.pure_eq, DataRange.len, dec, showDec]

example : Profile.release.showRange ⟨0xFFF, [0]⟩ = .ret "$FFF...$FFFFFFFFFFFFFFFF (1 bytes)".toList := by decide +kernel

end C8S
