import Verif.Proofs.Target
import Verif.Props.Tool
import Verif.Props.Literals

/- Property C101: what depends on the machine the tool is built for. -/

namespace C8S

open Spec

/-- C101: machines with words of different width yield the same tokens, except where the wider one reports a binary number
that has more digits than the word of the narrower, which takes it for the value of its last digits. -/
theorem C101_tokens (narrow wide : Target) (hle : narrow.bits ≤ wide.bits) (file text : Str) (tokens : List Token)
    (h : @scan wide file text = .ret tokens) :
    @scan narrow file text = .ret tokens ∨
    ∃ pre digits l more, tokens = pre ++ [.error (.binaryLiteralOutOfRange digits) l] ∧ narrow.bits < digits.length ∧
      @scan narrow file text = .ret (pre ++ .numericLiteral (positional 2 digits % 2 ^ narrow.bits) l :: more) := by
  rcases lex_narrow narrow wide hle ((@scan_iff_lex wide _ _ _).1 h) with h | ⟨pre, digits, l, more, e, hd, h⟩
  · exact .inl ((@scan_iff_lex narrow _ _ _).2 h)
  · exact .inr ⟨pre, digits, l, more, e, hd, (@scan_iff_lex narrow _ _ _).2 h⟩

/-- A 32-bit machine. -/
@[reducible] def bits32 : Target := ⟨32, by decide⟩

/-- The two cases. -/
example : @scan bits32 [] "%1".toList = @scan bits64 [] "%1".toList ∧
    @scan bits64 [] ('%' :: '1' :: List.replicate 32 '0') =
      .ret [.error (.binaryLiteralOutOfRange ('1' :: List.replicate 32 '0')) ⟨[], 1, 1, 34⟩] ∧
    @scan bits32 [] ('%' :: '1' :: List.replicate 32 '0') = .ret [.numericLiteral 0 ⟨[], 1, 1, 34⟩] := by
  decide +kernel

/-- C101: a text in which no binary number has more digits than the word of either machine has the same tokens on both. -/
theorem C101_short (a b : Target) (file text : Str)
    (h : ∀ before s rest, text = before ++ '%' :: s ++ rest → (∀ d ∈ s, Binary d) → s.length ≤ a.bits ∧ s.length ≤ b.bits) :
    @scan a file text = @scan b file text := by
  have small : ∀ t : Target, (∀ before s rest, text = before ++ '%' :: s ++ rest → (∀ d ∈ s, Binary d) → s.length ≤ t.bits) →
      @SmallBinaries t text := by
    intro t ht before s rest e hd
    refine Nat.lt_of_lt_of_le (positional_lt 2 s (fun d hd' => ?_)) (Nat.pow_le_pow_right (by omega) (ht before s rest e hd))
    rcases hd d hd' with rfl | rfl | rfl <;> decide
  obtain ⟨tokens, ht⟩ := @scan_lex a file text
  rw [ht.1]
  have hb := @C03_intended b file text (small b fun p s r e hd => (h p s r e hd).2) tokens
  have ha := @C03_intended a file text (small a fun p s r e hd => (h p s r e hd).1) tokens
  exact (hb.2 (ha.1 ht.1)).symm

example : @scan bits32 [] ".db %1111".toList = @scan bits64 [] ".db %1111".toList := by
  refine C101_short _ _ _ _ fun before s rest e _ => ?_
  have hl : s.length ≤ 9 := by
    have := congrArg List.length e
    simp only [List.length_append, List.length_cons] at this
    have h9 : ".db %1111".toList.length = 9 := by decide
    omega
  exact ⟨Nat.le_trans hl (by decide), Nat.le_trans hl (by decide)⟩

/-- C101: a run of the tool on a narrow machine is that on a wide machine, unless the wide machine rejects the source text. -/
theorem C101_run (narrow wide : Target) (hle : narrow.bits ≤ wide.bits) (getopts : Getopts) (env : Env)
    (arguments : List Str) :
    @main narrow getopts env arguments = @main wide getopts env arguments ∨
      (@main wide getopts env arguments).exit = .code 1 := by
  have text : ∀ program input output text, @assembleText narrow env program input output text =
      @assembleText wide env program input output text ∨ (@assembleText wide env program input output text).exit = .code 1 := by
    intro program input output text
    obtain ⟨tokens, h, _⟩ := @scan_lex wide input text
    rcases C101_tokens narrow wide hle input text tokens h with hn | ⟨pre, digits, l, more, e, _, _⟩
    · left
      unfold assembleText
      rw [h, hn]
    · right
      obtain ⟨err, he⟩ := C12_error tokens (.binaryLiteralOutOfRange digits) l (by rw [e]; simp)
      obtain ⟨m, hm⟩ := C49_parse_error_display tokens err he
      unfold assembleText
      simp only [h, he, hm]
  have file : ∀ program input output, @assembleFile narrow env program input output =
      @assembleFile wide env program input output ∨ (@assembleFile wide env program input output).exit = .code 1 := by
    intro program input output
    unfold assembleFile
    cases env.openInput input with
    | error e => dsimp only; exact .inl rfl
    | ok u =>
      cases u
      cases env.readInput input with
      | error e => dsimp only; exact .inl rfl
      | ok buffer =>
        rcases text program input output buffer with h | h
        · left; simp only [h]
        · right; simpa using h
  unfold main
  cases arguments with
  | nil => simp
  | cons program rest =>
    cases hp : getopts.parse rest with
    | error e => simp only [hp, true_or]
    | ok m =>
      simp only [hp]
      by_cases hh : m.help = true
      · simp only [hh, if_true, true_or]
      by_cases hv : m.version = true
      · simp only [hh, hv, if_true, true_or]
      rw [if_neg hh, if_neg hv, if_neg hh, if_neg hv]
      cases hm : m.free with
      | nil => simp only [true_or]
      | cons x xs =>
        cases xs with
        | nil => exact file program x _
        | cons y ys => simp only [true_or]

namespace TargetExample

/-- A source text with a number of 33 binary digits: 2 to the power 32. -/
def long : Str := ".org 512\n.db ".toList ++ '%' :: '1' :: List.replicate 32 '0' ++ ['\n']

def files : Env := ⟨fun _ => .ok (), fun _ => .ok long, fun _ => .ok (), fun _ _ => .ok ()⟩

def words : List Str := ["c8s".toList, "-o".toList, "o".toList, "a.s".toList]

end TargetExample

open TargetExample in
/-- The second case: the wide machine rejects what the narrow one takes for zero. -/
example : (@main bits64 getopts0214 files words).exit = .code 1 ∧ (@main bits32 getopts0214 files words).exit = .code 0 ∧
    Event.wrote (.file "o".toList) (utf8 ":0102000000FD\n:00000001FF\n".toList) ∈
      (@main bits32 getopts0214 files words).events := by
  decide +kernel

/-- C101: two machines that both run with success do the same. -/
theorem C101_agree (a b : Target) (getopts : Getopts) (env : Env) (arguments : List Str)
    (ha : (@main a getopts env arguments).exit = .code 0) (hb : (@main b getopts env arguments).exit = .code 0) :
    @main a getopts env arguments = @main b getopts env arguments := by
  rcases Nat.le_total a.bits b.bits with h | h
  · rcases C101_run a b h getopts env arguments with h | h
    · exact h
    · rw [hb] at h
      cases h
  · rcases C101_run b a h getopts env arguments with h | h
    · exact h.symm
    · rw [ha] at h
      cases h

example : (@main bits32 getopts0214 { TargetExample.files with readInput := fun _ => .ok ".org 512\ncls\n".toList }
      TargetExample.words).exit = .code 0 ∧
    (@main bits64 getopts0214 { TargetExample.files with readInput := fun _ => .ok ".org 512\ncls\n".toList }
      TargetExample.words).exit = .code 0 := by
  decide +kernel

end C8S
