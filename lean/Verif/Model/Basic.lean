/-
Building blocks of the model: Rust computations that may panic, Rust strings, byte slices of strings,
integer parsing and formatting. Everything here models the Rust standard library as used by /repo/src.
-/

namespace C8S

/-- A Rust `&str`/`String`, as its sequence of Unicode scalar values. Byte offsets are recovered with `Char.utf8Size`
(std `char::len_utf8`) — for example scanner.rs:77-84. -/
abbrev Str := List Char

/-- `u8`, for example opcode.rs:58-69. -/
abbrev U8 := BitVec 8
/-- `twelve_bit::u12::U12`, for example data_range.rs:20. -/
abbrev U12 := BitVec 12
/-- `u16`, for example opcode.rs:216-250. -/
abbrev U16 := BitVec 16

/-- A Rust computation: it returns a value, or panics. Panics are explicit in this model (failed `assert!`, `unwrap`
of `None`/`Err`, slicing off a char boundary, arithmetic overflow). Running out of the explicit fuel of a modelled
loop is also `panic`, so no-panic theorems include termination — for example opcode.rs:220, assembler.rs:206, 220. -/
inductive Run (α : Type) where
  | ret (a : α)
  | panic
  deriving DecidableEq, Repr

namespace Run

/-- Sequencing: a panic unwinds — any sequence of statements, for example assembler.rs:259-269. -/
@[simp] def bind {α β : Type} : Run α → (α → Run β) → Run β
  | ret a, f => f a
  | panic, _ => panic

/-- Sequencing of computations, as `bind` — any sequence of statements, for example assembler.rs:259-269. -/
instance : Monad Run where
  pure := ret
  bind := bind

@[simp] theorem pure_eq {α : Type} (a : α) : (pure a : Run α) = ret a := rfl
@[simp] theorem ret_bind {α β : Type} (a : α) (f : α → Run β) : (ret a >>= f) = f a := rfl
@[simp] theorem panic_bind {α β : Type} (f : α → Run β) : ((panic : Run α) >>= f) = panic := rfl

end Run

/-- `assert!(b)` — scanner.rs:143, 328, 350, 359, 368, 397, assembler.rs:220, 236, ihex_writer.rs:28,
opcode.rs:220-248, source_file_location.rs:42. -/
def rustAssert (b : Bool) : Run Unit := if b then .ret () else .panic

/-- `Option::unwrap` / `Result::ok().unwrap()` — scanner.rs:188, 385, assembler.rs:206, ihex_writer.rs:67. -/
def rustUnwrap {α : Type} : Option α → Run α
  | some a => .ret a
  | none => .panic

/-- `str::len`: the length in bytes — scanner.rs:167, 311, 429. -/
def byteLen (s : Str) : Nat := (s.map Char.utf8Size).sum

/-- `&s[n ..]`: panics when `n` is not a char boundary or is past the end — scanner.rs:132, 155, 181, 208, 244, 282,
307, 332, 385. -/
def sliceFrom : Str → Nat → Run Str
  | s, 0 => .ret s
  | [], _ + 1 => .panic
  | c :: s, n + 1 => if c.utf8Size ≤ n + 1 then sliceFrom s (n + 1 - c.utf8Size) else .panic

/-- `&s[.. n]`: panics when `n` is not a char boundary or is past the end — scanner.rs:285, 312, 340, 393. -/
def sliceTo : Str → Nat → Run Str
  | _, 0 => .ret []
  | [], _ + 1 => .panic
  | c :: s, n + 1 =>
    if c.utf8Size ≤ n + 1 then
      match sliceTo s (n + 1 - c.utf8Size) with
      | .ret t => .ret (c :: t)
      | .panic => .panic
    else .panic

/-- `&s[a .. b]`: panics when `b < a`, off a char boundary, or past the end — scanner.rs:160, 186, 213, 249. -/
def slice (s : Str) (a b : Nat) : Run Str :=
  if b < a then .panic
  else do
    let t ← sliceFrom s a
    sliceTo t (b - a)

/-- `str::as_bytes`: the UTF-8 encoding — directive.rs:145, main.rs:100. -/
def utf8Bytes (s : Str) : List U8 :=
  s.flatMap fun c => (String.utf8EncodeChar c).map UInt8.toBitVec

/-- `char::to_digit(radix)` for radix up to 36 — in `from_str_radix`, scanner.rs:188, 252, parser.rs:396. -/
def toDigit (radix : Nat) (c : Char) : Option Nat :=
  let v :=
    if '0' ≤ c ∧ c ≤ '9' then some (c.toNat - '0'.toNat)
    else if 'a' ≤ c ∧ c ≤ 'z' then some (c.toNat - 'a'.toNat + 10)
    else if 'A' ≤ c ∧ c ≤ 'Z' then some (c.toNat - 'A'.toNat + 10)
    else none
  match v with
  | some d => if d < radix then some d else none
  | none => none

/-- The digit loop of `from_str_radix` on an unsigned type of `bits` bits: `None` on a bad digit or on overflow of the
multiplication or the addition — scanner.rs:188, 252, parser.rs:396. -/
def radixDigits (bits radix : Nat) : Str → Nat → Option Nat
  | [], acc => some acc
  | c :: s, acc =>
    match toDigit radix c with
    | none => none
    | some d => if acc * radix + d < 2 ^ bits then radixDigits bits radix s (acc * radix + d) else none

/-- `uN::from_str_radix(s, radix).ok()`: empty input and a lone sign are errors; one leading `+` is allowed —
scanner.rs:188, 252, parser.rs:396. -/
def fromStrRadix (bits radix : Nat) (s : Str) : Option Nat :=
  match s with
  | [] => none
  | ['+'] => none
  | '+' :: rest => radixDigits bits radix rest 0
  | _ => radixDigits bits radix s 0

/-- The machine the tool is built for, by the width of its `usize`. Rust promises at least 16 bits — scanner.rs:80-84,
99, 106, 188, 252. -/
class Target where
  bits : Nat
  wide : 16 ≤ bits

/-- A 64-bit machine, wherever nothing else is said — as `Target`. -/
instance bits64 : Target := ⟨64, by decide⟩

/-- Width of `usize` — scanner.rs:99, 106, 188, 252. -/
def usizeBits [target : Target] : Nat := target.bits

/-- Lower-casing of one character: the ASCII capitals, and U+212A (the Kelvin sign), whose small letter is `k` —
directive.rs:100, instruction.rs:116. -/
def lowerChar (c : Char) : Char :=
  if 'A' ≤ c ∧ c ≤ 'Z' then Char.ofNat (c.toNat + 32) else if c.toNat = 0x212A then 'k' else c

/-- `str::to_lowercase`. Simplification: a character outside ASCII other than U+212A stands for itself. The code only
compares the result with ASCII constants, and no other character has a lower case that is ASCII only (U+0130 gives `i`
and U+0307), so the comparisons are exact: `C8S.C19_lowercase` — directive.rs:100, instruction.rs:116. -/
def toLowercase (s : Str) : Str := s.map lowerChar

/-- `format!("{}", n)` — for example directive.rs:49-51, 76, source_file_location.rs:26-34. -/
def showDec (n : Nat) : Str := Nat.toDigits 10 n

/-- `format!("{:x}", n)` — parser.rs:173, opcode.rs:123-154. -/
def showHexLower (n : Nat) : Str := Nat.toDigits 16 n

/-- `format!("{:X}", n)` — directive.rs:55, 75, instruction.rs:49-51, token.rs:72. -/
def showHexUpper (n : Nat) : Str := (Nat.toDigits 16 n).map Char.toUpper

/-- Padding of a formatted number on the left up to `width` (the fill is a blank for `{:3x}`, `0` for `{:03x}`) —
data_range.rs:30, directive.rs:75-77, opcode.rs:123-154. -/
def padLeft (fill : Char) (width : Nat) (s : Str) : Str := List.replicate (width - s.length) fill ++ s

/-- `[&str]::join(", ")` — parser.rs:55, 65, 75. -/
def joinWith (sep : Str) : List Str → Str
  | [] => []
  | [s] => s
  | s :: rest => s ++ sep ++ joinWith sep rest

end C8S
