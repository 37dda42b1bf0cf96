import Verif.Model.Main

/-
The byte strings at the border of the tool: process arguments and the contents of the input file. `main` takes both as
texts; here they are bytes, as the operating system has them.
-/

namespace C8S

/-- A continuation byte — main.rs:46. -/
def isContinuation (b : U8) : Bool := decide (0x80 ≤ b.toNat ∧ b.toNat ≤ 0xBF)

/-- First and second byte of a character of three bytes — `std::str::from_utf8`. Leaves out longer forms than needed
and surrogates — main.rs:46. -/
def threeByteStart (a b : U8) : Bool :=
  decide ((a.toNat = 0xE0 ∧ 0xA0 ≤ b.toNat ∧ b.toNat ≤ 0xBF) ∨
    (0xE1 ≤ a.toNat ∧ a.toNat ≤ 0xEC ∧ 0x80 ≤ b.toNat ∧ b.toNat ≤ 0xBF) ∨
    (a.toNat = 0xED ∧ 0x80 ≤ b.toNat ∧ b.toNat ≤ 0x9F) ∨
    (0xEE ≤ a.toNat ∧ a.toNat ≤ 0xEF ∧ 0x80 ≤ b.toNat ∧ b.toNat ≤ 0xBF))

/-- First and second byte of a character of four bytes — `std::str::from_utf8` — main.rs:46. -/
def fourByteStart (a b : U8) : Bool :=
  decide ((a.toNat = 0xF0 ∧ 0x90 ≤ b.toNat ∧ b.toNat ≤ 0xBF) ∨
    (0xF1 ≤ a.toNat ∧ a.toNat ≤ 0xF3 ∧ 0x80 ≤ b.toNat ∧ b.toNat ≤ 0xBF) ∨
    (a.toNat = 0xF4 ∧ 0x80 ≤ b.toNat ∧ b.toNat ≤ 0x8F))

/-- `std::str::from_utf8`, used by `read_to_string` (main.rs:46) and by `env::args` (main.rs:127): the text, if the bytes
are UTF-8. -/
def fromUtf8 : List U8 → Option Str
  | [] => some []
  | a :: as =>
    if a.toNat < 0x80 then (fromUtf8 as).map (Char.ofNat a.toNat :: ·)
    else
      match as with
      | [] => none
      | b :: bs =>
        if 0xC2 ≤ a.toNat ∧ a.toNat ≤ 0xDF then
          if isContinuation b then
            (fromUtf8 bs).map (Char.ofNat (a.toNat % 32 * 64 + b.toNat % 64) :: ·)
          else none
        else
          match bs with
          | [] => none
          | c :: cs =>
            if threeByteStart a b then
              if isContinuation c then
                (fromUtf8 cs).map (Char.ofNat (a.toNat % 16 * 4096 + b.toNat % 64 * 64 + c.toNat % 64) :: ·)
              else none
            else
              match cs with
              | [] => none
              | d :: ds =>
                if fourByteStart a b && isContinuation c && isContinuation d then
                  (fromUtf8 ds).map
                    (Char.ofNat (a.toNat % 8 * 262144 + b.toNat % 64 * 4096 + c.toNat % 64 * 64 + d.toNat % 64) :: ·)
                else none

/-- The file system, with reading in bytes. Otherwise as `Env` — main.rs:37-100. -/
structure RawEnv where
  openInput : Str → Except Str Unit
  /-- All bytes of the file up to its end — main.rs:46. -/
  readInput : Str → Except Str (List U8)
  createOutput : Str → Except Str Unit
  writeOutput : Dest → List U8 → Except (Str × Nat) Unit

/-- `read_to_string`: reading fails if the bytes cannot be read, and also if they are not UTF-8 — main.rs:46. -/
def RawEnv.readToString (raw : RawEnv) (path : Str) : Except Str Str :=
  match raw.readInput path with
  | .error reason => .error reason
  | .ok bytes =>
    match fromUtf8 bytes with
    | none => .error "stream did not contain valid UTF-8".toList
    | some text => .ok text

/-- The file system as `assemble_file` uses it — main.rs:37-100. -/
def RawEnv.env (raw : RawEnv) : Env where
  openInput := raw.openInput
  readInput := raw.readToString
  createOutput := raw.createOutput
  writeOutput := raw.writeOutput

/-- `env::args().collect()`: panics if an argument is not UTF-8 — main.rs:127. -/
def collectArgs : List (List U8) → Run (List Str)
  | [] => .ret []
  | a :: rest =>
    match fromUtf8 a with
    | none => .panic
    | some s => do
      let more ← collectArgs rest
      return s :: more

/-- `main` with the arguments and the files in bytes — main.rs:126-169. -/
def mainRaw [Target] (getopts : Getopts) (raw : RawEnv) (arguments : List (List U8)) : Outcome :=
  match collectArgs arguments with
  | .panic => ⟨[], .panicked⟩
  | .ret arguments => main getopts raw.env arguments

end C8S
