import Verif.Spec.Tool

/- UTF-8, in numbers. -/

namespace C8S.Spec

/-- The bytes of a code point: one byte below 128, and otherwise a first byte that tells how many follow, each of which
holds six bits. -/
def utf8Of (n : Nat) : List Nat :=
  if n < 0x80 then [n]
  else if n < 0x800 then [0xC0 + n / 64, 0x80 + n % 64]
  else if n < 0x10000 then [0xE0 + n / 4096, 0x80 + n / 64 % 64, 0x80 + n % 64]
  else [0xF0 + n / 262144, 0x80 + n / 4096 % 64, 0x80 + n / 64 % 64, 0x80 + n % 64]

/-- The bytes are those of the text. -/
def InUtf8 (text : Str) (bytes : List U8) : Prop := bytes.map BitVec.toNat = text.flatMap fun c => utf8Of c.toNat

/-- The same, one by one. -/
inductive AllInUtf8 : List Str → List (List U8) → Prop where
  | nil : AllInUtf8 [] []
  | cons {s : Str} {a : List U8} {ss : List Str} {args : List (List U8)} : InUtf8 s a → AllInUtf8 ss args →
    AllInUtf8 (s :: ss) (a :: args)

/-- A byte order mark. -/
def byteOrderMark : Char := Char.ofNat 0xFEFF

end C8S.Spec
