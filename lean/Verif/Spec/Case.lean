import Verif.Model.Basic

/- Specification vocabulary: letter case. -/

namespace C8S.Spec

/-- `c` is an ASCII capital and `d` the corresponding small letter. -/
def Capital (c d : Char) : Prop := 65 ≤ c.toNat ∧ c.toNat ≤ 90 ∧ d.toNat = c.toNat + 32

/-- The same character up to letter case. -/
def SameLetter (c d : Char) : Prop := c = d ∨ Capital c d ∨ Capital d c

/-- The same string up to letter case. -/
inductive SameLetters : Str → Str → Prop where
  | nil : SameLetters [] []
  | cons {c d : Char} {s t : Str} : SameLetter c d → SameLetters s t → SameLetters (c :: s) (d :: t)

instance (c d : Char) : Decidable (Capital c d) := by unfold Capital; infer_instance
instance (c d : Char) : Decidable (SameLetter c d) := by unfold SameLetter; infer_instance

instance decSameLetters : (s t : Str) → Decidable (SameLetters s t)
  | [], [] => isTrue .nil
  | [], _ :: _ => isFalse (fun h => by cases h)
  | _ :: _, [] => isFalse (fun h => by cases h)
  | c :: s, d :: t =>
    match (inferInstance : Decidable (SameLetter c d)), decSameLetters s t with
    | isTrue h1, isTrue h2 => isTrue (.cons h1 h2)
    | isFalse h1, _ => isFalse (fun h => by cases h; exact h1 ‹_›)
    | _, isFalse h2 => isFalse (fun h => by cases h; exact h2 ‹_›)

/-- The Unicode characters with the small letter `k`: there is a third one, U+212A (the Kelvin sign). -/
def LetterK (c : Char) : Prop := c.toNat = 0x6B ∨ c.toNat = 0x4B ∨ c.toNat = 0x212A

/-- The same string up to letter case, in Unicode, if one of them is ASCII. -/
inductive SameWord : Str → Str → Prop where
  | nil : SameWord [] []
  | cons {c d : Char} {s t : Str} : SameLetter c d ∨ (LetterK c ∧ LetterK d) → SameWord s t → SameWord (c :: s) (d :: t)

instance (c : Char) : Decidable (LetterK c) := by unfold LetterK; infer_instance

instance decSameWord : (s t : Str) → Decidable (SameWord s t)
  | [], [] => isTrue .nil
  | [], _ :: _ => isFalse (fun h => by cases h)
  | _ :: _, [] => isFalse (fun h => by cases h)
  | c :: s, d :: t =>
    match (inferInstance : Decidable (SameLetter c d ∨ (LetterK c ∧ LetterK d))), decSameWord s t with
    | isTrue h1, isTrue h2 => isTrue (.cons h1 h2)
    | isFalse h1, _ => isFalse (fun h => by cases h; exact h1 ‹_›)
    | _, isFalse h2 => isFalse (fun h => by cases h; exact h2 ‹_›)

/-- `t` is a lower case of `s`. Capitals are replaced by the small letters, and U+212A by `k`. Of any other character
outside ASCII, only that its lower case is not ASCII only is used. -/
inductive LowerCase : Str → Str → Prop where
  | nil : LowerCase [] []
  | capital {c d : Char} {s t : Str} : Capital c d → LowerCase s t → LowerCase (c :: s) (d :: t)
  | ascii {c : Char} {s t : Str} : c.toNat < 128 → ¬ (65 ≤ c.toNat ∧ c.toNat ≤ 90) → LowerCase s t → LowerCase (c :: s) (c :: t)
  | kelvin {c : Char} {s t : Str} : c.toNat = 0x212A → LowerCase s t → LowerCase (c :: s) ('k' :: t)
  | other {c : Char} {w s t : Str} : 128 ≤ c.toNat → c.toNat ≠ 0x212A → (∃ d ∈ w, 128 ≤ d.toNat) → LowerCase s t →
    LowerCase (c :: s) (w ++ t)

end C8S.Spec
