import Verif.Model.Basic

/-
Regular expressions as in the documentation of crate `regex`: the notation, and leftmost-first matching, in which
earlier alternatives and longer repetitions are preferred. Only the notation used in /repo/src is covered.
-/

namespace C8S.Spec.Regex

/-- A member of a bracketed class. -/
inductive Item where
  /-- `a-z`, or `a` as `a-a`. -/
  | range (lo hi : Char)
  /-- `\S` -/
  | notSpace
  deriving DecidableEq, Repr

inductive Re where
  /-- Nothing. -/
  | empty
  /-- `^` -/
  | start
  /-- `.` -/
  | dot
  /-- `[...]`, `[^...]`, or one character. -/
  | cls (negated : Bool) (items : List Item)
  | seq (a b : Re)
  | alt (a b : Re)
  /-- `r{low,high}`, also for `*` and `+`. -/
  | rep (low : Nat) (high : Option Nat) (r : Re)
  deriving DecidableEq, Repr

/-- The Unicode property White_Space. -/
def whiteSpace : List (Nat × Nat) :=
  [(9, 13), (0x20, 0x20), (0x85, 0x85), (0xA0, 0xA0), (0x1680, 0x1680), (0x2000, 0x200A), (0x2028, 0x2029),
    (0x202F, 0x202F), (0x205F, 0x205F), (0x3000, 0x3000)]

def Item.has (c : Char) : Item → Bool
  | .range lo hi => lo.toNat ≤ c.toNat && c.toNat ≤ hi.toNat
  | .notSpace => !(whiteSpace.any fun (lo, hi) => lo ≤ c.toNat && c.toNat ≤ hi)

/-- A place in the text: whether it is the start, and the text that follows. -/
abbrev Place := Bool × Str

/-- One character for which `p` holds. -/
def one (p : Char → Bool) : Place → List Place
  | (_, c :: s) => if p c then [(false, s)] else []
  | (_, []) => []

/-- Repetition, more before fewer. The fuel is the length of the text, which is enough as what is repeated is not
empty in any pattern considered. -/
def repeated (step : Place → List Place) : Nat → Nat → Option Nat → Place → List Place
  | 0, low, _, p => if low = 0 then [p] else []
  | fuel + 1, low, high, p =>
    (if high = some 0 then [] else (step p).flatMap fun q => repeated step fuel (low - 1) (high.map (· - 1)) q) ++
      (if low = 0 then [p] else [])

/-- The places where a match begun at a place may end, in order of preference. -/
def Re.ends : Re → Place → List Place
  | .empty, p => [p]
  | .start, p => if p.1 then [p] else []
  | .dot, p => one (fun c => c != '\n') p
  | .cls negated items, p => one (fun c => (items.any (Item.has c)) != negated) p
  | .seq a b, p => (a.ends p).flatMap b.ends
  | .alt a b, p => a.ends p ++ b.ends p
  | .rep low high r, p => repeated r.ends (p.2.length + 1) low high p

/-- The size of a text in bytes. -/
def size (s : Str) : Nat := (s.map Char.utf8Size).sum

/-- The leftmost match from a place at byte `offset` on: the offsets of its beginning and end. -/
def findFrom (r : Re) (atStart : Bool) (offset : Nat) : Str → Option (Nat × Nat)
  | [] =>
    match r.ends (atStart, []) with
    | (_, rest) :: _ => some (offset, offset + (size [] - size rest))
    | [] => none
  | c :: s =>
    match r.ends (atStart, c :: s) with
    | (_, rest) :: _ => some (offset, offset + (size (c :: s) - size rest))
    | [] => findFrom r false (offset + c.utf8Size) s

/-- `Regex::find`. -/
def find (r : Re) (text : Str) : Option (Nat × Nat) := findFrom r true 0 text

/-! ### The notation -/

/-- Decimal digits in front. -/
def digits (s : Str) : Str × Str := s.span Char.isDigit

def number (s : Str) : Nat := s.foldl (fun n c => 10 * n + (c.toNat - '0'.toNat)) 0

/-- A character, or an escaped one. -/
def classChar : Str → Option (Item × Str)
  | '\\' :: 'S' :: s => some (.notSpace, s)
  | '\\' :: 'n' :: s => some (.range '\n' '\n', s)
  | '\\' :: c :: s => some (.range c c, s)
  | ']' :: _ => none
  | c :: '-' :: d :: s => if d = ']' then some (.range c c, '-' :: d :: s) else some (.range c d, s)
  | c :: s => some (.range c c, s)
  | [] => none

/-- The members of a class, and what follows the closing bracket. -/
def classItems : Nat → Str → Option (List Item × Str)
  | 0, _ => none
  | _ + 1, ']' :: s => some ([], s)
  | fuel + 1, s =>
    match classChar s with
    | none => none
    | some (i, s) => (classItems fuel s).map fun (is, s) => (i :: is, s)

/-- The repetition that follows an expression. -/
def quantified (r : Re) : Str → Option (Re × Str)
  | '*' :: s => some (.rep 0 none r, s)
  | '+' :: s => some (.rep 1 none r, s)
  | '{' :: s =>
    match digits s with
    | (low, ',' :: s) =>
      match digits s with
      | (high, '}' :: s) => some (.rep (number low) (if high = [] then none else some (number high)) r, s)
      | _ => none
    | _ => none
  | s => some (r, s)

mutual

/-- One expression with its repetition. -/
def atom : Nat → Str → Option (Re × Str)
  | 0, _ => none
  | _ + 1, '^' :: s => some (.start, s)
  | _ + 1, '.' :: s => quantified .dot s
  | fuel + 1, '(' :: '?' :: ':' :: s =>
    match alternatives fuel s with
    | some (r, ')' :: s) => quantified r s
    | _ => none
  | fuel + 1, '[' :: '^' :: s =>
    match classItems fuel s with
    | some (is, s) => quantified (.cls true is) s
    | none => none
  | fuel + 1, '[' :: s =>
    match classItems fuel s with
    | some (is, s) => quantified (.cls false is) s
    | none => none
  | _ + 1, '\\' :: c :: s => quantified (.cls false [.range c c]) s
  | _ + 1, c :: s => quantified (.cls false [.range c c]) s
  | _ + 1, [] => none

/-- Expressions one after the other. -/
def sequence : Nat → Str → Option (Re × Str)
  | 0, _ => none
  | _ + 1, [] => some (.empty, [])
  | _ + 1, ')' :: s => some (.empty, ')' :: s)
  | _ + 1, '|' :: s => some (.empty, '|' :: s)
  | fuel + 1, s =>
    match atom fuel s with
    | none => none
    | some (r, s) =>
      match sequence fuel s with
      | none => none
      | some (.empty, s) => some (r, s)
      | some (r', s) => some (.seq r r', s)

/-- Alternatives. -/
def alternatives : Nat → Str → Option (Re × Str)
  | 0, _ => none
  | fuel + 1, s =>
    match sequence fuel s with
    | some (r, '|' :: s) => (alternatives fuel s).map fun (r', s) => (.alt r r', s)
    | result => result

end

/-- `Regex::new`. -/
def pattern (s : Str) : Option Re :=
  match alternatives (3 * s.length + 3) s with
  | some (r, []) => some r
  | _ => none

/-- The end of the match at the beginning of the text, if that is where the leftmost match is: how the code uses
`find`. -/
def matchLength (p : Str) (text : Str) : Option Nat :=
  match (pattern p).bind fun r => find r text with
  | some (0, n) => some n
  | _ => none

end C8S.Spec.Regex
