import Verif.Proofs.Regex

/-
C67: the patterns of the scanner. Each pattern is given as it is written in /repo/src/assembler/scanner.rs, and read and
matched by the general definitions of `Spec/Regex.lean`; the result is that of the matcher in the scanner model, for
every text.
-/

namespace C8S

open Spec.Regex RegexProof

private theorem shift {k a b m : Nat} (h : a = m + b) : k + a - b = m + k := by omega

/-- The first character is one of a class, and the rest is matched by `r`. -/
private theorem first_then (p : Char → Bool) (r : Re) (c : Char) (s : Str) :
    (one p (true, c :: s)).flatMap r.ends = if p c then r.ends (false, s) else [] := by
  rw [one]
  split
  · rw [List.flatMap_cons, List.flatMap_nil, List.append_nil]
  · rw [List.flatMap_nil]

private theorem first_none (p : Char → Bool) (r : Re) : (one p (true, [])).flatMap r.ends = [] := by
  rw [one, List.flatMap_nil]

private theorem no_end (s : Str) :
    (((([] : List Place).head?).map Prod.snd).map fun rest => byteLen s - byteLen rest) = none := rfl

/-- C67: the pattern of white space — scanner.rs:130. -/
theorem C67_whitespace (text : Str) : matchLength r"^[^\S\n]+".toList text = reWhitespace text := by
  have hp : pattern r"^[^\S\n]+".toList =
      some (.seq .start (.rep 1 none (.cls true [.notSpace, .range '\n' '\n']))) := by decide +kernel
  rw [matchLength_anchored hp]
  have e : Re.ends (.cls true [.notSpace, .range '\n' '\n']) = one isBlank := by
    funext p
    exact congrFun (one_congr isBlank_eq) p
  rw [Re.ends, e]
  exact run_ends isBlank true text

example : matchLength r"^[^\S\n]+".toList " \t\n x".toList = some 2 := by decide +kernel

/-- C67: the pattern of string literals — scanner.rs:153. -/
theorem C67_string (text : Str) : matchLength r#"^"(?:[^"\\]|\\.)*""#.toList text = reString text := by
  have hp : pattern r#"^"(?:[^"\\]|\\.)*""#.toList = some (.seq .start (.seq (.cls false [.range '"' '"'])
      (.seq (.rep 0 none (.alt (.cls true [.range '"' '"', .range '\\' '\\'])
        (.seq (.cls false [.range '\\' '\\']) .dot))) (.cls false [.range '"' '"'])))) := by decide +kernel
  have eq : Re.ends (.cls false [.range '"' '"']) = quote := rfl
  have eb : Re.ends (.alt (.cls true [.range '"' '"', .range '\\' '\\'])
      (.seq (.cls false [.range '\\' '\\']) .dot)) = bodyStep := rfl
  rw [matchLength_anchored hp, Re.ends, eq]
  cases text with
  | nil => rw [quote_nil, List.flatMap_nil]; rfl
  | cons c s =>
    rw [quote_cons]
    by_cases h : c = '"'
    · subst h
      rw [if_pos rfl, List.flatMap_cons, List.flatMap_nil, List.append_nil, Re.ends, Re.ends, eq, eb]
      rcases body_ends s.length s (s.length + 1) false (Nat.le_refl _) (Nat.lt_succ_self _) with
        ⟨h1, h2⟩ | ⟨b, rest, more, n, h1, h2, h3⟩
      · rw [h1, reString, h2]
        rfl
      · rw [h1, reString, h2]
        simp only [List.head?_cons, Option.map_some, byteLen_cons, h3]
        have : Char.utf8Size '"' = 1 := by decide
        rw [this, Nat.add_comm n]
        exact congrArg some (by omega)
    · rw [if_neg h]
      unfold reString
      split
      · rename_i e; cases e; exact absurd rfl h
      · rw [List.flatMap_nil, no_end]

example : matchLength r#"^"(?:[^"\\]|\\.)*""#.toList "\"a\\\"é\" x\"".toList = some 7 := by decide +kernel

/-- C67: the pattern of hexadecimal literals — scanner.rs:179. -/
theorem C67_hexadecimal (text : Str) : matchLength r"^[\$\#][0-9a-fA-F]{1,3}".toList text = reHex text := by
  have hp : pattern r"^[\$\#][0-9a-fA-F]{1,3}".toList = some (.seq .start (.seq (.cls false [.range '$' '$', .range '#' '#'])
      (.rep 1 (some 3) (.cls false [.range '0' '9', .range 'a' 'f', .range 'A' 'F'])))) := by decide +kernel
  have e : Re.ends (.cls false [.range '0' '9', .range 'a' 'f', .range 'A' 'F']) = one isHex := by
    funext p
    exact congrFun (one_congr isHex_eq) p
  rw [matchLength_anchored hp, Re.ends, Re.ends]
  cases text with
  | nil => rw [first_none, no_end]; rfl
  | cons c s =>
    rw [first_then]
    simp only [List.any_cons, List.any_nil, Item.has, char_single, Bool.or_false, Bool.bne_false, Bool.or_eq_true,
      beq_iff_eq, reHex]
    by_cases h : c = '$' ∨ c = '#'
    · rw [if_pos h, if_pos h, Re.ends, e, repeated_one isHex s _ _ _ _ (Nat.lt_succ_self _)]
      have hc : c.utf8Size = 1 := by rcases h with rfl | rfl <;> decide
      unfold matchRun cap
      simp only
      cases ht : (s.take 3).takeWhile isHex with
      | nil => rfl
      | cons d t =>
        rw [if_pos (by simp), ← ht]
        simp only [Option.map_some, byteLen_cons, hc]
        have h1 := byteLen_append (s.take ((s.take 3).takeWhile isHex).length) (s.drop ((s.take 3).takeWhile isHex).length)
        rw [List.take_append_drop, take_takeWhile_cap] at h1
        rw [ht] at h1 ⊢
        exact congrArg some (shift h1)
    · rw [if_neg h, if_neg h, no_end]

example : matchLength r"^[\$\#][0-9a-fA-F]{1,3}".toList "#1fF0".toList = some 4 ∧
    matchLength r"^[\$\#][0-9a-fA-F]{1,3}".toList "x$1".toList = none := by decide +kernel

/-- C67: the pattern of binary literals — scanner.rs:206. -/
theorem C67_binary (text : Str) : matchLength r"^%[01\.]+".toList text = reBin text := by
  have hp : pattern r"^%[01\.]+".toList = some (.seq .start (.seq (.cls false [.range '%' '%'])
      (.rep 1 none (.cls false [.range '0' '0', .range '1' '1', .range '.' '.'])))) := by decide +kernel
  have e : Re.ends (.cls false [.range '0' '0', .range '1' '1', .range '.' '.']) = one isBin := by
    funext p
    exact congrFun (one_congr isBin_eq) p
  rw [matchLength_anchored hp, Re.ends, Re.ends]
  cases text with
  | nil => rw [first_none, no_end]; rfl
  | cons c s =>
    rw [first_then]
    simp only [List.any_cons, List.any_nil, Item.has, char_single, Bool.or_false, Bool.bne_false, beq_iff_eq, reBin]
    by_cases h : c = '%'
    · rw [if_pos h, if_pos h, Re.ends, e]
      have hc : c.utf8Size = 1 := by rw [h]; decide
      have h1 := run_ends isBin false s
      rw [← h1, repeated_one isBin s _ _ _ _ (Nat.lt_succ_self _)]
      split
      · simp only [Option.map_some, byteLen_cons, hc]
        have h2 := byteLen_append (s.take ((cap none s).takeWhile isBin).length) (s.drop ((cap none s).takeWhile isBin).length)
        rw [List.take_append_drop] at h2
        rw [shift h2, byteLen_drop]
      · rfl
    · rw [if_neg h, if_neg h, no_end]

example : matchLength r"^%[01\.]+".toList "%1.02".toList = some 4 := by decide +kernel

/-- C67: the pattern of decimal literals — scanner.rs:242. -/
theorem C67_decimal (text : Str) : matchLength r"^[0-9]{1,}".toList text = reDec text := by
  have hp : pattern r"^[0-9]{1,}".toList = some (.seq .start (.rep 1 none (.cls false [.range '0' '9']))) := by
    decide +kernel
  rw [matchLength_anchored hp]
  have e : Re.ends (.cls false [.range '0' '9']) = one isDec := by
    funext p
    exact congrFun (one_congr isDec_eq) p
  rw [Re.ends, e]
  exact run_ends isDec true text

example : matchLength r"^[0-9]{1,}".toList "409a".toList = some 3 := by decide +kernel

/-- C67: the pattern of identifiers — scanner.rs:280. -/
theorem C67_identifier (text : Str) : matchLength r"^[_a-zA-Z][_a-zA-Z0-9]{0,}".toList text = reIdent text := by
  have hp : pattern r"^[_a-zA-Z][_a-zA-Z0-9]{0,}".toList =
      some (.seq .start (.seq (.cls false [.range '_' '_', .range 'a' 'z', .range 'A' 'Z'])
        (.rep 0 none (.cls false [.range '_' '_', .range 'a' 'z', .range 'A' 'Z', .range '0' '9'])))) := by decide +kernel
  have e : Re.ends (.cls false [.range '_' '_', .range 'a' 'z', .range 'A' 'Z', .range '0' '9']) = one isIdentChar := by
    funext p
    exact congrFun (one_congr isIdentChar_eq) p
  rw [matchLength_anchored hp, Re.ends, Re.ends, one_congr isIdentStart_eq]
  cases text with
  | nil => rw [first_none, no_end]; rfl
  | cons c s =>
    rw [first_then, reIdent]
    by_cases h : isIdentStart c = true
    · rw [if_pos h, if_pos h, Re.ends, e, repeated_one isIdentChar s _ _ _ _ (Nat.lt_succ_self _), if_pos (Nat.zero_le _)]
      simp only [Option.map_some, byteLen_cons, cap]
      have h2 := byteLen_append (s.take (s.takeWhile isIdentChar).length) (s.drop (s.takeWhile isIdentChar).length)
      rw [List.take_append_drop, take_takeWhile] at h2
      rw [shift h2, Nat.add_comm]
    · rw [if_neg h, if_neg h, no_end]

example : matchLength r"^[_a-zA-Z][_a-zA-Z0-9]{0,}".toList "_a1é".toList = some 3 := by decide +kernel

end C8S
