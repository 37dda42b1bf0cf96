import Verif.Spec.Lexical
import Verif.Model.Scanner

/- Lemmas on byte slices, character classes, numbers and the position of the scanner. -/

namespace C8S

open Spec

/-! ### Slices -/

@[simp] theorem byteLen_nil : byteLen [] = 0 := rfl

@[simp] theorem byteLen_cons (c : Char) (s : Str) : byteLen (c :: s) = c.utf8Size + byteLen s := by simp [byteLen]

@[simp] theorem byteLen_append (s t : Str) : byteLen (s ++ t) = byteLen s + byteLen t := by simp [byteLen]

theorem length_le_byteLen (s : Str) : s.length ≤ byteLen s := by
  induction s with
  | nil => simp
  | cons c s ih =>
    have := Char.utf8Size_pos c
    simp
    omega

theorem sliceFrom_append (s t : Str) : sliceFrom (s ++ t) (byteLen s) = .ret t := by
  induction s with
  | nil => cases t <;> rfl
  | cons c s ih =>
    have := Char.utf8Size_pos c
    rw [byteLen_cons, List.cons_append]
    obtain ⟨n, hn⟩ : ∃ n, c.utf8Size + byteLen s = n + 1 := ⟨c.utf8Size + byteLen s - 1, by omega⟩
    rw [hn, sliceFrom, if_pos (by omega), ← hn, show c.utf8Size + byteLen s - c.utf8Size = byteLen s by omega]
    exact ih

theorem sliceTo_append (s t : Str) : sliceTo (s ++ t) (byteLen s) = .ret s := by
  induction s with
  | nil => cases t <;> rfl
  | cons c s ih =>
    have := Char.utf8Size_pos c
    rw [byteLen_cons, List.cons_append]
    obtain ⟨n, hn⟩ : ∃ n, c.utf8Size + byteLen s = n + 1 := ⟨c.utf8Size + byteLen s - 1, by omega⟩
    rw [hn, sliceTo, if_pos (by omega), ← hn, show c.utf8Size + byteLen s - c.utf8Size = byteLen s by omega, ih]

theorem slice_middle (a b c : Str) : slice (a ++ (b ++ c)) (byteLen a) (byteLen a + byteLen b) = .ret b := by
  unfold slice
  rw [if_neg (by omega), sliceFrom_append]
  simp only [Run.ret_bind]
  rw [show byteLen a + byteLen b - byteLen a = byteLen b by omega]
  exact sliceTo_append b c

theorem foldl_utf8 (s : Str) (acc : Nat) : s.foldl (fun acc x => acc + x.utf8Size) acc = acc + byteLen s := by
  induction s generalizing acc with
  | nil => simp
  | cons c s ih => simp [ih, Nat.add_assoc]

/-! ### Lines and columns -/

theorem sinceNewline_snoc (s : Str) (c : Char) :
    sinceNewline (s ++ [c]) = if c = '\n' then 0 else sinceNewline s + 1 := by
  unfold sinceNewline
  rw [List.reverse_append]
  simp only [List.reverse_cons, List.reverse_nil, List.nil_append, List.singleton_append, List.takeWhile_cons]
  by_cases h : c = '\n' <;> simp [h]

theorem newlines_append (s t : Str) : newlines (s ++ t) = newlines s + newlines t := by simp [newlines]

theorem newlines_snoc (s : Str) (c : Char) : newlines (s ++ [c]) = newlines s + if c = '\n' then 1 else 0 := by
  rw [newlines_append]
  by_cases h : c = '\n' <;> simp [newlines, h]

theorem advanceLoop_later (s before : Str) (n first : Nat) (hn : n ≠ 0) :
    Scanner.advanceLoop s (n, first, 1 + sinceNewline before) =
      (n + newlines s, first, 1 + sinceNewline (before ++ s)) := by
  induction s generalizing before n with
  | nil => simp [Scanner.advanceLoop, newlines]
  | cons c s ih =>
    have e : before ++ c :: s = (before ++ [c]) ++ s := by simp
    rw [Scanner.advanceLoop]
    simp only [if_neg hn]
    split
    · rename_i hc
      have := ih (before ++ [c]) (n + 1) (by omega)
      rw [sinceNewline_snoc, if_pos hc] at this
      rw [this, e]
      simp [newlines, hc]
      omega
    · rename_i hc
      have := ih (before ++ [c]) n hn
      rw [sinceNewline_snoc, if_neg hc] at this
      rw [show 1 + sinceNewline before + 1 = 1 + (sinceNewline before + 1) by omega, this, e]
      simp [newlines, hc]

theorem advanceLoop_eq (s before : Str) (first : Nat) :
    Scanner.advanceLoop s (0, first, 1 + sinceNewline before) =
      (newlines s, first + firstLine s, 1 + sinceNewline (before ++ s)) := by
  induction s generalizing before first with
  | nil => simp [Scanner.advanceLoop, newlines, firstLine]
  | cons c s ih =>
    have e : before ++ c :: s = (before ++ [c]) ++ s := by simp
    rw [Scanner.advanceLoop]
    simp only [if_pos, firstLine]
    split
    · rename_i hc
      have := advanceLoop_later s (before ++ [c]) 1 (first + 1) (by omega)
      rw [sinceNewline_snoc, if_pos hc] at this
      rw [this, e]
      simp [newlines, hc]
      omega
    · rename_i hc
      have := ih (before ++ [c]) (first + 1)
      rw [sinceNewline_snoc, if_neg hc] at this
      rw [show 1 + sinceNewline before + 1 = 1 + (sinceNewline before + 1) by omega, this, e]
      simp [newlines, hc]
      omega

theorem firstLine_pos {s : Str} (h : s ≠ []) : 0 < firstLine s := by
  cases s with
  | nil => exact (h rfl).elim
  | cons c s =>
    rw [firstLine]
    split <;> omega

/-! ### The position of the scanner -/

/-- The scanner stands between `before` and `rest`. -/
structure At (s : Scanner) (file before rest : Str) : Prop where
  file : s.fileName = file
  input : s.input = before ++ rest
  position : s.position = byteLen before
  line : s.currentLine = 1 + newlines before
  offset : s.currentLineOffset = 1 + sinceNewline before

theorem at_new (file input : Str) : At (Scanner.new file input) file [] input :=
  ⟨rfl, rfl, rfl, by simp [Scanner.new, newlines], by simp [Scanner.new, sinceNewline]⟩

/-- The scanner after moving over `t`. -/
def Scanner.over (s : Scanner) (before t : Str) : Scanner :=
  { s with
    position := byteLen (before ++ t)
    currentLine := 1 + newlines (before ++ t)
    currentLineOffset := 1 + sinceNewline (before ++ t) }

theorem At.over {s : Scanner} {file before t rest : Str} (h : At s file before (t ++ rest)) :
    At (s.over before t) file (before ++ t) rest :=
  ⟨h.file, by simp [Scanner.over, h.input], rfl, rfl, rfl⟩

theorem At.advanceBy {s : Scanner} {file before t rest : Str} (h : At s file before (t ++ rest)) (ht : t ≠ []) :
    s.advanceBy (byteLen t) = .ret (locate file before t, s.over before t) := by
  unfold Scanner.advanceBy
  rw [h.input, h.position, slice_middle, h.file, h.line, h.offset]
  simp only [Run.ret_bind, foldl_utf8, Nat.zero_add, rustAssert, beq_self_eq_true, if_true]
  rw [advanceLoop_eq]
  have := firstLine_pos ht
  simp only [Nat.zero_add, Loc.new]
  rw [if_pos ⟨by omega, by omega, by omega⟩]
  simp only [Run.ret_bind, Run.pure_eq, locate, Scanner.over, newlines_append, byteLen_append, Nat.add_assoc, h.file,
    h.input]

theorem At.sliceFrom {s : Scanner} {file before rest : Str} (h : At s file before rest) :
    C8S.sliceFrom s.input s.position = .ret rest := by
  rw [h.input, h.position]
  exact sliceFrom_append before rest

theorem At.slice {s : Scanner} {file before a t rest : Str} (h : At s file before (a ++ (t ++ rest))) :
    C8S.slice s.input (s.position + byteLen a) (s.position + byteLen a + byteLen t) = .ret t := by
  rw [h.input, h.position, ← List.append_assoc, ← byteLen_append]
  exact slice_middle (before ++ a) t rest

theorem At.charAt {s : Scanner} {file before rest : Str} {c : Char} (h : At s file before (c :: rest)) :
    s.charAt 0 = .ret c := by
  unfold Scanner.charAt
  rw [Nat.add_zero, h.sliceFrom]
  rfl

theorem At.consumeChar {s : Scanner} {file before rest : Str} {c : Char} (h : At s file before (c :: rest)) :
    s.consumeChar = .ret (c, locate file before [c], s.over before [c]) := by
  unfold Scanner.consumeChar
  rw [h.charAt]
  have := At.advanceBy (t := [c]) (rest := rest) h (by simp)
  rw [byteLen_cons, byteLen_nil, Nat.add_zero] at this
  simp only [Run.ret_bind, this, Run.pure_eq]

/-- The scanner after an error. -/
def Scanner.stopped (s : Scanner) : Scanner := { s with position := byteLen s.input }

theorem firstLine_single (c : Char) : firstLine [c] = 1 := by simp [firstLine]

theorem At.fail {s : Scanner} {file before rest : Str} (h : At s file before rest) (e : ScanError) (c : Char) :
    s.fail e = .ret (.error e (locate file before [c]), s.stopped) := by
  unfold Scanner.fail
  rw [h.file, h.line, h.offset, Loc.new, if_pos ⟨by omega, by omega, by omega⟩]
  simp [locate, firstLine_single, Scanner.stopped, h.file, h.line, h.offset]

theorem At.isAtEnd {s : Scanner} {file before rest : Str} (h : At s file before rest) :
    s.isAtEnd = true ↔ rest = [] := by
  unfold Scanner.isAtEnd
  rw [h.input, h.position, byteLen_append]
  simp only [ge_iff_le, decide_eq_true_eq]
  constructor
  · intro hle
    have := length_le_byteLen rest
    exact List.length_eq_zero_iff.1 (by omega)
  · rintro rfl
    simp

/-! ### Character classes -/

theorem char_le_iff (a b : Char) : a ≤ b ↔ a.toNat ≤ b.toNat := Iff.rfl

theorem isWhite_iff (c : Char) : isWhite c = true ↔ c.toNat ∈ whiteSpace := by
  unfold isWhite whiteSpace
  simp only [Bool.or_eq_true, Bool.and_eq_true, decide_eq_true_eq, beq_iff_eq, List.mem_cons, List.not_mem_nil, or_false]
  omega

theorem isBlank_iff (c : Char) : isBlank c = true ↔ Blank c := by
  simp only [isBlank, Blank, Bool.and_eq_true, isWhite_iff, bne_iff_ne]

theorem isDec_iff (c : Char) : isDec c = true ↔ Decimal c := by simp [isDec, Decimal]

theorem isHex_iff (c : Char) : isHex c = true ↔ Hexadecimal c := by simp [isHex, Hexadecimal, isDec_iff, or_assoc]

theorem isBin_iff (c : Char) : isBin c = true ↔ Binary c := by
  simp [isBin, Binary]
  constructor
  · rintro ((h | h) | h) <;> simp [h]
  · rintro (h | h | h) <;> simp [h]

theorem isIdentStart_iff (c : Char) : isIdentStart c = true ↔ NameStart c := by
  simp [isIdentStart, NameStart, or_assoc]

theorem isIdentChar_iff (c : Char) : isIdentChar c = true ↔ NameChar c := by
  simp [isIdentChar, NameChar, isDec_iff, isIdentStart_iff]

/-! ### Runs of characters -/

theorem matchRun_eq (p : Char → Bool) (s : Str) :
    matchRun p s = if s.takeWhile p = [] then none else some (byteLen (s.takeWhile p)) := by
  unfold matchRun
  split <;> simp_all

/-- A prefix all of whose characters satisfy `p` is not longer than the run. -/
theorem prefix_le_run {p : Char → Bool} {s t r : Str} (h : t ++ r = s) (ht : ∀ c ∈ t, p c = true) :
    t.length ≤ (s.takeWhile p).length := by
  subst h
  rw [List.takeWhile_append_of_pos ht]
  simp

theorem run_split (p : Char → Bool) (s : Str) : s = s.takeWhile p ++ s.dropWhile p := (List.takeWhile_append_dropWhile).symm

theorem run_all (p : Char → Bool) (s : Str) : ∀ c ∈ s.takeWhile p, p c = true := by
  intro c hc
  have := List.all_takeWhile (p := p) (l := s)
  exact List.all_eq_true.1 this c hc

/-! ### Numbers -/

theorem toDigit_hexadecimal {c : Char} (h : Hexadecimal c) : toDigit 16 c = some (digitVal c) := by
  have key : ∀ n : Fin 128, Hexadecimal (Char.ofNat n.val) → toDigit 16 (Char.ofNat n.val) = some (digitVal (Char.ofNat n.val)) := by
    decide +kernel
  have hlt : c.toNat < 128 := by
    unfold Hexadecimal Decimal at h
    simp only [char_le_iff] at h
    rcases h with h | h | h <;> have := h.2 <;> simp at this <;> omega
  have := key ⟨c.toNat, hlt⟩
  simp only [Char.ofNat_toNat] at this
  exact this h

theorem toDigit_decimal {c : Char} (h : Decimal c) : toDigit 10 c = some (digitVal c) := by
  have key : ∀ n : Fin 128, Decimal (Char.ofNat n.val) → toDigit 10 (Char.ofNat n.val) = some (digitVal (Char.ofNat n.val)) := by
    decide +kernel
  have hlt : c.toNat < 128 := by
    unfold Decimal at h
    simp only [char_le_iff] at h
    have := h.2
    simp at this
    omega
  have := key ⟨c.toNat, hlt⟩
  simp only [Char.ofNat_toNat] at this
  exact this h

theorem foldl_ge (base : Nat) (hb : 1 ≤ base) (s : Str) (acc : Nat) :
    acc ≤ s.foldl (fun acc c => acc * base + digitVal c) acc := by
  induction s generalizing acc with
  | nil => exact Nat.le_refl _
  | cons c s ih =>
    rw [List.foldl_cons]
    have h1 := ih (acc * base + digitVal c)
    have h2 : acc ≤ acc * base := Nat.le_mul_of_pos_right _ hb
    omega

theorem radixDigits_eq {bits radix : Nat} (hr : 1 ≤ radix) (s : Str) (hs : ∀ c ∈ s, toDigit radix c = some (digitVal c))
    (acc : Nat) (ha : acc < 2 ^ bits) :
    radixDigits bits radix s acc =
      if s.foldl (fun acc c => acc * radix + digitVal c) acc < 2 ^ bits
      then some (s.foldl (fun acc c => acc * radix + digitVal c) acc) else none := by
  induction s generalizing acc with
  | nil => simp [radixDigits, ha]
  | cons c s ih =>
    rw [radixDigits, hs c List.mem_cons_self, List.foldl_cons]
    simp only
    split
    · rename_i h
      exact ih (fun d hd => hs d (List.mem_cons_of_mem _ hd)) _ h
    · rename_i h
      have := foldl_ge radix hr s (acc * radix + digitVal c)
      rw [if_neg (by omega)]

theorem fromStrRadix_eq {bits radix : Nat} (hr : 1 ≤ radix) {s : Str} (hne : s ≠ []) (hp : '+' ∉ s)
    (hs : ∀ c ∈ s, toDigit radix c = some (digitVal c)) :
    fromStrRadix bits radix s = if positional radix s < 2 ^ bits then some (positional radix s) else none := by
  have : fromStrRadix bits radix s = radixDigits bits radix s 0 := by
    unfold fromStrRadix
    split
    · exact (hne rfl).elim
    · simp at hp
    · simp at hp
    · rfl
  rw [this, radixDigits_eq hr s hs 0 (Nat.two_pow_pos bits)]
  rfl

theorem digitVal_hex_lt {c : Char} (h : Hexadecimal c) : digitVal c < 16 := by
  have := toDigit_hexadecimal h
  unfold toDigit at this
  simp only at this
  split at this
  · split at this
    · injection this with this
      omega
    · cases this
  · cases this

theorem positional_lt (base : Nat) (s : Str) (h : ∀ c ∈ s, digitVal c < base) :
    positional base s < base ^ s.length := by
  have key : ∀ (s : Str) (acc : Nat), (∀ c ∈ s, digitVal c < base) →
      s.foldl (fun acc c => acc * base + digitVal c) acc < (acc + 1) * base ^ s.length := by
    intro s
    induction s with
    | nil => intro acc _; simp
    | cons c s ih =>
      intro acc h
      rw [List.foldl_cons]
      have h1 := ih (acc * base + digitVal c) fun d hd => h d (List.mem_cons_of_mem _ hd)
      have h2 := h c List.mem_cons_self
      refine Nat.lt_of_lt_of_le h1 ?_
      rw [List.length_cons, Nat.pow_succ, Nat.mul_comm (base ^ s.length) base, ← Nat.mul_assoc]
      refine Nat.mul_le_mul_right _ ?_
      rw [Nat.add_mul]
      omega
  have := key s 0 h
  simpa [positional] using this

theorem shift_word {b : Nat} (hb : 16 ≤ b) (a : Nat) : a % 2 ^ b * 2 % 2 ^ b = 2 * (a % 2 ^ (b - 1)) := by
  obtain ⟨k, rfl⟩ : ∃ k, b = k + 1 := ⟨b - 1, by omega⟩
  rw [Nat.add_sub_cancel, Nat.pow_succ, ← Nat.mul_mod_mod (a % (2 ^ k * 2)), Nat.mul_mod_mod]
  rw [Nat.mul_mod_mul_right, Nat.mod_mod_of_dvd _ (Nat.dvd_mul_right ..), Nat.mul_comm]

theorem shift_in {b : Nat} (hb : 16 ≤ b) (a d : Nat) (hd : d < 2) :
    a % 2 ^ b * 2 % 2 ^ b ||| d = (a * 2 + d) % 2 ^ b := by
  rw [shift_word hb, ← Nat.pow_one 2, ← Nat.two_pow_add_eq_or_of_lt (i := 1) (by omega)]
  obtain ⟨k, rfl⟩ : ∃ k, b = k + 1 := ⟨b - 1, by omega⟩
  rw [Nat.add_sub_cancel, Nat.pow_one, Nat.pow_succ, Nat.mul_comm a 2, Nat.mul_comm (2 ^ k) 2, Nat.mod_mul]
  have h1 : (2 * a + d) % 2 = d := by omega
  have h2 : (2 * a + d) / 2 = a := by omega
  rw [h1, h2]
  omega

theorem binLoop_eq [target : Target] (s : Str) (hs : ∀ c ∈ s, Binary c) (acc acc' : Nat) (h : acc = acc' % 2 ^ usizeBits) :
    binLoop s acc = .ok (s.foldl (fun acc c => acc * 2 + digitVal c) acc' % 2 ^ usizeBits) := by
  induction s generalizing acc acc' with
  | nil => simp [binLoop, h]
  | cons c s ih =>
    have hc := hs c List.mem_cons_self
    have ih := ih fun d hd => hs d (List.mem_cons_of_mem _ hd)
    rw [List.foldl_cons]
    have key : ∀ b : Nat, b < 2 → (acc <<< 1) % 2 ^ usizeBits ||| b = (acc' * 2 + b) % 2 ^ usizeBits := by
      intro b hb
      rw [Nat.shiftLeft_eq, Nat.pow_one, h]
      exact shift_in target.wide acc' b hb
    rw [binLoop]
    rcases hc with rfl | rfl | rfl
    · exact ih _ _ (key 0 (by omega))
    · exact ih _ _ (key 0 (by omega))
    · exact ih _ _ (key 1 (by omega))

theorem parse12_eq [Target] {s : Str} (hs : ∀ c ∈ s, Binary c) :
    parse12BitBinStr s = if wordBinary s ≤ 4095 then .ok (wordBinary s) else .error (.binaryLiteralOutOfRange s) := by
  unfold parse12BitBinStr
  rw [binLoop_eq s hs 0 0 (by simp)]
  rfl

end C8S
