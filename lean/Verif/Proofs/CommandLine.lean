import Verif.Model.Options
import Verif.Spec.CommandLine

/- Lemmas relating the option parser to the description of the command line. -/

namespace C8S

open Options Spec

namespace CommandLine

def optOutput : Opt := ⟨"output".toList, 'o', true, "<file>".toList, "Write output to <file>".toList⟩
def optHelp : Opt := ⟨"help".toList, 'h', false, [], "Display available options".toList⟩
def optVersion : Opt := ⟨"version".toList, 'v', false, [], "Display version information".toList⟩

/-- What a thing said adds to `vals`. -/
def asVal : Said → Option (Opt × Option Str)
  | .output path => some (optOutput, some path)
  | .help => some (optHelp, none)
  | .version => some (optVersion, none)
  | .word _ => none

def add (acc : Collected) (said : List Said) : Collected :=
  ⟨acc.vals ++ said.filterMap asVal, acc.free ++ files said⟩

def asFail : Fault → Fail
  | .unknown name => .unrecognizedOption name
  | .needsArgument name => .argumentMissing name
  | .takesNoArgument name => .unexpectedArgument name
  | .repeated name => .optionDuplicated name

theorem asFail_display (f : Fault) : (asFail f).display = f.message := by
  cases f <;> rfl

theorem add_nil (acc : Collected) : add acc [] = acc := by simp [add, files]

theorem add_append (acc : Collected) (a b : List Said) : add acc (a ++ b) = add (add acc a) b := by
  simp [add, files, List.append_assoc]

theorem flags_files {letters said} (h : Flags letters said) : files said = [] := by
  induction h with
  | nil => rfl
  | help _ ih => simpa [files] using ih
  | version _ ih => simpa [files] using ih

theorem findOpt_o : findOpt (.short 'o') = some optOutput := by decide +kernel
theorem findOpt_h : findOpt (.short 'h') = some optHelp := by decide +kernel
theorem findOpt_v : findOpt (.short 'v') = some optVersion := by decide +kernel
theorem findOpt_output : findOpt (.long "output".toList) = some optOutput := by decide +kernel
theorem findOpt_help : findOpt (.long "help".toList) = some optHelp := by decide +kernel
theorem findOpt_version : findOpt (.long "version".toList) = some optVersion := by decide +kernel

theorem findOpt_short_none {c : Char} (h : c ∉ "ohv".toList) : findOpt (.short c) = none := by
  have e : "ohv".toList = ['o', 'h', 'v'] := rfl
  rw [e] at h
  simp only [List.mem_cons, List.not_mem_nil, or_false, not_or] at h
  simp [findOpt, table, Ne.symm h.1, Ne.symm h.2.1, Ne.symm h.2.2]

theorem findOpt_long_none {s : Str} (h : s ∉ longNames) : findOpt (.long s) = none := by
  simp only [longNames, List.mem_cons, List.not_mem_nil, or_false, not_or] at h
  simp only [findOpt, table, List.find?_eq_none, List.mem_cons, List.not_mem_nil, or_false]
  intro o ho
  rcases ho with rfl | rfl | rfl
  · simp only [decide_eq_true_eq]
    exact Ne.symm h.1
  · simp only [decide_eq_true_eq]
    exact Ne.symm h.2.1
  · simp only [decide_eq_true_eq]
    exact Ne.symm h.2.2

/-- The names of flags. -/
def flagNames : Str → List Name := List.map Name.short

theorem cluster_flags {letters said} (h : Flags letters said) (more : Str) :
    cluster (letters ++ more) =
      match cluster more with
      | .error e => .error e
      | .ok (names, arg) => .ok (flagNames letters ++ names, arg) := by
  induction h with
  | nil =>
    rw [List.nil_append]
    cases cluster more with
    | error e => rfl
    | ok x => rfl
  | help _ ih =>
    rw [List.cons_append, cluster, findOpt_h]
    simp only [optHelp, Bool.false_eq_true, false_and, if_false, ih]
    cases cluster more <;> simp [flagNames]
  | version _ ih =>
    rw [List.cons_append, cluster, findOpt_v]
    simp only [optVersion, Bool.false_eq_true, false_and, if_false, ih]
    cases cluster more <;> simp [flagNames]

theorem applyNames_flags {letters said} (h : Flags letters said) (names : List Name) (arg : Option Str)
    (rest : List Str) (acc : Collected) (ha : names ≠ [] ∨ arg = none) :
    applyNames (flagNames letters ++ names) arg rest acc = applyNames names arg rest (add acc said) := by
  induction h generalizing acc with
  | nil => simp [flagNames, add_nil]
  | @help l s hf ih =>
    have e : flagNames ('h' :: l) ++ names = .short 'h' :: (flagNames l ++ names) := rfl
    have hn : ¬ (flagNames l ++ names = [] ∧ arg ≠ none) := by
      rintro ⟨h1, h2⟩
      rcases ha with ha | ha
      · exact ha (List.append_eq_nil_iff.mp h1).2
      · exact h2 ha
    rw [e, applyNames, findOpt_h]
    simp only [optHelp, Bool.false_eq_true, if_false]
    rw [if_neg hn, ih]
    have : add acc (.help :: s) = add (add acc [.help]) s := add_append acc [.help] s
    rw [this]
    simp [add, asVal, files, optHelp]
  | @version l s hf ih =>
    have e : flagNames ('v' :: l) ++ names = .short 'v' :: (flagNames l ++ names) := rfl
    have hn : ¬ (flagNames l ++ names = [] ∧ arg ≠ none) := by
      rintro ⟨h1, h2⟩
      rcases ha with ha | ha
      · exact ha (List.append_eq_nil_iff.mp h1).2
      · exact h2 ha
    rw [e, applyNames, findOpt_v]
    simp only [optVersion, Bool.false_eq_true, if_false]
    rw [if_neg hn, ih]
    have : add acc (.version :: s) = add (add acc [.version]) s := add_append acc [.version] s
    rw [this]
    simp [add, asVal, files, optVersion]

theorem splitEq_plain {s : Str} (h : '=' ∉ s) : splitEq s = (s, none) := by
  induction s with
  | nil => rfl
  | cons c r ih =>
    simp only [List.mem_cons, not_or] at h
    rw [splitEq, if_neg (fun e => h.1 e.symm), ih h.2]

theorem splitEq_eq {s : Str} (v : Str) (h : '=' ∉ s) : splitEq (s ++ '=' :: v) = (s, some v) := by
  induction s with
  | nil => simp [splitEq]
  | cons c r ih =>
    simp only [List.mem_cons, not_or] at h
    rw [List.cons_append, splitEq, if_neg (fun e => h.1 e.symm), ih h.2]

theorem split_at_eq (s : Str) : '=' ∉ s ∨ ∃ a v, s = a ++ '=' :: v ∧ '=' ∉ a := by
  induction s with
  | nil => simp
  | cons c r ih =>
    by_cases hc : c = '='
    · exact .inr ⟨[], r, by simp [hc], by simp⟩
    · rcases ih with h | ⟨a, v, rfl, h⟩
      · exact .inl (by simp [h, Ne.symm hc])
      · exact .inr ⟨c :: a, v, by simp, by simp [h, Ne.symm hc]⟩

/-- One turn of the loop for a word of options. -/
theorem collect_word {word : Str} (fuel : Nat) (rest : List Str) (acc : Collected) (h1 : isArg word = true)
    (h2 : word ≠ "--".toList) :
    collect (fuel + 1) (word :: rest) acc =
      match namesOf word with
      | .error e => .ret (.error e)
      | .ok (names, arg) =>
        match applyNames names arg rest acc with
        | .error e => .ret (.error e)
        | .ok (acc, rest) => collect fuel rest acc := by
  rw [collect, if_neg (by simp [h1]), if_neg h2]
  cases namesOf word with
  | error e => rfl
  | ok x => rfl

theorem plain_isArg {w : Str} (h : Plain w) : isArg w = false := by
  rcases h with rfl | h
  · rfl
  · cases w with
    | nil => rfl
    | cons c r =>
      have : c ≠ '-' := fun e => h (by simp [e])
      unfold isArg
      split
      · rename_i e; cases e; exact absurd rfl this
      · rfl

/-- A letter of the cluster is not a dash, so the word is not a long option. -/
theorem namesOf_cluster {letters : Str} (h : letters.head? ≠ some '-') :
    namesOf ('-' :: letters) = cluster letters := by
  cases letters with
  | nil => rfl
  | cons c r =>
    have hc : c ≠ '-' := fun e => h (by simp [e])
    unfold namesOf
    split
    · rename_i e; cases e; exact absurd rfl hc
    · rename_i e; cases e; rfl
    · rename_i h1 h2; exact absurd rfl (h2 _)

theorem flags_head {letters said} (h : Flags letters said) : letters.head? ≠ some '-' := by
  cases h <;> simp

theorem flags_append_head {letters said} (h : Flags letters said) {more : Str}
    (hm : letters = [] → more.head? ≠ some '-') : (letters ++ more).head? ≠ some '-' := by
  cases h with
  | nil => simpa using hm rfl
  | help _ => simp
  | version _ => simp

theorem isArg_dash {c : Char} {r : Str} : isArg ('-' :: c :: r) = true := rfl

theorem isArg_ne {s : Str} (h : s ≠ []) : isArg ('-' :: s) = true := by
  cases s with
  | nil => exact absurd rfl h
  | cons => rfl

theorem not_stop {s : Str} (h : s.head? ≠ some '-') : '-' :: s ≠ "--".toList := by
  intro e
  have : s = ['-'] := (List.cons.inj (show '-' :: s = ['-', '-'] from e)).2
  rw [this] at h
  exact h rfl

theorem namesOf_long (s : Str) : namesOf ('-' :: '-' :: s) = .ok ([.long (splitEq s).1], (splitEq s).2) := rfl

theorem long_not_stop {s : Str} (h : s ≠ []) : '-' :: '-' :: s ≠ "--".toList := by
  intro e
  have : s = [] := (List.cons.inj (List.cons.inj (show '-' :: '-' :: s = ['-', '-'] from e)).2).2
  exact h this

/-- One item is one turn of the loop. -/
theorem collect_item {words said rest} (h : Item words said rest) (fuel : Nat) (acc : Collected) :
    collect (fuel + 1) words acc = collect fuel rest (add acc said) := by
  cases h with
  | word hw =>
    rw [collect, if_pos (plain_isArg hw)]
    simp [add, asVal, files, List.filterMap_cons]
  | help =>
    rw [collect_word _ _ _ (by decide) (by decide)]
    have : namesOf "--help".toList = .ok ([.long "help".toList], none) := rfl
    simp only [this, applyNames, findOpt_help]
    simp [optHelp, add, asVal, files]
  | version =>
    rw [collect_word _ _ _ (by decide) (by decide)]
    have : namesOf "--version".toList = .ok ([.long "version".toList], none) := rfl
    simp only [this, applyNames, findOpt_version]
    simp [optVersion, add, asVal, files]
  | output =>
    rw [collect_word _ _ _ (by decide) (by decide)]
    have : namesOf "--output".toList = .ok ([.long "output".toList], none) := rfl
    simp only [this, applyNames, findOpt_output]
    simp [optOutput, add, asVal, files]
  | @outputEq path _ =>
    have e : "--output=".toList ++ path = '-' :: '-' :: ("output".toList ++ '=' :: path) := rfl
    rw [e, collect_word _ _ _ rfl (long_not_stop (by simp)), namesOf_long, splitEq_eq _ (by decide)]
    simp only [applyNames, findOpt_output]
    simp [optOutput, add, asVal, files]
  | @flags letters said _ hf hne =>
    rw [collect_word _ _ _ (isArg_ne hne) (not_stop (flags_head hf)), namesOf_cluster (flags_head hf)]
    have hc := cluster_flags hf []
    rw [List.append_nil] at hc
    simp only [hc, cluster]
    rw [applyNames_flags hf [] none _ _ (.inr rfl)]
    simp only [applyNames]
  | @short letters said path _ hf =>
    have hh := flags_append_head hf (more := "o".toList) (fun _ => by decide)
    rw [List.cons_append, collect_word _ _ _ (isArg_ne (by simp)) (not_stop hh), namesOf_cluster hh, cluster_flags hf]
    have : cluster "o".toList = .ok ([.short 'o'], none) := rfl
    simp only [this]
    rw [applyNames_flags hf [.short 'o'] none _ _ (.inr rfl), applyNames, findOpt_o]
    simp only [optOutput, if_true, applyNames, add_append]
    simp [add, asVal, files, optOutput]
  | @attached letters said path _ hf hp =>
    have hh := flags_append_head hf (more := "o".toList ++ path) (fun _ => by simp)
    rw [List.cons_append, List.cons_append, List.append_assoc,
      collect_word _ _ _ (isArg_ne (by simp)) (not_stop hh), namesOf_cluster hh, cluster_flags hf]
    have : cluster ("o".toList ++ path) = .ok ([.short 'o'], some path) := by
      show cluster ('o' :: path) = _
      rw [cluster, findOpt_o]
      simp [optOutput, hp]
    simp only [this]
    rw [applyNames_flags hf [.short 'o'] (some path) _ _ (.inl (by simp)), applyNames, findOpt_o]
    simp only [optOutput, if_true, applyNames, add_append]
    simp [add, asVal, files, optOutput]

theorem collect_bad {words fault} (h : BadItem words fault) (fuel : Nat) (acc : Collected) :
    collect (fuel + 1) words acc = .ret (.error (asFail fault)) := by
  cases h with
  | @long name rest hne he hn =>
    show collect _ (('-' :: '-' :: name) :: rest) _ = _
    rw [collect_word _ _ _ rfl (long_not_stop hne), namesOf_long, splitEq_plain he]
    simp only [applyNames, findOpt_long_none hn]
    rfl
  | @longEq name value rest he hn =>
    have e : "--".toList ++ name ++ "=".toList ++ value = '-' :: '-' :: (name ++ '=' :: value) := by
      simp
    rw [e, collect_word _ _ _ rfl (long_not_stop (by simp)), namesOf_long, splitEq_eq _ he]
    simp only [applyNames, findOpt_long_none hn]
    rfl
  | @help value rest =>
    have e : "--help=".toList ++ value = '-' :: '-' :: ("help".toList ++ '=' :: value) := rfl
    rw [e, collect_word _ _ _ rfl (long_not_stop (by simp)), namesOf_long, splitEq_eq _ (by decide)]
    simp only [applyNames, findOpt_help]
    simp [optHelp, asFail, Name.show]
  | @version value rest =>
    have e : "--version=".toList ++ value = '-' :: '-' :: ("version".toList ++ '=' :: value) := rfl
    rw [e, collect_word _ _ _ rfl (long_not_stop (by simp)), namesOf_long, splitEq_eq _ (by decide)]
    simp only [applyNames, findOpt_version]
    simp [optVersion, asFail, Name.show]
  | output =>
    rw [collect_word _ _ _ (by decide) (by decide)]
    have : namesOf "--output".toList = .ok ([.long "output".toList], none) := rfl
    simp only [this, applyNames, findOpt_output]
    simp [optOutput, asFail, Name.show]
  | @letter letters said c more rest hf hc hd =>
    have hh := flags_append_head hf (more := c :: more) (fun e => by simpa using hd e)
    rw [List.cons_append, collect_word _ _ _ (isArg_ne (by simp)) (not_stop hh), namesOf_cluster hh, cluster_flags hf]
    simp only [cluster, findOpt_short_none hc]
    rfl
  | @short letters said hf =>
    have hh := flags_append_head hf (more := "o".toList) (fun _ => by decide)
    rw [List.cons_append, collect_word _ _ _ (isArg_ne (by simp)) (not_stop hh), namesOf_cluster hh, cluster_flags hf]
    have : cluster "o".toList = .ok ([.short 'o'], none) := rfl
    simp only [this]
    rw [applyNames_flags hf [.short 'o'] none _ _ (.inr rfl), applyNames, findOpt_o]
    simp [optOutput, asFail, Name.show]

/-- The letters of a word are flags up to the first other letter. -/
theorem letters_split (s : Str) : (∃ said, Flags s said) ∨
    ∃ letters said c more, Flags letters said ∧ s = letters ++ c :: more ∧ c ≠ 'h' ∧ c ≠ 'v' := by
  induction s with
  | nil => exact .inl ⟨[], .nil⟩
  | cons c r ih =>
    by_cases hh : c = 'h'
    · subst hh
      rcases ih with ⟨said, h⟩ | ⟨l, said, d, more, h, rfl, h1, h2⟩
      · exact .inl ⟨_, .help h⟩
      · exact .inr ⟨_, _, d, more, .help h, rfl, h1, h2⟩
    · by_cases hv : c = 'v'
      · subst hv
        rcases ih with ⟨said, h⟩ | ⟨l, said, d, more, h, rfl, h1, h2⟩
        · exact .inl ⟨_, .version h⟩
        · exact .inr ⟨_, _, d, more, .version h, rfl, h1, h2⟩
      · exact .inr ⟨[], [], c, r, .nil, rfl, hh, hv⟩

/-- Every word starts an item, or something that cannot be understood, or is `--`. -/
theorem item_or_bad (w : Str) (rest : List Str) :
    w = "--".toList ∨ (∃ said rest', Item (w :: rest) said rest' ∧ rest'.length ≤ rest.length) ∨
      ∃ fault, BadItem (w :: rest) fault := by
  by_cases hp : Plain w
  · exact .inr (.inl ⟨_, _, .word hp, Nat.le_refl _⟩)
  unfold Plain at hp
  rw [not_or] at hp
  obtain ⟨h1, h2⟩ := hp
  cases w with
  | nil => simp at h2
  | cons c s =>
    simp only [List.head?_cons, ne_eq, Option.some.injEq, Decidable.not_not] at h2
    subst h2
    have hs : s ≠ [] := fun e => h1 (by rw [e]; rfl)
    by_cases hd : s.head? = some '-'
    · -- a long option
      cases s with
      | nil => exact absurd rfl hs
      | cons d name =>
        simp only [List.head?_cons, Option.some.injEq] at hd
        subst hd
        by_cases hne : name = []
        · subst hne; exact .inl rfl
        refine .inr ?_
        rcases split_at_eq name with he | ⟨n, v, rfl, he⟩
        · by_cases ho : name ∈ longNames
          · simp only [longNames, List.mem_cons, List.not_mem_nil, or_false] at ho
            rcases ho with rfl | rfl | rfl
            · cases rest with
              | nil => exact .inr ⟨_, .output⟩
              | cons p rest => exact .inl ⟨_, _, .output, by simp⟩
            · exact .inl ⟨_, _, .help, Nat.le_refl _⟩
            · exact .inl ⟨_, _, .version, Nat.le_refl _⟩
          · exact .inr ⟨_, .long hne he ho⟩
        · by_cases ho : n ∈ longNames
          · simp only [longNames, List.mem_cons, List.not_mem_nil, or_false] at ho
            rcases ho with rfl | rfl | rfl
            · exact .inl ⟨_, _, .outputEq (path := v), Nat.le_refl _⟩
            · exact .inr ⟨_, .help (value := v)⟩
            · exact .inr ⟨_, .version (value := v)⟩
          · have := BadItem.longEq (value := v) (rest := rest) he ho
            simp only [List.append_assoc] at this
            exact .inr ⟨_, this⟩
    · refine .inr ?_
      rcases letters_split s with ⟨said, h⟩ | ⟨l, said, d, more, h, rfl, hd1, hd2⟩
      · exact .inl ⟨_, _, .flags h hs, Nat.le_refl _⟩
      · by_cases hdo : d = 'o'
        · subst hdo
          by_cases hm : more = []
          · subst hm
            cases rest with
            | nil => exact .inr ⟨_, .short h⟩
            | cons p rest => exact .inl ⟨_, _, .short h, by simp⟩
          · have := Item.attached (rest := rest) h hm
            simp only [List.append_assoc, List.cons_append] at this
            exact .inl ⟨_, _, this, Nat.le_refl _⟩
        · refine .inr ⟨_, .letter h ?_ ?_⟩
          · have e : "ohv".toList = ['o', 'h', 'v'] := rfl
            rw [e]
            simp [hdo, hd1, hd2]
          · rintro rfl rfl
            exact hd rfl

theorem item_shorter {words said rest} (hi : Item words said rest) : rest.length < words.length := by
  cases hi <;> simp only [List.length_cons] <;> omega

/-- The whole command line: read, or faulty, and the answer of the parser's loop. -/
theorem collect_all (n : Nat) : ∀ (words : List Str) (acc : Collected), words.length < n →
    (∃ said, Says words said ∧ collect n words acc = .ret (.ok (add acc said))) ∨
      ∃ fault, Unreadable words fault ∧ collect n words acc = .ret (.error (asFail fault)) := by
  induction n with
  | zero => intro words _ h; exact absurd h (Nat.not_lt_zero _)
  | succ n ih =>
    intro words acc h
    cases words with
    | nil => exact .inl ⟨[], .nil, by rw [collect, add_nil]⟩
    | cons w rest =>
      rcases item_or_bad w rest with rfl | ⟨said, rest', hi, hl⟩ | ⟨fault, hb⟩
      · refine .inl ⟨_, .stop, ?_⟩
        rw [collect, if_neg (by decide), if_pos rfl]
        have e1 : (rest.map Said.word).filterMap asVal = [] := by
          simp [List.filterMap_eq_nil_iff, asVal]
        have e2 : files (rest.map Said.word) = rest := by
          simp only [files, List.filterMap_map]
          exact List.filterMap_some
        simp [add, e1, e2]
      · rw [collect_item hi]
        simp only [List.length_cons] at h
        rcases ih rest' (add acc said) (by omega) with ⟨more, hm, e⟩ | ⟨fault, hu, e⟩
        · exact .inl ⟨_, .item hi hm, by rw [e, add_append]⟩
        · exact .inr ⟨_, .later hi hu, e⟩
      · exact .inr ⟨_, .here hb, collect_bad hb _ _⟩

/-- Reading determines the answer of the loop. -/
theorem collect_says {words said} (h : Says words said) (fuel : Nat) (hf : words.length < fuel)
    (acc : Collected) : collect fuel words acc = .ret (.ok (add acc said)) := by
  induction h generalizing fuel acc with
  | nil =>
    cases fuel with
    | zero => exact absurd hf (Nat.not_lt_zero _)
    | succ fuel => rw [collect, add_nil]
  | @stop rest =>
    cases fuel with
    | zero => exact absurd hf (Nat.not_lt_zero _)
    | succ fuel =>
      rw [collect, if_neg (by decide), if_pos rfl]
      have e1 : (rest.map Said.word).filterMap asVal = [] := by
        simp [List.filterMap_eq_nil_iff, asVal]
      have e2 : files (rest.map Said.word) = rest := by
        simp only [files, List.filterMap_map]
        exact List.filterMap_some
      simp [add, e1, e2]
  | @item words said rest more hi hs ih =>
    cases fuel with
    | zero => exact absurd hf (Nat.not_lt_zero _)
    | succ fuel =>
      rw [collect_item hi, add_append]
      refine ih _ ?_ _
      have := item_shorter hi
      omega

theorem collect_unreadable {words fault} (h : Unreadable words fault) (fuel : Nat) (hf : words.length < fuel)
    (acc : Collected) : collect fuel words acc = .ret (.error (asFail fault)) := by
  induction h generalizing fuel acc with
  | @here words fault hb =>
    cases fuel with
    | zero => exact absurd hf (Nat.not_lt_zero _)
    | succ fuel => exact collect_bad hb _ _
  | later hi _ ih =>
    cases fuel with
    | zero => exact absurd hf (Nat.not_lt_zero _)
    | succ fuel =>
      rw [collect_item hi]
      have := item_shorter hi
      exact ih _ (by omega) _

/-! Counting. -/

theorem valuesOf_output (said : List Said) :
    valuesOf (add ⟨[], []⟩ said) optOutput = (outputs said).map (fun p => (optOutput, some p)) := by
  have h1 : ¬ optHelp = optOutput := by decide
  have h2 : ¬ optVersion = optOutput := by decide
  unfold valuesOf add outputs
  induction said with
  | nil => rfl
  | cons s said ih =>
    cases s <;> simp_all [asVal, List.filterMap_cons]

theorem valuesOf_help (said : List Said) :
    (valuesOf (add ⟨[], []⟩ said) optHelp).length = said.count .help := by
  have h1 : ¬ optOutput = optHelp := by decide
  have h2 : ¬ optVersion = optHelp := by decide
  unfold valuesOf add
  induction said with
  | nil => rfl
  | cons s said ih =>
    cases s <;> simp_all [asVal, List.filterMap_cons]

theorem valuesOf_version (said : List Said) :
    (valuesOf (add ⟨[], []⟩ said) optVersion).length = said.count .version := by
  have h1 : ¬ optOutput = optVersion := by decide
  have h2 : ¬ optHelp = optVersion := by decide
  unfold valuesOf add
  induction said with
  | nil => rfl
  | cons s said ih =>
    cases s <;> simp_all [asVal, List.filterMap_cons]

theorem table_eq : table = [optOutput, optHelp, optVersion] := rfl

theorem once_iff (said : List Said) : firstDuplicated (add ⟨[], []⟩ said) = none ↔ Once said := by
  unfold firstDuplicated
  rw [table_eq]
  simp only [List.find?_eq_none, List.mem_cons, List.not_mem_nil, or_false, forall_eq_or_imp, forall_eq,
    valuesOf_output, valuesOf_help, valuesOf_version, List.length_map, gt_iff_lt, decide_eq_true_eq, Once]
  omega

theorem twice_iff (said : List Said) (fault : Fault) : Twice said fault ↔
    ∃ opt, firstDuplicated (add ⟨[], []⟩ said) = some opt ∧ fault = .repeated opt.long := by
  unfold firstDuplicated
  rw [table_eq]
  simp only [List.find?_cons, List.find?_nil, valuesOf_output, valuesOf_help, valuesOf_version, List.length_map,
    gt_iff_lt]
  constructor
  · intro h
    cases h with
    | output h => exact ⟨optOutput, by simp [h], rfl⟩
    | help h1 h2 => exact ⟨optHelp, by simp [Nat.not_lt.mpr h1, h2], rfl⟩
    | version h1 h2 h3 => exact ⟨optVersion, by simp [Nat.not_lt.mpr h1, Nat.not_lt.mpr h2, h3], rfl⟩
  · rintro ⟨opt, h, rfl⟩
    by_cases h1 : 1 < (outputs said).length
    · simp only [h1, decide_true] at h
      cases h
      exact .output h1
    · simp only [h1, decide_false] at h
      by_cases h2 : 1 < said.count .help
      · simp only [h2, decide_true] at h
        cases h
        exact .help (Nat.not_lt.mp h1) h2
      · simp only [h2, decide_false] at h
        by_cases h3 : 1 < said.count .version
        · simp only [h3, decide_true] at h
          cases h
          exact .version (Nat.not_lt.mp h1) (Nat.not_lt.mp h2) h3
        · simp [h3] at h

/-- The matches a reading gives. -/
def matchesOf (said : List Said) : Matches :=
  { help := said.count .help > 0, version := said.count .version > 0, output := (outputs said).head?,
    free := files said }

theorem getopts_says {words said} (h : Says words said) (ho : Once said) :
    getopts0214.parse words = .ok (matchesOf said) := by
  have hc := collect_says h (words.length + 1) (Nat.lt_succ_self _) ⟨[], []⟩
  have hd := (once_iff said).mpr ho
  simp only [getopts0214, parseArguments, hc, hd, optPresent, optStr, findOpt_h, findOpt_v, findOpt_o,
    valuesOf_output, valuesOf_help, valuesOf_version, matchesOf]
  congr 2
  cases outputs said <;> rfl

theorem getopts_wrong {words fault} (h : Wrong words fault) :
    getopts0214.parse words = .error fault.message := by
  cases h with
  | unreadable h =>
    have hc := collect_unreadable h (words.length + 1) (Nat.lt_succ_self _) ⟨[], []⟩
    simp only [getopts0214, parseArguments, hc, asFail_display]
  | twice h ht =>
    rename_i said
    have hc := collect_says h (words.length + 1) (Nat.lt_succ_self _) ⟨[], []⟩
    obtain ⟨opt, hd, rfl⟩ := (twice_iff said fault).mp ht
    simp only [getopts0214, parseArguments, hc, hd]
    rw [← asFail_display]
    rfl

theorem says_or_wrong (words : List Str) :
    (∃ said, Says words said ∧ Once said) ∨ ∃ fault, Wrong words fault := by
  rcases collect_all (words.length + 1) words ⟨[], []⟩ (Nat.lt_succ_self _) with ⟨said, h, _⟩ | ⟨fault, h, _⟩
  · cases hd : firstDuplicated (add ⟨[], []⟩ said) with
    | none => exact .inl ⟨said, h, (once_iff said).mp hd⟩
    | some opt => exact .inr ⟨_, .twice h ((twice_iff said _).mpr ⟨opt, hd, rfl⟩)⟩
  · exact .inr ⟨fault, .unreadable h⟩

end CommandLine

end C8S
