import Verif.Proofs.CommandLine

/-
C63: the command line accepted by the tool, and the faults reported. C64: what the tool does with what is said on
the command line. Both are about `getopts0214`, the model of crate `getopts` 0.2.14.
-/

namespace C8S

open Spec CommandLine

private theorem mem_outputs (said : List Said) (p : Str) : p ∈ outputs said ↔ .output p ∈ said := by
  simp only [outputs, List.mem_filterMap]
  constructor
  · rintro ⟨s, hs, e⟩
    cases s <;> simp_all
  · intro h
    exact ⟨_, h, rfl⟩

private theorem mem_files (said : List Said) (w : Str) : w ∈ files said ↔ .word w ∈ said := by
  simp only [files, List.mem_filterMap]
  constructor
  · rintro ⟨s, hs, e⟩
    cases s <;> simp_all
  · intro h
    exact ⟨_, h, rfl⟩

private theorem once_output {said : List Said} (h : Once said) (p : Str) :
    (outputs said).head? = some p ↔ .output p ∈ said := by
  rw [← mem_outputs]
  have hl := h.1
  match outputs said, hl with
  | [], _ => simp
  | [q], _ => simp [eq_comm]
  | _ :: _ :: _, hl => simp at hl

/-- A command line is accepted exactly when it can be read and says no option twice; the result is what it says. -/
theorem C63_accepted (words : List Str) (m : Matches) :
    getopts0214.parse words = .ok m ↔
      ∃ said, Says words said ∧ Once said ∧ (m.help = true ↔ .help ∈ said) ∧
        (m.version = true ↔ .version ∈ said) ∧ (∀ p, m.output = some p ↔ .output p ∈ said) ∧
        m.free = files said := by
  constructor
  · intro h
    rcases says_or_wrong words with ⟨said, hs, ho⟩ | ⟨fault, hw⟩
    · have e := getopts_says hs ho
      rw [h] at e
      cases e
      refine ⟨said, hs, ho, ?_, ?_, ?_, rfl⟩
      · simp [matchesOf, List.count_pos_iff]
      · simp [matchesOf, List.count_pos_iff]
      · exact once_output ho
    · rw [getopts_wrong hw] at h
      cases h
  · rintro ⟨said, hs, ho, h1, h2, h3, h4⟩
    rw [getopts_says hs ho]
    have e3 : m.output = (outputs said).head? := by
      apply Option.ext
      intro p
      rw [h3, once_output ho]
    have e1 : m.help = decide (said.count .help > 0) := by
      rw [Bool.eq_iff_iff, h1]; simp [List.count_pos_iff]
    have e2 : m.version = decide (said.count .version > 0) := by
      rw [Bool.eq_iff_iff, h2]; simp [List.count_pos_iff]
    rw [matchesOf, ← e1, ← e2, ← e3, ← h4]

example : getopts0214.parse ["-hofoo".toList, "a.s".toList, "--".toList, "-v".toList]
    = .ok ⟨true, false, some "foo".toList, ["a.s".toList, "-v".toList]⟩ := by rfl

example : ∃ said, Says ["-hofoo".toList, "a.s".toList, "--".toList, "-v".toList] said ∧ Once said :=
  ⟨[.help, .output "foo".toList, .word "a.s".toList, .word "-v".toList],
    .item (.attached (letters := "h".toList) (path := "foo".toList) (.help .nil) (by decide))
      (.item (.word (.inr (by decide))) .stop), by unfold Once; decide⟩

/-- A command line is rejected exactly for its first unreadable word, or else for the first option it says
twice, with the message for that fault. -/
theorem C63_rejected (words : List Str) (text : Str) :
    getopts0214.parse words = .error text ↔ ∃ fault, Wrong words fault ∧ text = fault.message := by
  constructor
  · intro h
    rcases says_or_wrong words with ⟨said, hs, ho⟩ | ⟨fault, hw⟩
    · rw [getopts_says hs ho] at h
      cases h
    · rw [getopts_wrong hw] at h
      cases h
      exact ⟨fault, hw, rfl⟩
  · rintro ⟨fault, hw, rfl⟩
    exact getopts_wrong hw

example : Wrong ["a.s".toList, "-hx".toList] (.unknown "x".toList) :=
  .unreadable (.later (.word (.inr (by decide))) (.here (.letter (letters := "h".toList) (.help .nil)
    (by decide) (by decide))))

example : Wrong ["-h".toList, "--help".toList] (.repeated "help".toList) :=
  .twice (.item (.flags (letters := "h".toList) (.help .nil) (by decide)) (.item .help .nil))
    (.help (by decide) (by decide))

/-- A command line has at most one reading and at most one fault, and not both a reading without repetition and
a fault; one of the two always exists. -/
theorem C63_one_meaning (words : List Str) :
    (∀ said said', Says words said → Says words said' → files said = files said' ∧ outputs said = outputs said' ∧
      said.count .help = said'.count .help ∧ said.count .version = said'.count .version) ∧
    (∀ fault fault', Wrong words fault → Wrong words fault' → fault = fault') ∧
    (∀ said fault, Says words said → Once said → ¬ Wrong words fault) ∧
    ((∃ said, Says words said ∧ Once said) ∨ ∃ fault, Wrong words fault) := by
  refine ⟨?_, ?_, ?_, says_or_wrong words⟩
  · intro said said' h h'
    have e := (collect_says h _ (Nat.lt_succ_self _) ⟨[], []⟩).symm.trans (collect_says h' _ (Nat.lt_succ_self _) ⟨[], []⟩)
    have e : add ⟨[], []⟩ said = add ⟨[], []⟩ said' := by
      injection e with e; injection e
    refine ⟨by simpa [add] using congrArg Options.Collected.free e, ?_, ?_, ?_⟩
    · have := valuesOf_output said
      rw [e, valuesOf_output said'] at this
      have := congrArg (List.map (fun v : Options.Opt × Option Str => v.2)) this
      simp only [List.map_map] at this
      have inj : Function.Injective ((fun v : Options.Opt × Option Str => v.2) ∘ fun p => (optOutput, some p)) :=
        fun a b hab => Option.some.inj hab
      exact (List.map_inj_right (fun _ _ => fun hab => inj hab) |>.mp this).symm
    · rw [← valuesOf_help, e, valuesOf_help]
    · rw [← valuesOf_version, e, valuesOf_version]
  · intro fault fault' h h'
    have inj : ∀ {f f' : Fault}, asFail f = asFail f' → f = f' := by
      intro f f' e
      cases f <;> cases f' <;> simp_all [asFail]
    cases h with
    | unreadable h =>
      have e := collect_unreadable h _ (Nat.lt_succ_self _) ⟨[], []⟩
      cases h' with
      | unreadable h' =>
        rw [collect_unreadable h' _ (Nat.lt_succ_self _) ⟨[], []⟩] at e
        injection e with e
        injection e with e
        exact (inj e).symm
      | twice h' =>
        rw [collect_says h' _ (Nat.lt_succ_self _) ⟨[], []⟩] at e
        cases e
    | twice h ht =>
      have e := collect_says h _ (Nat.lt_succ_self _) ⟨[], []⟩
      cases h' with
      | unreadable h' =>
        rw [collect_unreadable h' _ (Nat.lt_succ_self _) ⟨[], []⟩] at e
        cases e
      | twice h' ht' =>
        rw [collect_says h' _ (Nat.lt_succ_self _) ⟨[], []⟩] at e
        injection e with e
        injection e with e
        rw [twice_iff, ← e] at ht
        rw [twice_iff] at ht'
        obtain ⟨o, h1, rfl⟩ := ht
        obtain ⟨o', h2, rfl⟩ := ht'
        rw [h1] at h2
        cases h2
        rfl
  · intro said fault hs ho hw
    have e := getopts_says hs ho
    rw [getopts_wrong hw] at e
    cases e

/-- A reading, and the fault of a command line that has none. -/
example : Says ["-h".toList, "a".toList] [.help, .word "a".toList] ∧ Wrong ["-x".toList] (.unknown "x".toList) :=
  ⟨.item (.flags (letters := "h".toList) (.help .nil) (by decide)) (.item (.word (.inr (by decide))) .nil),
    .unreadable (.here (.letter (letters := []) (said := []) .nil (by decide) (by decide)))⟩

/-- Reading the command line always ends. -/
theorem C63_total (words : List Str) : Options.parseArguments words ≠ .panic := by
  unfold Options.parseArguments
  rcases collect_all (words.length + 1) words ⟨[], []⟩ (Nat.lt_succ_self _) with ⟨said, _, e⟩ | ⟨fault, _, e⟩
  · rw [e]
    simp only
    split <;> simp
  · rw [e]
    simp

example : Options.parseArguments ["-hx".toList, "--output".toList] =
    .ret (.error (.unrecognizedOption "x".toList)) := by rfl

private theorem printUsage_text (program : Str) :
    printUsage getopts0214 program = .printed (usageText program) := by
  have e : " [options] <input>".toList ++ ("\n\nOptions:\n".toList ++
      (joinWith "\n".toList (Options.table.map Options.usageRow) ++ "\n".toList)) = (usageText []).drop 7 := by
    decide +kernel
  unfold printUsage
  show Event.printed (Options.usage _) = _
  unfold Options.usage
  simp only [List.append_assoc]
  rw [e]
  rfl

/-- When help is asked for, the usage text is shown and nothing else happens, whatever else is said. -/
theorem C64_help [Target] (env : Env) (program : Str) (words : List Str) (said : List Said) (hs : Says words said)
    (ho : Once said) (h : .help ∈ said) :
    main getopts0214 env (program :: words) = ⟨[.printed (usageText program)], .code 0⟩ := by
  simp only [main, getopts_says hs ho]
  rw [if_pos (by simpa [matchesOf, List.count_pos_iff] using h)]
  have := printUsage_text program
  rw [this]

example (env : Env) : main getopts0214 env ["c8s".toList, "-hv".toList, "a.s".toList]
    = ⟨[.printed (usageText "c8s".toList)], .code 0⟩ :=
  C64_help env _ _ [.help, .version, .word "a.s".toList]
    (.item (.flags (letters := "hv".toList) (.help (.version .nil)) (by decide))
      (.item (.word (.inr (by decide))) .nil)) (by unfold Once; decide) (by decide)

/-- When the version is asked for, and not help, the version is shown and nothing else happens. -/
theorem C64_version [Target] (env : Env) (program : Str) (words : List Str) (said : List Said) (hs : Says words said)
    (ho : Once said) (hh : .help ∉ said) (h : .version ∈ said) :
    main getopts0214 env (program :: words) = ⟨[.printed "c8s version 0.1.3\n".toList], .code 0⟩ := by
  simp only [main, getopts_says hs ho]
  rw [if_neg (by simpa [matchesOf, List.count_pos_iff] using hh),
    if_pos (by simpa [matchesOf, List.count_pos_iff] using h)]
  rfl

example (env : Env) : main getopts0214 env ["c8s".toList, "a.s".toList, "--version".toList]
    = ⟨[.printed "c8s version 0.1.3\n".toList], .code 0⟩ :=
  C64_version env _ _ [.word "a.s".toList, .version]
    (.item (.word (.inr (by decide))) (.item .version .nil)) (by unfold Once; decide) (by decide) (by decide)

/-- When neither is asked for and there is one file, it is assembled into the output named, or into `a.hex`. -/
theorem C64_assembles [Target] (env : Env) (program input : Str) (words : List Str) (said : List Said)
    (hs : Says words said) (ho : Once said) (hh : .help ∉ said) (hv : .version ∉ said)
    (hf : files said = [input]) :
    (∀ path, .output path ∈ said →
      main getopts0214 env (program :: words) = assembleFile env program input path) ∧
    ((∀ path, .output path ∉ said) →
      main getopts0214 env (program :: words) = assembleFile env program input "a.hex".toList) := by
  have key : main getopts0214 env (program :: words)
      = assembleFile env program input ((outputs said).head?.getD "a.hex".toList) := by
    simp only [main, getopts_says hs ho]
    rw [if_neg (by simpa [matchesOf, List.count_pos_iff] using hh),
      if_neg (by simpa [matchesOf, List.count_pos_iff] using hv)]
    simp only [matchesOf, hf]
  refine ⟨fun path hp => ?_, fun hn => ?_⟩
  · rw [key, (once_output ho path).mpr hp]
    rfl
  · have : (outputs said).head? = none := by
      cases e : (outputs said).head? with
      | none => rfl
      | some p => exact absurd ((once_output ho p).mp e) (hn p)
    rw [key, this]
    rfl

example (env : Env) : main getopts0214 env ["c8s".toList, "a.s".toList, "-ob".toList]
    = assembleFile env "c8s".toList "a.s".toList "b".toList :=
  (C64_assembles env _ "a.s".toList _ [.word "a.s".toList, .output "b".toList]
    (.item (.word (.inr (by decide))) (.item (.attached (letters := []) (path := "b".toList) .nil (by decide)) .nil))
    (by unfold Once; decide) (by decide) (by decide) (by decide)).1 _ (by decide)

/-- When neither is asked for and there is no file, or more than one, the usage text is shown; the status is 1. -/
theorem C64_usage [Target] (env : Env) (program : Str) (words : List Str) (said : List Said) (hs : Says words said)
    (ho : Once said) (hh : .help ∉ said) (hv : .version ∉ said) (hf : (files said).length ≠ 1) :
    main getopts0214 env (program :: words) = ⟨[.printed (usageText program)], .code 1⟩ := by
  simp only [main, getopts_says hs ho]
  rw [if_neg (by simpa [matchesOf, List.count_pos_iff] using hh),
    if_neg (by simpa [matchesOf, List.count_pos_iff] using hv)]
  have := printUsage_text program
  have e : (matchesOf said).free = files said := rfl
  rw [e, this]
  match files said, hf with
  | [], _ => rfl
  | [_], hf => exact absurd rfl hf
  | _ :: _ :: _, _ => rfl

example (env : Env) : main getopts0214 env ["c8s".toList, "a.s".toList, "b.s".toList]
    = ⟨[.printed (usageText "c8s".toList)], .code 1⟩ :=
  C64_usage env _ _ [.word "a.s".toList, .word "b.s".toList]
    (.item (.word (.inr (by decide))) (.item (.word (.inr (by decide))) .nil)) (by unfold Once; decide) (by decide)
    (by decide) (by decide)

/-- When the command line is wrong, the fault is shown and nothing else happens; the status is 1. -/
theorem C64_wrong [Target] (env : Env) (program : Str) (words : List Str) (fault : Fault) (h : Wrong words fault) :
    main getopts0214 env (program :: words)
      = ⟨[.printed (program ++ ": error: ".toList ++ fault.message ++ "\n".toList)], .code 1⟩ := by
  simp only [main, getopts_wrong h]

example (env : Env) : main getopts0214 env ["c8s".toList, "-x".toList]
    = ⟨[.printed "c8s: error: Unrecognized option: 'x'.\n".toList], .code 1⟩ :=
  C64_wrong env _ _ (.unknown "x".toList)
    (.unreadable (.here (.letter (letters := []) (said := []) .nil (by decide) (by decide))))

/-- The order in which things are said does not matter. -/
theorem C64_order [Target] (env : Env) (program : Str) (words words' : List Str) (said said' : List Said)
    (h : Says words said) (h' : Says words' said') (hp : said.Perm said') :
    main getopts0214 env (program :: words) = main getopts0214 env (program :: words') := by
  have pf : (files said).Perm (files said') := hp.filterMap _
  have po : (outputs said).Perm (outputs said') := hp.filterMap _
  have ph : said.count .help = said'.count .help := hp.count_eq _
  have pv : said.count .version = said'.count .version := hp.count_eq _
  by_cases ho : Once said
  · have ho' : Once said' := by
      unfold Once at ho ⊢
      rw [← po.length_eq, ← ph, ← pv]
      exact ho
    have eo : (outputs said).head? = (outputs said').head? := by
      apply Option.ext
      intro p
      rw [once_output ho, once_output ho', hp.mem_iff]
    simp only [main, getopts_says h ho, getopts_says h' ho', matchesOf, ph, pv, eo]
    split
    · rfl
    split
    · rfl
    match e : files said, e' : files said' with
    | [], [] => rfl
    | [], _ :: _ => rw [e, e'] at pf; exact absurd pf.length_eq (by simp)
    | _ :: _, [] => rw [e, e'] at pf; exact absurd pf.length_eq (by simp)
    | [a], [b] =>
      rw [e, e'] at pf
      have : a = b := by simpa using pf
      rw [this]
    | [_], _ :: _ :: _ => rw [e, e'] at pf; exact absurd pf.length_eq (by simp)
    | _ :: _ :: _, [_] => rw [e, e'] at pf; exact absurd pf.length_eq (by simp)
    | _ :: _ :: _, _ :: _ :: _ => rfl
  · have key : ∀ fault, Twice said fault → Twice said' fault := by
      intro fault ht
      cases ht with
      | output a => exact .output (po.length_eq ▸ a)
      | help a b => exact .help (po.length_eq ▸ a) (ph ▸ b)
      | version a b c => exact .version (po.length_eq ▸ a) (ph ▸ b) (pv ▸ c)
    obtain ⟨fault, ht⟩ : ∃ fault, Twice said fault := by
      rw [← once_iff] at ho
      cases hd : Options.firstDuplicated (add ⟨[], []⟩ said) with
      | none => exact absurd hd ho
      | some opt => exact ⟨_, (twice_iff said _).mpr ⟨opt, hd, rfl⟩⟩
    rw [C64_wrong env program words fault (.twice h ht), C64_wrong env program words' fault (.twice h' (key _ ht))]

example (env : Env) : main getopts0214 env ["c8s".toList, "a.s".toList, "-v".toList, "-ob".toList]
    = main getopts0214 env ["c8s".toList, "-o".toList, "b".toList, "--version".toList, "--".toList, "a.s".toList] :=
  C64_order env _ _ _ [.word "a.s".toList, .version, .output "b".toList]
    [.output "b".toList, .version, .word "a.s".toList]
    (.item (.word (.inr (by decide))) (.item (.flags (letters := "v".toList) (.version .nil) (by decide))
      (.item (.attached (letters := []) (path := "b".toList) .nil (by decide)) .nil)))
    (.item (.short (letters := []) .nil) (.item .version .stop)) (by decide)

private theorem item_frame {words said rest} (h : Item words said rest) (more : List Str) :
    Item (words ++ more) said (rest ++ more) := by
  cases h with
  | word h => exact .word h
  | help => exact .help
  | version => exact .version
  | output => exact .output
  | outputEq => exact .outputEq
  | flags h hn => exact .flags h hn
  | short h => exact .short h
  | attached h hp => exact .attached h hp

private theorem collect_complete {words said} (h : Complete words said) (more : List Str) (fuel : Nat)
    (acc : Options.Collected) (hf : (words ++ more).length < fuel) :
    ∃ fuel', more.length < fuel' ∧ Options.collect fuel (words ++ more) acc = Options.collect fuel' more (add acc said) := by
  induction h generalizing fuel acc with
  | nil => exact ⟨fuel, hf, by rw [add_nil]; rfl⟩
  | item hi _ ih =>
    cases fuel with
    | zero => exact absurd hf (Nat.not_lt_zero _)
    | succ fuel =>
      have hi' := item_frame hi more
      rw [collect_item hi']
      have := item_shorter hi'
      obtain ⟨fuel', h1, h2⟩ := ih fuel (add acc _) (by omega)
      exact ⟨fuel', h1, by rw [h2, add_append]⟩

/-- The fuel does not matter once it is enough. -/
private theorem collect_fuel (words : List Str) (acc : Options.Collected) (n n' : Nat) (h : words.length < n)
    (h' : words.length < n') : Options.collect n words acc = Options.collect n' words acc := by
  rcases collect_all n words acc h with ⟨said, hs, e⟩ | ⟨fault, hu, e⟩
  · rw [e, collect_says hs n' h']
  · rw [e, collect_unreadable hu n' h']

private theorem same_meaning {a item item' : List Str} {s t : List Said} (ha : Complete a s)
    (hi : ∀ b, Item (item ++ b) t b) (hi' : ∀ b, Item (item' ++ b) t b) (b : List Str) :
    getopts0214.parse (a ++ item ++ b) = getopts0214.parse (a ++ item' ++ b) := by
  have key : ∀ (item : List Str), (∀ b, Item (item ++ b) t b) →
      ∃ n, b.length < n ∧ Options.collect ((a ++ item ++ b).length + 1) (a ++ item ++ b) ⟨[], []⟩
        = Options.collect n b (add (add ⟨[], []⟩ s) t) := by
    intro item hi
    rw [List.append_assoc]
    obtain ⟨n, h1, h2⟩ := collect_complete ha (item ++ b) _ ⟨[], []⟩ (Nat.lt_succ_self _)
    cases n with
    | zero => exact absurd h1 (Nat.not_lt_zero _)
    | succ n =>
      have := item_shorter (hi b)
      exact ⟨n, by omega, by rw [h2, collect_item (hi b)]⟩
  obtain ⟨n, h1, e⟩ := key item hi
  obtain ⟨n', h1', e'⟩ := key item' hi'
  simp only [getopts0214, Options.parseArguments, e, e', collect_fuel b _ n n' h1 h1']

/-- The spellings of the output file are interchangeable wherever the words before them are complete; what comes
after them, even if it is wrong, does not matter. -/
theorem C64_spellings [Target] (env : Env) (program path : Str) (a b : List Str) (s : List Said) (ha : Complete a s) :
    main getopts0214 env (program :: (a ++ ["--output".toList, path] ++ b))
      = main getopts0214 env (program :: (a ++ ["-o".toList, path] ++ b)) ∧
    main getopts0214 env (program :: (a ++ ["--output=".toList ++ path] ++ b))
      = main getopts0214 env (program :: (a ++ ["-o".toList, path] ++ b)) ∧
    (path ≠ [] → main getopts0214 env (program :: (a ++ ["-o".toList ++ path] ++ b))
      = main getopts0214 env (program :: (a ++ ["-o".toList, path] ++ b))) := by
  have hs : ∀ b, Item (["-o".toList, path] ++ b) [.output path] b := fun b => .short (letters := []) .nil
  refine ⟨?_, ?_, fun hp => ?_⟩
  · simp only [main]
    rw [same_meaning ha (fun b => .output) hs b]
  · simp only [main]
    rw [same_meaning ha (fun b => .outputEq) hs b]
  · simp only [main]
    rw [same_meaning ha (fun b => .attached (letters := []) .nil hp) hs b]

example (env : Env) : main getopts0214 env ["c8s".toList, "-h".toList, "--output".toList, "x".toList, "-z".toList]
    = main getopts0214 env ["c8s".toList, "-h".toList, "-o".toList, "x".toList, "-z".toList] :=
  (C64_spellings env "c8s".toList "x".toList ["-h".toList] ["-z".toList] [.help]
    (.item (.flags (letters := "h".toList) (.help .nil) (by decide)) .nil)).1

/-- The one spelling that differs: `-o` followed by nothing takes the next word, even an option. -/
theorem C64_next_word (word : Str) :
    getopts0214.parse ["-o".toList, word] = .ok ⟨false, false, some word, []⟩ := by
  have hs : Says ["-o".toList, word] [.output word] := .item (.short (letters := []) .nil) .nil
  rw [getopts_says hs (by unfold Once outputs; exact ⟨by simp, by simp, by simp⟩)]
  rfl

example : getopts0214.parse ["-o".toList, "-h".toList] = .ok ⟨false, false, some "-h".toList, []⟩ :=
  C64_next_word _

end C8S
