import Verif.Spec.Skeleton
import Verif.Proofs.Skeleton
import Verif.Props.Whole
import Verif.Props.Stream
import Verif.Props.Table

/-! C129: the tool is correct if each of its steps is, and the steps of the code are. -/

namespace C8S

open Spec

/-- C129: if each step yields what is specified for it alone, the whole run is that of the tool. -/
theorem C129_steps [Target] (s : Steps) (h : Correct wordBinary s) (getopts : Getopts) (env : Env) (args : List Str) :
    s.main getopts env args = main getopts env args :=
  steps_main s h getopts env args fun _ _ _ file text _ _ _ _ _ _ =>
    run_ext fun r => (h.front file text r).trans (front_iff file text r).symm

/-- C129: a tool made of correct steps does what is specified of the whole. -/
theorem C129_sufficient [Target] (s : Steps) (h : Correct wordBinary s) (env : Env) (args : List Str) (events : List Event)
    (exit : Exit) : s.main getopts0214 env args = ⟨events, exit⟩ ↔ Behaves wordBinary env args events exit := by
  rw [C129_steps s h, C126_complete]

/-- A writer that forgets the last line is not correct. -/
example [Target] : ¬ Correct wordBinary { Steps.code List.length id with write := fun _ => .ret [] } := by
  intro h
  have h1 := (h.write [] (by simp) .nil []).1 rfl
  have h2 := ((C127_write [] (by simp)).1 .nil _).2 h1
  revert h2
  decide +kernel

/-- C129: the steps of the code are correct, with a parser that asks for one token at a time, whatever the hash function
of the label table and however it grows. -/
theorem C129_code [Target] (hash : Str → Nat) (grow : Nat → Nat) : Correct wordBinary (Steps.code hash grow) where
  front file text r := by
    obtain ⟨tokens, h, hp⟩ := C68_interleaved file text (text.length + 1) (by omega)
    rw [← front_iff, h]
    exact (congrArg (· = Run.ret r) hp).to_iff
  assemble nodes r := by
    obtain ⟨_, h⟩ := C108_hash_table hash grow
    rw [← C127_assemble, ← C108_any_table _ _ h]
    exact Iff.rfl
  overlapping ranges h := (collisions_nonEmpty h).symm
  write ranges h hp text := (C127_write ranges fun r hr => (h r hr).2).1 hp text

example : (Steps.code List.length id).front "f".toList "a: jp a\n".toList =
    .ret (.ok [.label ⟨"f".toList, 1, 1, 1⟩ "a".toList, .instruction ⟨"f".toList, 1, 4, 2⟩ "jp".toList [.identifier "a".toList]]) := by
  decide +kernel

/-- The version, with a hash function under which all labels collide. -/
example [Target] (env : Env) : Behaves wordBinary env ["c8s".toList, "-v".toList] [.printed "c8s version 0.1.3\n".toList] (.code 0) :=
  (C129_sufficient (Steps.code (fun _ => 0) id) (C129_code _ _) env _ _ _).1 (by rfl)

/-- C129: so a run with one token at a time and any hash table is as specified. -/
theorem C129_run [Target] (hash : Str → Nat) (grow : Nat → Nat) (env : Env) (args : List Str) (events : List Event)
    (exit : Exit) :
    (Steps.code hash grow).main getopts0214 env args = ⟨events, exit⟩ ↔ Behaves wordBinary env args events exit :=
  C129_sufficient _ (C129_code hash grow) env args events exit

/-- C129: and so is the process, with arguments and files in bytes and a standard output that can fail. -/
theorem C129_process [Target] (hash : Str → Nat) (grow : Nat → Nat) (console : Console) (raw : RawEnv)
    (args : List (List U8)) (events : List Event) (exit : Exit) :
    (Steps.code hash grow).process console getopts0214 raw args = ⟨events, exit⟩ ↔
      ShownOn console (BehavesRaw wordBinary raw args) events exit := by
  have e : (Steps.code hash grow).process console getopts0214 raw args = process console getopts0214 raw args := by
    unfold Steps.process process mainRaw
    simp only [C129_steps _ (C129_code hash grow)]
    cases collectArgs args <;> rfl
  rw [e, C126_process]

/-- Without an argument the code crashes. -/
example [Target] (console : Console) (raw : RawEnv) : ShownOn console (BehavesRaw wordBinary raw []) [] .panicked :=
  (C129_process List.length id console raw [] [] .panicked).1 rfl

end C8S
