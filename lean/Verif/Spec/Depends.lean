import Verif.Spec.Whole

/- Specification of what a run depends on. -/

namespace C8S.Spec

/-- The systems give the same answers to what is asked of the first when this file is assembled to this output. -/
structure SameAnswers (bin : Str → Nat) (env env' : Env) (input output : Str) : Prop where
  opens : env'.openInput input = env.openInput input
  /-- The file is read if it could be opened. -/
  reads : env.openInput input = .ok () → env'.readInput input = env.readInput input
  /-- A file is created if there is something to write and the output is not standard output. -/
  creates : ∀ text hex, env.openInput input = .ok () → env.readInput input = .ok text → HasObject bin input text hex →
    output ≠ "-".toList → env'.createOutput output = env.createOutput output
  /-- The object file is written to it if it could be created. -/
  writes : ∀ text hex, env.openInput input = .ok () → env.readInput input = .ok text → HasObject bin input text hex →
    output ≠ "-".toList → env.createOutput output = .ok () →
    env'.writeOutput (.file output) (utf8 hex) = env.writeOutput (.file output) (utf8 hex)
  shows : ∀ text hex, env.openInput input = .ok () → env.readInput input = .ok text → HasObject bin input text hex →
    output = "-".toList → env'.writeOutput .stdout (utf8 hex) = env.writeOutput .stdout (utf8 hex)

/-- The words of the command line ask for this file to be assembled to this output. -/
def Asks (words : List Str) (input output : Str) : Prop :=
  ∃ said, Says words said ∧ Once said ∧ .help ∉ said ∧ .version ∉ said ∧ files said = [input] ∧
    (.output output ∈ said ∨ (∀ o, .output o ∉ said) ∧ output = "a.hex".toList)

/-- The same effect, but for the name of the program in what is printed. -/
inductive Renamed (program program' : Str) : Event → Event → Prop where
  | same {e : Event} : Renamed program program' e e
  | report {message : Str} : Renamed program program' (report program message) (report program' message)
  | usage : Renamed program program' (.printed (usageText program)) (.printed (usageText program'))

end C8S.Spec
