import Verif.Harness.Select
import Verif.Spec.Harness

/-!
What the person who starts the test executor relies on: which programs run, and what exit status 0 means.
-/

namespace PGV.Spec
open PGV PGV.Harness

/-- The programs asked for by the flags. -/
inductive Asked (f : Flags) : Bytes → Prop
  | go : f.go = true → Asked f (path "tests/harness/go/main/go-harness")
  | cc : f.cc = true → Asked f (path "tests/harness/cc/cc-harness")
  | java : f.java = true → Asked f (path "tests/harness/java/java-harness")
  | python : f.python = true → Asked f (path "tests/harness/python/python-harness")
  | external : f.external ≠ [] → Asked f f.external

/-- The executor may run the file for this command: on Windows with a manifest, it may be one the search leads to;
otherwise it is the command. -/
def MayRun (S : System) (cmd file : Bytes) : Prop := Located S cmd (some file)

/-- The program's answer to the case is as expected, or wrong in a way that it may be (`AllowFailure`). -/
def Passes (T : Tests) (c : T.Case) (file : Bytes) : Prop :=
  T.marshals c = true ∧
  ∃ valid allow multiple reasons, T.exec c file = .result valid false allow multiple reasons ∧
    ((if multiple then reasons = T.failures c else (valid = true ↔ T.failures c = 0)) ∨ allow = true)

/-- A manifest: each line is a name and a file, with one space between and none in them. -/
def WellFormed (lines : List Bytes) (entries : List (Bytes × Bytes)) : Prop :=
  lines = entries.map (fun e => e.1 ++ 0x20 :: e.2) ∧ (∀ e ∈ entries, 0x20 ∉ e.1 ∧ 0x20 ∉ e.2) ∧
  (entries.map (·.1)).Nodup

end PGV.Spec
