import Verif.Spec.Select
import Verif.Harness.Programs

/-!
A test suite whose programs are those of the four languages, and what a case says about a validator.
-/

namespace PGV.Spec
open PGV PGV.Harness

/-- Cases: a message type, a message and the number of broken rules expected; and what the validators and programs of the
four languages depend on. -/
structure Suite where
  Case : Type
  schema : Case → Schema
  message : Case → Val
  failures : Case → Nat
  marshals : Case → Bool
  goPrinter : Go.Printer
  goEnv : Go.Env
  cppPrinter : Cpp.CPrinter
  cppWhat : String → Bytes
  cppEnv : Cpp.CEnv
  javaText : Java.JErr → Bytes
  javaEnv : Java.JEnv
  pyRepr : String → Py.Text → Bytes
  pyEnv : Py.PEnv
  /-- An external program (`-external_harness`). -/
  other : Case → Bytes → Answer

/-- The files hold the programs of the four languages. -/
def Suite.tests (U : Suite) : Tests where
  Case := U.Case
  failures := U.failures
  marshals := U.marshals
  exec := fun c file =>
    if file = path "tests/harness/go/main/go-harness" then
      answer (goProgram U.goPrinter U.goEnv (U.schema c) (U.message c))
    else if file = path "tests/harness/cc/cc-harness" then
      answer (cppProgram U.cppPrinter U.cppWhat U.cppEnv (U.schema c) (U.message c))
    else if file = path "tests/harness/java/java-harness" then
      answer (javaProgram U.javaText U.javaEnv (U.schema c) (U.message c))
    else if file = path "tests/harness/python/python-harness" then
      answer (pyProgram U.pyRepr U.pyEnv (U.schema c) (U.message c))
    else U.other c file

/-- The texts that the programs report for the case are not longer than memory. -/
structure Suite.InMemory (U : Suite) (c : U.Case) : Prop where
  go : ∀ l, checkValid U.goPrinter (Go.validate U.goEnv (U.schema c) false (U.message c))
    (Go.validate U.goEnv (U.schema c) true (U.message c)) = .reasons l → ∀ t ∈ l, (textBytes t).length < 2 ^ 63
  cpp : ∀ e, Cpp.checkMessage U.cppEnv (U.schema c) (U.message c) = .error (.invalid e) →
    (Cpp.errText U.cppPrinter e).length < 2 ^ 63
  java : ∀ e, Java.assertValid U.javaEnv (U.schema c) (U.message c) = .error e → (U.javaText e).length < 2 ^ 63
  python : ∀ m t, Py.validate U.pyEnv (U.schema c) (U.message c) = .error (.failed m t) → (U.pyRepr m t).length < 2 ^ 63

/-- All shards of a run end with exit status 0 (anywhere but on Windows). -/
def Green (T : Tests) (O : Options) (count : Nat) (cases : List T.Case) : Prop :=
  0 < count ∧ count < 2 ^ 53 ∧ cases.length < 2 ^ 53 ∧ O.system.windows = false ∧
  ∀ i, i < count → Exits T { O with total := some count, index := some i, status := true } cases 0

end PGV.Spec
