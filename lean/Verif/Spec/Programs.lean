import Verif.Harness.Executor

/-!
What counts how, for C93.
-/

namespace PGV.Spec.Tests
open PGV.Harness

/-- Counted among the successes. -/
def asSuccess : Result := ⟨true, false⟩
/-- Counted among the failures. -/
def asFailure : Result := ⟨false, false⟩
/-- Counted among those skipped. -/
def asSkip : Result := ⟨false, true⟩

/-- A run of a case that expects `failures` broken rules is counted as a success if the message is accepted and should
be, or is rejected and should be, and as a failure otherwise. -/
def CountedRight (accepted : Prop) (failures : Nat) (r : Result) : Prop :=
  ((accepted ↔ failures = 0) → r = asSuccess) ∧ (¬ (accepted ↔ failures = 0) → r = asFailure)

end PGV.Spec.Tests
