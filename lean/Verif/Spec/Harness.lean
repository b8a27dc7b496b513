import Verif.Harness.Executor

/-!
What the executor's counters should be, stated from the cases and the harnesses' answers alone.
-/

namespace PGV.Spec
open PGV.Harness

/-- The results for a case: one failure if it does not marshal, otherwise one per harness. -/
def caseResults (X : Setup) (c : X.Case) : List Result :=
  if X.marshals c then X.harnesses.map (fun h => judge (X.failures c) (X.exec c h)) else [⟨false, false⟩]

/-- The results for all cases. -/
def allResults (X : Setup) (cases : List X.Case) : List Result := cases.flatMap (caseResults X)

/-- Neither skipped nor failed. -/
def IsSuccess (r : Result) : Bool := r.ok && !r.skipped
/-- Failed and not skipped. -/
def IsFailure (r : Result) : Bool := !r.ok && !r.skipped
/-- Skipped. -/
def IsSkip (r : Result) : Bool := r.skipped

/-- All goroutines started by `run` have ended. -/
def AllEnded {X : Setup} (s : State X) : Prop :=
  (∀ w ∈ s.workers, w = Worker.gone) ∧ s.collector = Collector.gone

/-- `n` steps lead from `s` to `t`. -/
inductive Steps {X : Setup} : Nat → State X → State X → Prop
  | refl (s : State X) : Steps 0 s s
  | step {n : Nat} {s t u : State X} : Steps n s t → Step t u → Steps (n + 1) s u

end PGV.Spec
