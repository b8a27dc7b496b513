import Verif.Go.Render

/-!
The comparison of `Validate()` and `ValidateAll()` made by the Go harness
(tests/harness/go/main/harness.go).
-/

namespace PGV.Harness
open PGV PGV.Go

/-- What the harness writes, or how it crashes (tests/harness/go/main/harness.go:59-92). -/
inductive Reply
  /-- `Valid: true` (harness.go:61). -/
  | valid
  /-- `Reasons` (harness.go:91). -/
  | reasons (l : List Text)
  /-- "different verdict of Validate() … vs. ValidateAll() …" (harness.go:65). -/
  | differentVerdict
  /-- "ValidateAll() returned error without AllErrors() method" (harness.go:82). -/
  | noAllErrors
  /-- "different first message …" (harness.go:87). -/
  | differentFirst
  /-- `reasons[0]` out of range (harness.go:86). -/
  | panic
  deriving DecidableEq

/-- The loop over `Cause()` (harness.go:70-77). Only violations have causes; errors of other libraries
are taken to have none. -/
def rootCause : Err → Err
  | .viol _ _ _ (some c) _ => rootCause c
  | e => e

mutual
/-- One iteration of the loop of `mergeReasons` (harness.go:96-105). -/
def mergeOne (P : Printer) : Err → List Text
  | .viol _ _ _ (some (.multi _ es)) _ => mergeReasons P es
  | .viol _ _ _ (some c) _ => [errorText P c]
  | .multi _ es => mergeReasons P es
  | e => [errorText P e]
/-- `mergeReasons` on the errors in `AllErrors()` (harness.go:94-108). -/
def mergeReasons (P : Printer) : List Err → List Text
  | [] => []
  | e :: es => mergeOne P e ++ mergeReasons P es
end

/-- `checkValid` (harness.go:59-92). -/
def checkValid (P : Printer) : Option Err → Option Err → Reply
  | none, none => .valid
  | some _, none | none, some _ => .differentVerdict
  | some err, some (.multi _ es) =>
    match mergeReasons P es with
    | [] => .panic
    | r :: rs => if errorText P (rootCause err) ≠ r then .differentFirst else .reasons (r :: rs)
  | some _, some _ => .noAllErrors

end PGV.Harness
