import Verif.Go.Err

/-!
The violations in the errors of Go: what one finds by following `AllErrors()` and `Cause()` down to the errors without
causes.
-/

namespace PGV.Spec
open PGV PGV.Go

/-- `Found e p x`: inside `e` there is the error `x`, which is not a collection and has no cause, and one gets there
through the violations of the fields in `p`, from the outside in, each given with the name of its message type. -/
inductive Found : Err → List (String × FieldRef) → Err → Prop
  | bare {typ field reason key} :
      Found (.viol typ field reason none key) [(typ, field)] (.viol typ field reason none key)
  | other {text} : Found (.lib text) [] (.lib text)
  | cause {typ field reason key c p x} : Found c p x →
      Found (.viol typ field reason (some c) key) ((typ, field) :: p) x
  | among {typ es e p x} : e ∈ es → Found e p x → Found (.multi typ es) p x

/-- The same, for what a validation method returns. -/
def Finds (r : Option Err) (p : List (String × FieldRef)) (x : Err) : Prop := ∃ e, r = some e ∧ Found e p x

end PGV.Spec
