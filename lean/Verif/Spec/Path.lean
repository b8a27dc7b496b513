import Verif.Go.Validate
import Verif.Spec.Nesting
import Verif.Spec.Found

/-!
Where the messages nested in a message are.
-/

namespace PGV.Spec
open PGV PGV.Go

/-- `At S v p w`: going from the message `v` through the fields `p`, each given with the name of the type it is declared
in, one arrives at the message `w`. -/
inductive At (S : Schema) : Val → List (String × FieldRef) → Val → Prop
  | here (v : Val) : At S v [] v
  | inner {typ fs os d i w p u} : Embeds S (.msg typ fs os) i w → S typ = .generated d → At S w p u →
      At S (.msg typ fs os) ((d.name, i) :: p) u

/-- `OwnViolation E S w p x`: one of the errors `ValidateAll()` collects for `w` itself is, or carries, `x`, and it is not
about a message embedded in `w` that has generated methods: it has no cause, or the cause is an error of a library, or
the error of a `Validate` method written by hand. -/
def OwnViolation (E : Env) (S : Schema) (w : Val) (p : List (String × FieldRef)) (x : Err) : Prop :=
  ∃ typ es e, validate E S true w = some (.multi typ es) ∧ e ∈ es ∧ Found e p x ∧
    ∃ field reason cause key, e = .viol typ field reason cause key ∧
      (cause = none ∨ (∃ text, cause = some (.lib text)) ∨ ∃ u c, cause = some c ∧ E.legacy u = some c)

end PGV.Spec
