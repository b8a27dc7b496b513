import Verif.Core.Schema
import Verif.Spec.Nesting

/-!
The first field of a message that breaks its rules.
-/

namespace PGV.Spec
open PGV

/-- The oneof is as it must be, where `A` says which values fields may have: its member that is set has such a value, or
none is set and none needs to be. -/
def Fulfilled (A : FieldDesc → Val → Prop) (os : List (String × String × Val)) (o : OneofDesc) : Prop :=
  (os.lookup o.name = none → o.required = false) ∧
  ∀ m v f, os.lookup o.name = some (m, v) → o.fields.find? (fun f => f.name == m) = some f → A f v

/-- `FirstBroken A d fs os n`: of the fields outside oneofs and then the oneofs, in the order of declaration, the first
that is not as it must be is the field `n`, or the oneof of which the member `n` is set, or the oneof `n` with nothing set. -/
inductive FirstBroken (A : FieldDesc → Val → Prop) (d : MsgDesc) (fs : List (String × Val))
    (os : List (String × String × Val)) : String → Prop
  | field {pre f post} : d.fields = pre ++ f :: post → (∀ g ∈ pre, A g (getField fs g)) → ¬ A f (getField fs f) →
      FirstBroken A d fs os f.name
  | member {pre o post m v f} : (∀ g ∈ d.fields, A g (getField fs g)) → d.oneofs = pre ++ o :: post →
      (∀ p ∈ pre, Fulfilled A os p) → os.lookup o.name = some (m, v) →
      o.fields.find? (fun f => f.name == m) = some f → ¬ A f v → FirstBroken A d fs os f.name
  | oneof {pre o post} : (∀ g ∈ d.fields, A g (getField fs g)) → d.oneofs = pre ++ o :: post →
      (∀ p ∈ pre, Fulfilled A os p) → os.lookup o.name = none → o.required = true → FirstBroken A d fs os o.name

end PGV.Spec
