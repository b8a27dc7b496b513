import Verif.Go.Err

/-!
Relations between errors used in property statements.
-/

namespace PGV.Spec
open PGV PGV.Go

/-- `FirstOf e e'`: `e` (from `Validate`) is the same violation as `e'` (from `ValidateAll`):
identical, or identical up to the cause, where `ValidateAll` has a multi-error whose first error
corresponds. -/
inductive FirstOf : Err → Err → Prop
  | same (e : Err) : FirstOf e e
  | nested {t f r c c' n rest k} : FirstOf c c' →
      FirstOf (.viol t f r (some c) k) (.viol t f r (some (.multi n (c' :: rest))) k)

/-- `Reaches e e'`: calling `Cause()` repeatedly, starting from `e`, gives `e'`. -/
inductive Reaches : Err → Err → Prop
  | here (e : Err) : Reaches e e
  | cause {t f r c k e'} : Reaches c e' → Reaches (.viol t f r (some c) k) e'

mutual
/-- Same errors up to the order in which `ValidateAll` collected them, at every level. -/
inductive Shuffled : Err → Err → Prop
  | same (e : Err) : Shuffled e e
  | viol {t f r c c' k} : Shuffled c c' → Shuffled (.viol t f r (some c) k) (.viol t f r (some c') k)
  | multi {n es es'} : ShuffledList es es' → Shuffled (.multi n es) (.multi n es')
/-- Lists of errors, equal up to order and up to order inside each error. -/
inductive ShuffledList : List Err → List Err → Prop
  | nil : ShuffledList [] []
  | cons {e e' es es'} : Shuffled e e' → ShuffledList es es' → ShuffledList (e :: es) (e' :: es')
  | swap {a b es} : ShuffledList (a :: b :: es) (b :: a :: es)
  | trans {a b c} : ShuffledList a b → ShuffledList b c → ShuffledList a c
end

/-- `PartOf x e`: `x` is `e`, or its cause, or a member of it, or inside those. -/
inductive PartOf (x : Err) : Err → Prop
  | self : PartOf x x
  | cause {t f r c k} : PartOf x c → PartOf x (.viol t f r (some c) k)
  | member {n es e} : e ∈ es → PartOf x e → PartOf x (.multi n es)

/-- The index or key in an error's `Field()`. -/
def indexOf : Err → Option Idx
  | .viol _ f _ _ _ => f.index
  | _ => none

/-- The field name in an error's `Field()`. -/
def fieldOf : Err → Option String
  | .viol _ f _ _ _ => some f.name
  | _ => none

end PGV.Spec
