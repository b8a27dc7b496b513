import Verif.Cpp.Templates

/-!
The registry of C++ validators (validate/validate.h:43-70).
-/

namespace PGV.Cpp
open PGV

/-- `std::unordered_map<std::type_index, BaseValidator*>` (validate/validate.h:45-48): one entry per
type; `none` is a null pointer. A validator is the function it was made from: objects are taken to
live as long as the program, as the generated global variables do. -/
abbrev Registry (M : Type) := List (String × Option (M → Run))

/-- `validators()[t] = f` (validate/validate.h:56). -/
def Registry.set {M : Type} : Registry M → String → Option (M → Run) → Registry M
  | [], t, f => [(t, f)]
  | (u, g) :: r, t, f => if t = u then (t, f) :: r else (u, g) :: Registry.set r t f

/-- `validators()[t]` as a value: a missing entry is made, holding a null pointer (validate/validate.h:61). -/
def Registry.index {M : Type} (r : Registry M) (t : String) : Option (M → Run) × Registry M :=
  match r.lookup t with
  | some f => (f, r)
  | none => (none, r.set t none)

/-- What a program does with validators of its types: construct a `Validator<T>` or call
`Validator<T>::CheckMessage` (validate/validate.h:54-66). -/
inductive Event (M : Type)
  | construct (t : String) (check : M → Run)
  | check (t : String) (m : M)

/-- The constructor of `Validator<T>` (validate/validate.h:53-57) and `CheckMessage`
(validate/validate.h:59-66), which returns a result. Calls that a validator makes to other validators
are separate events. -/
def Registry.step {M : Type} (r : Registry M) : Event M → Registry M × Option Run
  | .construct t f => (r.set t (some f), none)
  | .check t m =>
    match r.index t with
    | (some f, r) => (r, some (f m))
    | (none, r) => (r, some (.ok ()))

/-- The results of the calls of `CheckMessage` in a history (validate/validate.h:54-66). -/
def Registry.run {M : Type} (r : Registry M) : List (Event M) → List Run
  | [] => []
  | e :: es => (r.step e).2.toList ++ Registry.run (r.step e).1 es

end PGV.Cpp
