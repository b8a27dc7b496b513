import Verif.Cpp.Registry

/-!
The registry of C++ validators, as a user sees it.
-/

namespace PGV.Spec.Cpp
open PGV PGV.Cpp

/-- The validators constructed for a type in a history, in order. -/
def constructed {M : Type} (t : String) (es : List (Event M)) : List (M → Run) :=
  es.filterMap fun e => match e with
    | .construct u f => if u = t then some f else none
    | .check _ _ => none

/-- The last validator constructed for a type in a history. -/
def latest {M : Type} (t : String) (es : List (Event M)) : Option (M → Run) := (constructed t es).getLast?

/-- What a validator, if there is one, says of a message. -/
def verdict {M : Type} (f : Option (M → Run)) (m : M) : Run :=
  match f with
  | some f => f m
  | none => .ok ()

end PGV.Spec.Cpp
