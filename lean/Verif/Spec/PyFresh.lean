import Verif.Py.Cache

/-!
What `validate` would do if it generated the validator afresh on every call.
-/

namespace PGV.Spec.Python
open PGV.Py

variable {D M : Type}

/-- Run a program whose calls of `validate` end as `result` says. -/
def runFresh (result : M → Run) : Prog M → Run
  | .done r => r
  | .call m k => runFresh result (k (result m))

/-- Generate the validator of the message's type and run it; nested messages likewise. Nesting deeper
than `n` is a RecursionError. -/
def freshValidate (G : Generator D M) : Nat → M → Run
  | 0, _ => .error .crash
  | n + 1, m =>
    match (if G.renders (G.desc m) then G.code (G.desc m) else none) with
    | none => .error .crash
    | some f => runFresh (freshValidate G n) (f m)

/-- Types with the same full name have the same rules, as in a single descriptor pool. -/
def OnePool (G : Generator D M) : Prop :=
  ∀ d d', G.name d = G.name d' → G.renders d = G.renders d' ∧ G.code d = G.code d'

end PGV.Spec.Python
