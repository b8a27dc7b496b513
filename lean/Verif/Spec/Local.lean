import Verif.Spec.Portable
import Verif.Go.Emit

/-!
What a verdict may depend on: the types of the messages inside a message, and the clock.
-/

namespace PGV.Spec
open PGV

/-- `lt_now`, `gt_now` or `within`. -/
def Relative (r : TimestampRules) : Prop := r.ltNow ≠ none ∨ r.gtNow ≠ none ∨ r.within ≠ none

/-- The rules have timestamp rules of the kind `P`, for the value itself or for the elements, keys or values in it. -/
inductive Uses (P : TimestampRules → Prop) : FieldRules → Prop
  | here {m r} : P r → Uses P (.mk m (.timestamp r))
  | item {m r items} : Uses P items → Uses P (.mk m (.repeated r items))
  | key {m r keys values} : Uses P keys → Uses P (.mk m (.map r keys values))
  | value {m r keys values} : Uses P values → Uses P (.mk m (.map r keys values))

/-- Two sets of declarations agree on the types of all messages in `v`, at any depth. -/
def SameTypes (S S' : Schema) (v : Val) : Prop := ∀ typ fs os, Part (.msg typ fs os) v → S typ = S' typ

/-- No type of a message in `v`, at any depth, has timestamp rules of the kind `P`. -/
def Without (P : TimestampRules → Prop) (S : Schema) (v : Val) : Prop :=
  ∀ typ fs os d, Part (.msg typ fs os) v → S typ = .generated d → ∀ f ∈ Go.allFields d, ¬ Uses P f.rules

end PGV.Spec
