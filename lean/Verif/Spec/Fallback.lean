import Verif.Spec.Nesting

/-!
The messages for which validation of a message asks the index of validators.
-/

namespace PGV.Spec
open PGV

/-- Validating `v` hands `w` to its validator: `w` is `v` itself, or is so handed by a message that is set in a field
(a list, a map, a oneof) of message type. -/
inductive Handed (S : Schema) : Val → Val → Prop
  | self (v : Val) : Handed S v v
  | inner {typ fs os d f u i rules x w} : S typ = .generated d → Active d fs os f u → HeldBy f u i rules x → x ≠ .null →
      Handed S x w → Handed S (.msg typ fs os) w

/-- No validator was generated for `w`: it is of a foreign type, or of one whose validators are left out. -/
def Unknown (S : Schema) (w : Val) : Prop :=
  ∀ typ fs os d, w = .msg typ fs os → S typ = .generated d → d.ignored = true

end PGV.Spec
