import Verif.Core.Schema

/-!
The value that a proto3 field has while it is not set, written from the language guide.
-/

namespace PGV.Spec
open PGV

/-- Proto3 defaults: zero, false, the empty string, no bytes, the enum value 0, no message, an empty
list, an empty map. -/
inductive DefaultOf : FieldT → Val → Prop
  | float : DefaultOf (.one (.scalar .float)) (.sc (.num (.f32 0)))
  | double : DefaultOf (.one (.scalar .double)) (.sc (.num (.f64 0)))
  | integer {k} : k ≠ .float → k ≠ .double → DefaultOf (.one (.scalar k)) (.sc (.num (.int 0)))
  | bool : DefaultOf (.one .bool) (.sc (.bool false))
  | string : DefaultOf (.one .string) (.sc (.str []))
  | bytes : DefaultOf (.one .bytes) (.sc (.bytes []))
  | enum {vs} : DefaultOf (.one (.enum vs)) (.sc (.enum 0))
  | message {t w} : DefaultOf (.one (.embed t w)) .null
  | list {e} : DefaultOf (.rep e) (.list [])
  | map {k e} : DefaultOf (.map k e) (.map [])

/-- `fs'` are the fields `fs` with some fields of `d` that were not set now set to their defaults. -/
def FilledIn (d : MsgDesc) (fs fs' : List (String × Val)) : Prop :=
  ∀ f ∈ d.fields, fs'.lookup f.name = fs.lookup f.name ∨
    (fs.lookup f.name = none ∧ ∃ v, DefaultOf f.typ v ∧ fs'.lookup f.name = some v)

end PGV.Spec
