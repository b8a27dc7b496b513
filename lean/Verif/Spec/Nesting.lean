import Verif.Core.Schema
import Verif.Go.Err

/-!
Which messages a message embeds.
-/

namespace PGV.Spec
open PGV PGV.Go

/-- The rules for the elements of a repeated field (`none`: rules of another kind). -/
def itemRules (r : FieldRules) : Option FieldRules :=
  match r.type with
  | .repeated _ items => some items
  | .unset => some .absent
  | _ => none

/-- The rules for the values of a map field. -/
def valueRules (r : FieldRules) : Option FieldRules :=
  match r.type with
  | .map _ _ values => some values
  | .unset => some .absent
  | _ => none

/-- `HeldBy f v i rules w`: the message-typed field `f` with value `v` holds the message `w`, at the
index or key `i` for lists and maps, under the rules `rules`. -/
inductive HeldBy (f : FieldDesc) : Val → Option Idx → FieldRules → Val → Prop
  | field {t k w} : f.typ = .one (.embed t k) → HeldBy f w none f.rules w
  | item {t k vs n rules w} : f.typ = .rep (.embed t k) → itemRules f.rules = some rules →
      vs[n]? = some w → HeldBy f (.list vs) (some (.pos n)) rules w
  | value {kt t k kvs key rules w} : f.typ = .map kt (.embed t k) →
      valueRules f.rules = some rules → (key, w) ∈ kvs →
      HeldBy f (.map kvs) (some (.key key)) rules w

/-- The fields of a message that count: those outside oneofs and, for each oneof, the member that is
set, with their values. -/
inductive Active (d : MsgDesc) (fs : List (String × Val)) (os : List (String × String × Val)) :
    FieldDesc → Val → Prop
  | field {f} : f ∈ d.fields → Active d fs os f (getField fs f)
  | member {o m f v} : o ∈ d.oneofs → os.lookup o.name = some (m, v) →
      o.fields.find? (fun f => f.name == m) = some f → Active d fs os f v

/-- The type of the message has generated validation methods. -/
def Validated (S : Schema) (w : Val) : Prop :=
  ∃ typ fs os d, w = .msg typ fs os ∧ S typ = .generated d ∧ d.ignored = false

/-- `Embeds S v i f w`: the message `v` embeds `w`, in field `f` at index `i`, without `skip`; both
types have validation enabled. -/
inductive Embeds (S : Schema) : Val → FieldRef → Val → Prop
  | mk {typ fs os d f v i rules w} : S typ = .generated d → d.disabled = false →
      Active d fs os f v → HeldBy f v i rules w → rules.type = .unset →
      msgSkip rules.message = false → Validated S w →
      Embeds S (.msg typ fs os) ⟨f.name, i⟩ w

/-- Embedding at any depth (including the message itself). -/
inductive Nested (S : Schema) : Val → Val → Prop
  | self (v : Val) : Nested S v v
  | inner {v i w u} : Embeds S v i w → Nested S w u → Nested S v u

end PGV.Spec
