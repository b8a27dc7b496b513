import Verif.Spec.Local

/-!
Changes of .proto files that should not matter: the order of declarations, and fields without rules.
-/

namespace PGV.Spec
open PGV

/-- A field of message type (also repeated, or the values of a map). -/
def HoldsMessages (f : FieldDesc) : Prop :=
  match f.typ with
  | .one e | .rep e | .map _ e => e.isEmbed = true

/-- A field without rules, of another type or not set. -/
def Free (f : FieldDesc) (u : Val) : Prop := f.rules = .absent ∧ (¬ HoldsMessages f ∨ u = f.typ.zero)

/-- A member of a oneof without rules, which is not set. -/
def Spare (os : List (String × String × Val)) (o : OneofDesc) (f : FieldDesc) : Prop :=
  f.rules = .absent ∧ ∀ u, os.lookup o.name ≠ some (f.name, u)

/-- What `d'` declares is declared by `d`, in some order, except for free fields, spare members and oneofs that are
not required and have only spare members. -/
structure NoMore (d d' : MsgDesc) (fs : List (String × Val)) (os : List (String × String × Val)) : Prop where
  fields : ∀ f ∈ d'.fields, f ∈ d.fields ∨ Free f (getField fs f)
  oneofs : ∀ o' ∈ d'.oneofs,
    (∃ o ∈ d.oneofs, o.name = o'.name ∧ o.required = o'.required ∧ ∀ f ∈ o'.fields, f ∈ o.fields ∨ Spare os o' f) ∨
    (o'.required = false ∧ ∀ f ∈ o'.fields, Spare os o' f)

/-- The oneofs of the message are those of the type: members have different names, and the members that are set are
declared. -/
structure Fits (d : MsgDesc) (os : List (String × String × Val)) : Prop where
  names : ∀ o ∈ d.oneofs, (o.fields.map (·.name)).Nodup
  declared : ∀ o ∈ d.oneofs, ∀ m u, os.lookup o.name = some (m, u) → ∃ f ∈ o.fields, f.name = m

/-- Two versions of a message type, seen from one message. -/
structure Versions (d d' : MsgDesc) (fs : List (String × Val)) (os : List (String × String × Val)) : Prop where
  name : d.name = d'.name
  ignored : d.ignored = d'.ignored
  disabled : d.disabled = d'.disabled
  old : Fits d os
  new : Fits d' os
  fewer : NoMore d' d fs os
  more : NoMore d d' fs os

/-- Two versions of all the types in a message. -/
def Evolved (S S' : Schema) (v : Val) : Prop :=
  ∀ typ fs os, Part (.msg typ fs os) v →
    (∃ d d', S typ = .generated d ∧ S' typ = .generated d' ∧ Versions d d' fs os) ∨
    (S typ = S' typ ∧ ∀ d, S typ ≠ .generated d)

end PGV.Spec
