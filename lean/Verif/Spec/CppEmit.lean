import Verif.Spec.Emit
import Verif.Cpp.Emit

/-!
Vocabulary about generated C++ files.
-/

namespace PGV.Spec.Cpp
open PGV PGV.Spec

/-- A wrapper message such as `google.protobuf.Int32Value`. -/
def IsWrapper (e : ElemT) : Prop := ∃ n w p, e = .embed n (some w) ∧ w.wrapped = some p

/-- The rules are of a kind for wrappers and scalars, not for `Any`, `Duration` or `Timestamp`, whose
types the generator does not check. -/
def NotTimeOrAny : TypeRules → Prop
  | .any _ | .duration _ | .timestamp _ => False
  | _ => True

/-- A wrapper other than `StringValue` with an `in` or `not_in` list. -/
def ListedWrapper (f : FieldDesc) : Prop :=
  ∃ e, f.typ = .one e ∧ IsWrapper e ∧ (∀ n, e ≠ .embed n (some .stringValue)) ∧ HasList f.rules.type ∧
    NotTimeOrAny f.rules.type

/-- A message with an `in` or `not_in` list of numbers, bytes or enum values. -/
def ListedMessage (f : FieldDesc) : Prop :=
  (∃ n w, f.typ = .one (.embed n w)) ∧ HasList f.rules.type ∧
    match f.rules.type with
    | .num _ _ | .bytes _ | .enum _ => True
    | _ => False

/-- A list of wrappers with rules on the items, or a map to wrappers with rules on the values. -/
def RuledWrapperElems (f : FieldDesc) : Prop :=
  (∃ e r items, f.typ = .rep e ∧ f.rules.type = .repeated r items ∧ IsWrapper e ∧
    (∃ m t, items = .mk m t ∧ t ≠ .unset ∧ NotTimeOrAny t)) ∨
  (∃ k e r keys values, f.typ = .map k e ∧ f.rules.type = .map r keys values ∧ IsWrapper e ∧
    (∃ m t, values = .mk m t ∧ t ≠ .unset ∧ NotTimeOrAny t))

/-- A list whose items must be unique, also when it is empty. -/
def UniqueList (f : FieldDesc) : Prop :=
  ∃ e r items, f.typ = .rep e ∧ f.rules.type = .repeated r items ∧ r.unique = some true ∧
    r.ignoreEmpty ≠ some true

/-- At most one of the fields has the property. -/
def AtMostOne (p : FieldDesc → Prop) (fs : List FieldDesc) : Prop :=
  fs.Pairwise fun f g => ¬ (p f ∧ p g)

/-- Messages of a file have different names, nested ones too, and so have the fields of a message. -/
def WellNamed (F : PGV.Cpp.File) : Prop :=
  (F.map (·.short)).Nodup ∧ ∀ m ∈ F, ((Go.allFields m.desc).map (·.name)).Nodup

end PGV.Spec.Cpp
