import Verif.Java.Templates
import Verif.Spec.Nesting

/-!
What the exceptions of generated Java validators say: which field of which message an exception is about.
-/

namespace PGV.Spec
open PGV PGV.Java

/-- The full name of a field or oneof of a message type. -/
def fullName (typ name : String) : String := "." ++ typ ++ "." ++ name

/-- The same libraries, with every validator of other types accepting. -/
def lenient (J : JEnv) : JEnv := { J with other := fun _ => .ok () }

/-- The program in which the message type `typ` declares the field `f` only, and no other type has rules. -/
def soleField (typ : String) (f : FieldDesc) : Schema := fun t =>
  if t = typ then .generated { name := typ, fields := [f] } else .foreign

/-- The program in which the message type `typ` declares an optional oneof with the member `f` only. -/
def soleMember (typ : String) (o : OneofDesc) (f : FieldDesc) : Schema := fun t =>
  if t = typ then .generated { name := typ, oneofs := [{ name := o.name, required := false, fields := [f] }] }
  else .foreign

/-- What the rules of the field `f` of the type `typ` say about the value `v`, when there are no other rules. -/
def fieldAlone (J : JEnv) (typ : String) (f : FieldDesc) (v : Val) : Run :=
  assertValid (lenient J) (soleField typ f) (.msg typ [(f.name, v)] [])

/-- What the rules of the member `f` of the oneof `o` say about the value `v`, when there are no other rules. -/
def memberAlone (J : JEnv) (typ : String) (o : OneofDesc) (f : FieldDesc) (v : Val) : Run :=
  assertValid (lenient J) (soleMember typ o f) (.msg typ [] [(o.name, f.name, v)])

/-- The member of the oneof that is set. -/
def setMember (os : List (String × String × Val)) (o : OneofDesc) : Option (FieldDesc × Val) :=
  match os.lookup o.name with
  | some (m, v) => (o.fields.find? fun f => f.name == m).map fun f => (f, v)
  | none => none

/-- The oneof has no complaint of its own. -/
def OneofFine (J : JEnv) (typ : String) (os : List (String × String × Val)) (o : OneofDesc) : Prop :=
  (os.lookup o.name = none → o.required = false) ∧
  ∀ f v, setMember os o = some (f, v) → memberAlone J typ o f v = .ok ()

/-- `Blames J S u e`: the exception `e` is about the first field or oneof of the message `u` that breaks its own
rules, in the order of declaration with oneofs last, and if it names a field then by its full name. -/
inductive Blames (J : JEnv) (S : Schema) : Val → JErr → Prop
  | field {typ fs os d pre f post e} : S typ = .generated d → d.disabled = false →
      d.fields = pre ++ f :: post → (∀ g ∈ pre, fieldAlone J typ g (getField fs g) = .ok ()) →
      fieldAlone J typ f (getField fs f) = .error e → (∀ n, e.field = some n → n = fullName typ f.name) →
      Blames J S (.msg typ fs os) e
  | member {typ fs os d pre o post f v e} : S typ = .generated d → d.disabled = false →
      (∀ g ∈ d.fields, fieldAlone J typ g (getField fs g) = .ok ()) →
      d.oneofs = pre ++ o :: post → (∀ p ∈ pre, OneofFine J typ os p) → setMember os o = some (f, v) →
      memberAlone J typ o f v = .error e → (∀ n, e.field = some n → n = fullName typ f.name) →
      Blames J S (.msg typ fs os) e
  | oneof {typ fs os d pre o post} : S typ = .generated d → d.disabled = false →
      (∀ g ∈ d.fields, fieldAlone J typ g (getField fs g) = .ok ()) →
      d.oneofs = pre ++ o :: post → (∀ p ∈ pre, OneofFine J typ os p) → os.lookup o.name = none →
      o.required = true → Blames J S (.msg typ fs os) (.validation (fullName typ o.name) "is required")

/-- Some rule says that a wrapper message must be present. -/
def RequiresWrapper (e : ElemT) (r : FieldRules) : Prop :=
  e.isEmbed = true ∧ msgRequired r.message = true ∧
    match r.type with
    | .num _ _ | .bool _ | .string _ | .bytes _ => True
    | _ => False

/-- The values of a field have the type `e` and the rules `r`: the field itself, its items or its map values. -/
def HasElem (f : FieldDesc) (e : ElemT) (r : FieldRules) : Prop :=
  (f.typ = .one e ∧ r = f.rules) ∨ (f.typ = .rep e ∧ itemRules f.rules = some r) ∨
  ∃ k, f.typ = .map k e ∧ valueRules f.rules = some r

/-- No field of the program is a wrapper with rules of its own that is also `required`. -/
def NoRequiredWrappers (S : Schema) : Prop :=
  ∀ typ d f e r, S typ = .generated d → (f ∈ d.fields ∨ ∃ o ∈ d.oneofs, f ∈ o.fields) → HasElem f e r →
    ¬ RequiresWrapper e r

end PGV.Spec
