import Verif.Go.Validate
import Verif.Checker.Check
import Verif.Spec.Errors

/-!
Vocabulary for stating properties of the generated Go API.
-/

namespace PGV.Spec
open PGV PGV.Go

/-- The errors inside the result of `ValidateAll()`. -/
def errorList : Option Err → List Err
  | none => []
  | some (.multi _ es) => es
  | some e => [e]

/-- The end of the chain of causes, taking the first error of a multi-error. -/
def root : Err → Err
  | .viol _ _ _ (some c) _ => root c
  | .multi _ (e :: _) => root e
  | e => e

/-- The message type `typ` has validation enabled and declares the field `f` only. By C03, whole
messages behave as their fields do on their own. -/
def OnlyField (S : Schema) (typ : String) (f : FieldDesc) : Prop :=
  ∃ d, S typ = .generated d ∧ d.disabled = false ∧ d.fields = [f] ∧ d.oneofs = []

/-- `Validate()` accepts a message of the one-field type `typ` whose field has the value `v`. -/
def Accepts (E : Env) (S : Schema) (typ : String) (f : FieldDesc) (v : Val) : Prop :=
  validate E S false (.msg typ [(f.name, v)] []) = none

/-- The errors `ValidateAll()` reports for a message of the one-field type `typ` whose field has the
value `v`. -/
def errorsFor (E : Env) (S : Schema) (typ : String) (f : FieldDesc) (v : Val) : List Err :=
  errorList (validate E S true (.msg typ [(f.name, v)] []))

/-- The generator accepts the rules of the field (for some regular expression compiler that accepts
everything: patterns are not what these properties are about). -/
def Checked (f : FieldDesc) : Prop := (Checker.checkField (fun _ => true) f).isSome = true

/-- The generator accepts the field's rules, when `compiles` says which patterns compile. -/
def Accepted (compiles : Bytes → Bool) (f : FieldDesc) : Prop := Checker.checkField compiles f ≠ none

/-- The generator accepts the message. -/
def AcceptedMsg (compiles : Bytes → Bool) (d : MsgDesc) : Prop := Checker.checkMsg compiles d ≠ none

/-- The same libraries and clock, with another map iteration order. -/
def withOrder (E : Env) (o : List (Scalar × Val) → List (Scalar × Val))
    (ho : ∀ l, (o l).Perm l) : Env := { E with order := o, order_perm := ho }

end PGV.Spec
