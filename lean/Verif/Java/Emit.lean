import Verif.Go.Emit

/-!
Whether Java generation succeeds for a message.
-/

namespace PGV.Java
open PGV

/-- Rendering an element of a list or map fails: `unwrap` (templates/java/register.go:500-508) asks the type
of the field, not of the element, for its embedded message, and gets nil for lists and maps. -/
def elemFails (e : ElemT) (rules : FieldRules) : Bool :=
  match Go.resolve e rules with
  | .wrapper _ _ => true
  | _ => false

/-- Rendering the constants of a field fails (templates/java/repeated.go:3, map.go:3-8, wrapper.go:3-4), and
so does rendering its code (repeated.go:19, map.go:24-29, wrapper.go:6-8). -/
def renderFails (f : FieldDesc) : Bool :=
  match f.typ, f.rules.type with
  | .rep e, .repeated _ items => elemFails e items
  | .map _ v, .map _ _ values => elemFails v values
  | _, _ => false

/-- Executing the "msgInner" template fails (templates/java/msg.go:14-35): the constants are rendered for
disabled messages as well. Simplification: the rules of disabled messages, which the generator does not
check, are taken to fit their fields. -/
def innerFails (d : MsgDesc) : Bool := (Go.allFields d).any renderFails

/-- Executing the "msg" template fails (templates/java/msg.go:3-12). -/
def genFails (d : MsgDesc) : Bool := !d.ignored && innerFails d

end PGV.Java
