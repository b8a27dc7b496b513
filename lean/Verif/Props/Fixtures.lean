import Verif.Spec.Api

/-!
Concrete environments and schemas, used to show that the hypotheses of the property theorems can be
met.
-/

namespace PGV.Fixtures
open PGV PGV.Go PGV.Spec

/-- An environment in which nothing parses and no pattern matches. -/
def env : Env where
  now := 1600000000000000000
  matchRe := fun _ _ => false
  parseIP := fun _ => none
  parseMail := fun _ => .error "mail: no address"
  parseURL := fun _ => .error "parse error"
  lowerRune := fun r => r
  legacy := fun _ => none
  order := fun l => l
  order_perm := fun l => List.Perm.refl l
  mail_at := by intro s a h; cases h

/-- A field of type int32 that must be positive. -/
def age : FieldDesc :=
  { name := "Age", typ := .one (.scalar .int32),
    rules := .mk none (.num .int32 { gt := some (.int 0) }) }

/-- A string field of at most three characters. -/
def nick : FieldDesc :=
  { name := "Nick", typ := .one .string, rules := .mk none (.string { maxLen := some 3 }) }

/-- A repeated field of `Person` messages. -/
def friends : FieldDesc :=
  { name := "Friends", typ := .rep (.embed "Person" none), rules := .absent }

/-- A required oneof with two members. -/
def contact : OneofDesc :=
  { name := "Contact", required := true,
    fields := [{ name := "Phone", typ := .one .string, rules := .mk none (.string { minLen := some 2 }) },
               { name := "Peer", typ := .one (.embed "Person" none), rules := .absent }] }

/-- A recursive message type. -/
def person : MsgDesc :=
  { name := "Person", fields := [age, nick, friends], oneofs := [contact] }

/-- The schema: `Person`, and one-field types for single fields of it. -/
def schema : Schema := fun n =>
  if n = "Person" then .generated person
  else if n = "Age" then .generated { name := "Person", fields := [age] }
  else if n = "Nick" then .generated { name := "Person", fields := [nick] }
  else if n = "Friends" then .generated { name := "Person", fields := [friends] }
  else if n = "Contact" then .generated { name := "Person", oneofs := [contact] }
  else .foreign

/-- A valid person. -/
def ann : Val :=
  .msg "Person" [("Age", .sc (.num (.int 30))), ("Nick", .sc (.str (asc "ann")))]
    [("Contact", "Phone", .sc (.str (asc "555")))]

/-- A person with two violations, and a friend with one. -/
def bob : Val :=
  .msg "Person" [("Age", .sc (.num (.int 0))), ("Nick", .sc (.str (asc "bobby"))),
      ("Friends", .list [ann, .msg "Person" [("Age", .sc (.num (.int (-1))))]
        [("Contact", "Peer", ann)]])]
    [("Contact", "Phone", .sc (.str (asc "555")))]

/-- The schema in which every type is `M` with the single field `f`. -/
def only (f : FieldDesc) : Schema := fun _ => .generated { name := "M", fields := [f] }

theorem only_field (f : FieldDesc) : OnlyField (only f) "M" f := ⟨_, rfl, rfl, rfl, rfl⟩

/-- A singular field with the given rules. -/
def fieldOf (e : ElemT) (t : TypeRules) : FieldDesc :=
  { name := "X", typ := .one e, rules := .mk none t }

end PGV.Fixtures
