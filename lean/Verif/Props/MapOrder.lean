import Verif.Lemmas.MapOrderGo
import Verif.Lemmas.MapOrderCpp
import Verif.Lemmas.MapOrderPy
import Verif.Props.Collections
import Verif.Props.Java
import Verif.Props.Cpp
import Verif.Props.Python
import Verif.Props.Across

/-!
C98: messages that differ only in the order of the entries of maps, at any depth, get the same verdict,
whatever order the run visits them in.
-/

set_option linter.unusedSimpArgs false

namespace PGV.Props
open PGV PGV.Spec PGV.Go

/-- **C98** Go: `Validate()` and `ValidateAll()` accept both or neither. The `Validate` methods that older
versions of the plugin wrote are assumed to do so as well. -/
theorem C98_go (E : Env) (S : Schema) (hE : Respects fun v => E.legacy v = none)
    (o : List (Scalar × Val) → List (Scalar × Val)) (ho : ∀ l, (o l).Perm l) (all : Bool) (v w : Val) (h : Reorder v w) :
    validate (withOrder E o ho) S all v = none ↔ validate E S all w = none := by
  have h1 := C22_order E S o ho v
  have h2 := MapOrder.Go.verdict E S hE h
  cases all with
  | false => rw [← h1.1, h2]
  | true => rw [← h1.2.1, validate_modes, validate_modes, h2]

/-- **C98** Java: validators of other types are assumed to accept both or neither. -/
theorem C98_java (J : Java.JEnv) (S : Schema) (hJ : Respects fun v => J.other v = .ok ())
    (o : List (Scalar × Val) → List (Scalar × Val)) (ho : ∀ l, (o l).Perm l) (v w : Val) (h : Reorder v w) :
    Java.assertValid { J with order := o, order_perm := ho } S v = .ok () ↔ Java.assertValid J S w = .ok () :=
  MapOrder.Java.verdict J S hJ o ho h

/-- **C98** C++: the same for `CheckMessage`. -/
theorem C98_cpp (P : Cpp.CEnv) (S : Schema) (hP : Respects fun v => P.other v = .ok ())
    (o : List (Scalar × Val) → List (Scalar × Val)) (ho : ∀ l, (o l).Perm l) (v w : Val) (h : Reorder v w) :
    Cpp.checkMessage { P with order := o, order_perm := ho } S v = .ok () ↔ Cpp.checkMessage P S w = .ok () :=
  MapOrder.Cpp.verdict P S hP o ho h

/-- **C98** Python: the same for `validate`. -/
theorem C98_python (P : Py.PEnv) (S : Schema) (hP : Respects fun v => P.other v = .ok ())
    (o : List (Scalar × Val) → List (Scalar × Val)) (ho : ∀ l, (o l).Perm l) (v w : Val) (h : Reorder v w) :
    Py.validate { P with order := o, order_perm := ho } S v = .ok () ↔ Py.validate P S w = .ok () :=
  MapOrder.Py.verdict P S hP o ho h

namespace Depots

/-- `map<string, int32> counts = 1 [(validate.rules).map.values.int32.gt = 0];`. -/
def counts : FieldDesc :=
  { name := "Counts", typ := .map .string (.scalar .int32),
    rules := .mk none (.map {} .absent (.mk none (.num .int32 { gt := some (.int 0) }))) }

/-- `repeated Shelf shelves = 1 [(validate.rules).repeated.min_items = 1];`. -/
def shelves : FieldDesc :=
  { name := "Shelves", typ := .rep (.embed "Shelf" none), rules := .mk none (.repeated { minItems := some 1 } .absent) }

/-- A depot has shelves, and a shelf counts of things. -/
def depots : Schema := fun n =>
  if n = "Shelf" then .generated { name := "Shelf", fields := [counts] }
  else if n = "Depot" then .generated { name := "Depot", fields := [shelves] }
  else .foreign

/-- A depot with a shelf with two things, in some order. -/
def depot (xs : List (Scalar × Val)) : Val := .msg "Depot" [("Shelves", .list [.msg "Shelf" [("Counts", .map xs)] []])] []

/-- A count of the thing with the name of one byte. -/
def thing (b : UInt8) (n : Int) : Scalar × Val := (.str [b], .sc (.num (.int n)))

/-- The entries inside a list inside a message. -/
theorem depot_reorder {xs ys : List (Scalar × Val)} (h : xs.Perm ys) : Reorder (depot xs) (depot ys) :=
  .field (l := []) (.item (l := []) (.field (l := []) (.map h)))

end Depots

open Depots in
/-- The hypotheses are met by a nested message; it is accepted when both counts are positive, in all languages. -/
example : Reorder (depot [thing 97 1, thing 98 2]) (depot [thing 98 2, thing 97 1]) ∧
    (Respects fun v => Fixtures.env.legacy v = none) ∧ (Respects fun v => jenv.other v = .ok ()) ∧
    (Respects fun v => cenv.other v = .ok ()) ∧ (Respects fun v => penv.other v = .ok ()) ∧
    validate Fixtures.env depots false (depot [thing 97 1, thing 98 2]) = none ∧
    validate Fixtures.env depots false (depot [thing 97 1, thing 98 0]) ≠ none ∧
    Java.assertValid jenv depots (depot [thing 97 1, thing 98 2]) = .ok () ∧
    Java.assertValid jenv depots (depot [thing 97 1, thing 98 0]) ≠ .ok () ∧
    Cpp.checkMessage cenv depots (depot [thing 97 1, thing 98 2]) = .ok () ∧
    Cpp.checkMessage cenv depots (depot [thing 97 1, thing 98 0]) ≠ .ok () ∧
    Py.validate penv depots (depot [thing 97 1, thing 98 2]) = .ok () ∧
    Py.validate penv depots (depot [thing 97 1, thing 98 0]) ≠ .ok () :=
  ⟨depot_reorder (.swap _ _ _), fun _ _ _ => Iff.rfl, fun _ _ _ => Iff.rfl, fun _ _ _ => Iff.rfl, fun _ _ _ => Iff.rfl,
    by decide, by decide, rfl, fails_ne rfl, rfl, fails_ne rfl, rfl, fails_ne rfl⟩

open Depots in
/-- **C98** Only the verdict: of two wrong entries, the one that `Validate()` visits first is reported, so the
same message may give different errors in two runs. -/
theorem C98_report :
    ∃ (E : Env) (S : Schema) (o : List (Scalar × Val) → List (Scalar × Val)) (ho : ∀ l, (o l).Perm l) (v : Val),
      ∃ e e', validate E S false v = some e ∧ validate (withOrder E o ho) S false v = some e' ∧
        indexOf e = some (.key (.str [97])) ∧ indexOf e' = some (.key (.str [98])) :=
  ⟨Fixtures.env, depots, List.reverse, fun l => List.reverse_perm l, .msg "Shelf" [("Counts", .map [thing 97 0, thing 98 0])] [],
    _, _, rfl, rfl, rfl, rfl⟩

end PGV.Props
