import Verif.Lemmas.Local
import Verif.Props.Java
import Verif.Props.Cpp
import Verif.Props.Python
import Verif.Props.Across

/-!
C99: a verdict depends on the declarations of the types of messages in the message only.
C100: it depends on the time only through `lt_now`, `gt_now` and `within`.
-/

set_option linter.unusedSimpArgs false

namespace PGV.Props
open PGV PGV.Spec PGV.Go

/-! ### C99 -/

/-- **C99** Go: with other declarations for types that do not occur in the message, `Validate()` and
`ValidateAll()` return the same error or none. -/
theorem C99_go (E : Env) (S S' : Schema) (v : Val) (h : SameTypes S S' v) (all : Bool) :
    validate E S' all v = validate E S all v :=
  Local.Go.validate_local E S S' E.now v h (.inl rfl) all

/-- **C99** Java: `assertValid` ends the same way. -/
theorem C99_java (J : Java.JEnv) (S S' : Schema) (v : Val) (h : SameTypes S S' v) :
    Java.assertValid J S' v = Java.assertValid J S v :=
  Local.Java.assert_local J S S' J.nowMs v h (.inl rfl)

/-- **C99** C++: `CheckMessage` ends the same way. -/
theorem C99_cpp (P : Cpp.CEnv) (S S' : Schema) (v : Val) (h : SameTypes S S' v) :
    Cpp.checkMessage P S' v = Cpp.checkMessage P S v :=
  Local.Cpp.check_local P S S' v h

/-- **C99** Python: `validate` ends the same way. -/
theorem C99_python (P : Py.PEnv) (S S' : Schema) (v : Val) (h : SameTypes S S' v) :
    Py.validate P S' v = Py.validate P S v :=
  Local.Py.validate_local P S S' P.now v h (.inl rfl)

namespace Diaries

/-- `google.protobuf.Timestamp seen = 1 [(validate.rules).timestamp.lt_now = true];`. -/
def seen : FieldDesc :=
  { name := "Seen", typ := .one (.embed "google.protobuf.Timestamp" (some .timestamp)),
    rules := .mk none (.timestamp { ltNow := some true }) }

/-- `google.protobuf.Timestamp due = 1 [(validate.rules).timestamp.gt_now = true];`. -/
def due : FieldDesc :=
  { name := "Due", typ := .one (.embed "google.protobuf.Timestamp" (some .timestamp)),
    rules := .mk none (.timestamp { gtNow := some true }) }

/-- `repeated Page pages = 1 [(validate.rules).repeated.min_items = 1];`. -/
def pages : FieldDesc :=
  { name := "Pages", typ := .rep (.embed "Page" none), rules := .mk none (.repeated { minItems := some 1 } .absent) }

/-- `Cover cover = 2;`. -/
def cover : FieldDesc := { name := "Cover", typ := .one (.embed "Cover" none), rules := .absent }

/-- `int32 colour = 1 [(validate.rules).int32.gt = 0];`. -/
def colour : FieldDesc :=
  { name := "Colour", typ := .one (.scalar .int32), rules := .mk none (.num .int32 { gt := some (.int 0) }) }

/-- A diary has pages and may have a cover, with the given fields. -/
def diaries (page cover' : List FieldDesc) : Schema := fun n =>
  if n = "Diary" then .generated { name := "Diary", fields := [pages, cover] }
  else if n = "Page" then .generated { name := "Page", fields := page }
  else if n = "Cover" then .generated { name := "Cover", fields := cover' }
  else .foreign

/-- A diary with one page and no cover. -/
def diary (page : List (String × Val)) : Val := .msg "Diary" [("Pages", .list [.msg "Page" page []])] []

/-- The messages in a diary whose page has no messages. -/
theorem part_diary {w : Val} {n : String} {u : Val} {typ : String} {fs : List (String × Val)} {os : List (String × String × Val)}
    (hu : ∀ typ fs os, ¬ Part (.msg typ fs os) u) (h : Part w (diary [(n, u)])) (hw : w = .msg typ fs os) :
    typ = "Diary" ∨ typ = "Page" := by
  subst hw
  cases h with
  | self => exact .inl rfl
  | field hm h =>
    rcases List.mem_singleton.1 hm with h2
    cases h2
    cases h with
    | item hm h =>
      rcases List.mem_singleton.1 hm with h2
      subst h2
      cases h with
      | self => exact .inr rfl
      | field hm h =>
        rcases List.mem_singleton.1 hm with h2
        cases h2
        exact absurd h (hu _ _ _)
      | member hm h => cases hm
  | member hm h => cases hm

/-- Numbers and instants have no messages in them. -/
theorem part_ts {t : PTime} (typ : String) (fs : List (String × Val)) (os : List (String × String × Val)) :
    ¬ Part (.msg typ fs os) (.ts t) := by
  intro h
  cases h

/-- Numbers and instants have no messages in them. -/
theorem part_sc {s : Scalar} (typ : String) (fs : List (String × Val)) (os : List (String × String × Val)) :
    ¬ Part (.msg typ fs os) (.sc s) := by
  intro h
  cases h

end Diaries

open Diaries in
/-- The declarations of a cover do not matter for a diary without one, whether its page is right or wrong; they
matter for one with a cover. -/
example : SameTypes (diaries [colour] []) (diaries [colour] [colour]) (diary [("Colour", .sc (.num (.int 1)))]) ∧
    SameTypes (diaries [colour] []) (diaries [colour] [colour]) (diary [("Colour", .sc (.num (.int 0)))]) ∧
    validate Fixtures.env (diaries [colour] []) false (diary [("Colour", .sc (.num (.int 1)))]) = none ∧
    validate Fixtures.env (diaries [colour] []) false (diary [("Colour", .sc (.num (.int 0)))]) ≠ none ∧
    validate Fixtures.env (diaries [colour] []) false
      (.msg "Diary" [("Pages", .list [.msg "Page" [("Colour", .sc (.num (.int 1)))] []]), ("Cover", .msg "Cover" [] [])] []) = none ∧
    validate Fixtures.env (diaries [colour] [colour]) false
      (.msg "Diary" [("Pages", .list [.msg "Page" [("Colour", .sc (.num (.int 1)))] []]), ("Cover", .msg "Cover" [] [])] []) ≠ none := by
  refine ⟨fun typ fs os h => ?_, fun typ fs os h => ?_, by decide, by decide, by decide, by decide⟩
  all_goals
    rcases part_diary (part_sc (s := _)) h rfl with rfl | rfl <;> rfl

/-! ### C100 -/

/-- **C100** Go: where no rule compares with the current time, `Validate()` and `ValidateAll()` give the same
result at any time. -/
theorem C100_go (E : Env) (S : Schema) (v : Val) (h : Without Relative S v) (t : Int) (all : Bool) :
    validate { E with now := t } S all v = validate E S all v :=
  Local.Go.validate_local E S S t v (fun _ _ _ _ => rfl) (.inr h) all

/-- **C100** Java: `assertValid` ends the same way at any time. -/
theorem C100_java (J : Java.JEnv) (S : Schema) (v : Val) (h : Without Relative S v) (t : Int) :
    Java.assertValid { J with nowMs := t } S v = Java.assertValid J S v :=
  Local.Java.assert_local J S S t v (fun _ _ _ _ => rfl) (.inr h)

/-- **C100** Python: `validate` ends the same way at any time. -/
theorem C100_python (P : Py.PEnv) (S : Schema) (v : Val) (h : Without Relative S v) (t : Int) :
    Py.validate { P with now := t } S v = Py.validate P S v :=
  Local.Py.validate_local P S S t v (fun _ _ _ _ => rfl) (.inr h)

/-- **C100** Go: with `lt_now` rules only, what is accepted now is accepted at any later time. -/
theorem C100_later (E : Env) (S : Schema) (v : Val) (h : Without (fun r => r.gtNow ≠ none ∨ r.within ≠ none) S v)
    (t : Int) (ht : E.now ≤ t) (all : Bool) (ha : validate E S all v = none) : validate { E with now := t } S all v = none :=
  Local.accept_kept (fun r o hr => Local.later ht r o hr) h all ha

/-- **C100** Go: with `gt_now` rules only, what is accepted now was accepted at any earlier time. -/
theorem C100_earlier (E : Env) (S : Schema) (v : Val) (h : Without (fun r => r.ltNow ≠ none ∨ r.within ≠ none) S v)
    (t : Int) (ht : t ≤ E.now) (all : Bool) (ha : validate E S all v = none) : validate { E with now := t } S all v = none :=
  Local.accept_kept (fun r o hr => Local.earlier ht r o hr) h all ha

namespace Diaries

/-- How a run ends, as a truth value. -/
theorem succeeds {r : Py.Run} (h : r.toBool = true) : r = .ok () := by
  cases r with
  | ok => rfl
  | error => cases h

/-- How a run ends, as a truth value. -/
theorem fails {r : Py.Run} (h : r.toBool = false) : r ≠ .ok () := by
  rintro rfl
  cases h

/-- Without rules of a kind: for the fields of a page that has none. -/
theorem without {P : TimestampRules → Prop} {f : FieldDesc} {n : String} {u : Val}
    (hf : ¬ Uses P f.rules) (hu : ∀ typ fs os, ¬ Part (.msg typ fs os) u) :
    Without P (diaries [f] []) (diary [(n, u)]) := by
  intro typ fs os d h hd g hg
  rcases part_diary hu h rfl with rfl | rfl
  · cases hd
    have : g = pages ∨ g = cover := by simpa [allFields] using hg
    rcases this with rfl | rfl
    · intro h
      cases h with
      | item h => cases h
    · intro h
      cases h
  · cases hd
    have : g = f := by simpa [allFields] using hg
    exact this ▸ hf

end Diaries

open Diaries in
/-- The hypotheses are met by a diary of each kind. -/
example : Without Relative (diaries [colour] []) (diary [("Colour", .sc (.num (.int 1)))]) ∧
    Without (fun r => r.gtNow ≠ none ∨ r.within ≠ none) (diaries [seen] []) (diary [("Seen", .ts ⟨5, 0⟩)]) ∧
    Without (fun r => r.ltNow ≠ none ∨ r.within ≠ none) (diaries [due] []) (diary [("Due", .ts ⟨5, 0⟩)]) := by
  refine ⟨without ?_ part_sc, without ?_ part_ts, without ?_ part_ts⟩
  · intro h; cases h
  · intro h; cases h with | here h => simp at h
  · intro h; cases h with | here h => simp at h

open Diaries in
/-- **C100** The clock does matter for the others: a page seen at second 5 is refused before and accepted after, in
Go, Java and Python; one due then is accepted before and refused after. -/
theorem C100_clock :
    (∃ (E : Env), validate { E with now := 4000000000 } (diaries [seen] []) false (diary [("Seen", .ts ⟨5, 0⟩)]) ≠ none ∧
      validate { E with now := 6000000000 } (diaries [seen] []) false (diary [("Seen", .ts ⟨5, 0⟩)]) = none ∧
      validate { E with now := 4000000000 } (diaries [due] []) false (diary [("Due", .ts ⟨5, 0⟩)]) = none ∧
      validate { E with now := 6000000000 } (diaries [due] []) false (diary [("Due", .ts ⟨5, 0⟩)]) ≠ none) ∧
    (∃ (J : Java.JEnv), Java.assertValid { J with nowMs := 4000 } (diaries [seen] []) (diary [("Seen", .ts ⟨5, 0⟩)]) ≠ .ok () ∧
      Java.assertValid { J with nowMs := 6000 } (diaries [seen] []) (diary [("Seen", .ts ⟨5, 0⟩)]) = .ok ()) ∧
    (∃ (P : Py.PEnv), Py.validate { P with now := 4 * Py.scale } (diaries [seen] []) (diary [("Seen", .ts ⟨5, 0⟩)]) ≠ .ok () ∧
      Py.validate { P with now := 6 * Py.scale } (diaries [seen] []) (diary [("Seen", .ts ⟨5, 0⟩)]) = .ok ()) :=
  ⟨⟨Fixtures.env, by decide, by decide, by decide, by decide⟩, ⟨jenv, fails_ne rfl, rfl⟩, ⟨penv, Diaries.fails (by decide +kernel), Diaries.succeeds (by decide +kernel)⟩⟩

end PGV.Props
