import Verif.Lemmas.Deep
import Verif.Props.Core

/-!
C107: `ValidateAll` finds the violations of the messages nested in a message, and nothing else.
-/

set_option linter.unusedSimpArgs false

namespace PGV.Props
open PGV PGV.Go PGV.Spec

/-- **C107** What `ValidateAll()` of a message nested in `v` reports, at any depth and in any field, list or map,
`ValidateAll()` of `v` reports too, at the path to that message. -/
theorem C107_found (E : Env) (S : Schema) (v w : Val) (p q : List (String × FieldRef)) (x : Err) (h : At S v p w)
    (hx : Finds (validate E S true w) q x) : Finds (validate E S true v) (p ++ q) x := by
  induction h with
  | here => exact hx
  | inner he hd _ ih => exact Deep.step he hd (ih hx)

/-- **C107** Whatever `ValidateAll()` of `v` reports is a violation of `v` itself or of a message nested in `v`, and is
reported at the path to that message. -/
theorem C107_source (E : Env) (S : Schema) (v : Val) (r : List (String × FieldRef)) (x : Err)
    (h : Finds (validate E S true v) r x) :
    ∃ p w q, At S v p w ∧ r = p ++ q ∧ OwnViolation E S w q x :=
  Deep.source _ v (Nat.le_refl _) r x h

/-- **C107** Both directions together: `ValidateAll()` of `v` reports exactly the violations of the messages nested in
`v`, `v` included, each at the path to its message. -/
theorem C107_exactly (E : Env) (S : Schema) (v : Val) (r : List (String × FieldRef)) (x : Err) :
    Finds (validate E S true v) r x ↔ ∃ p w q, At S v p w ∧ r = p ++ q ∧ OwnViolation E S w q x := by
  refine ⟨C107_source E S v r x, ?_⟩
  rintro ⟨p, w, q, h1, rfl, typ, es, e, h2, h3, h4, -⟩
  exact C107_found E S v w p q x h1 ⟨_, h2, .among h3 h4⟩

/-- **C107** What `Validate()` reports is among what `ValidateAll()` reports, at the same path. -/
theorem C107_first (E : Env) (S : Schema) (v : Val) (r : List (String × FieldRef)) (x : Err)
    (h : Finds (validate E S false v) r x) : Finds (validate E S true v) r x := by
  obtain ⟨e, he, hf⟩ := h
  obtain ⟨n, e', rest, h1, h2, -⟩ := C02_first_error E S v e he
  exact ⟨_, h1, .among (.head _) (Deep.firstOf h2 _ _ hf)⟩

/-- A message that holds `bob`, whose second friend has a bad age. -/
def host : Val := .msg "Person" [("Age", .sc (.num (.int 7)))] [("Contact", "Peer", Fixtures.bob)]

/-- The second friend of `bob`. -/
def friend : Val := .msg "Person" [("Age", .sc (.num (.int (-1))))] [("Contact", "Peer", Fixtures.ann)]

/-- C107's hypotheses are met: the friend is two levels deep, ... -/
theorem host_friend : At Fixtures.schema host [("Person", ⟨"Peer", none⟩), ("Person", ⟨"Friends", some (.pos 1)⟩)] friend := by
  have hv : Validated Fixtures.schema Fixtures.bob := ⟨_, _, _, Fixtures.person, rfl, rfl, rfl⟩
  refine .inner (d := Fixtures.person) (.mk (d := Fixtures.person) (rules := .absent) rfl rfl
    (.member (o := Fixtures.contact) (m := "Peer")
      (f := { name := "Peer", typ := .one (.embed "Person" none), rules := .absent })
      (by simp [Fixtures.person]) rfl rfl) (.field rfl) rfl rfl hv) rfl ?_
  exact .inner (d := Fixtures.person) (.mk (d := Fixtures.person) (rules := .absent) (f := Fixtures.friends) rfl rfl
    (.field (by simp [Fixtures.person])) (.item (n := 1) rfl rfl rfl) rfl rfl
    ⟨_, _, _, Fixtures.person, rfl, rfl, rfl⟩) rfl (.here _)

/-- ... `ValidateAll()` finds something in it, and so does that of the message two levels up. -/
example : ∃ q x, Finds (validate Fixtures.env Fixtures.schema true friend) q x ∧
    Finds (validate Fixtures.env Fixtures.schema true host)
      ([("Person", ⟨"Peer", none⟩), ("Person", ⟨"Friends", some (.pos 1)⟩)] ++ q) x := by
  have h : ∃ q x, Finds (validate Fixtures.env Fixtures.schema true friend) q x := by
    refine ⟨_, _, _, rfl, .among (.head _) .bare⟩
  obtain ⟨q, x, h⟩ := h
  exact ⟨q, x, h, C107_found _ _ _ _ _ q x host_friend h⟩

end PGV.Props
