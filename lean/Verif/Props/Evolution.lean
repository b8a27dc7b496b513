import Verif.Lemmas.EvolutionPy
import Verif.Lemmas.Found
import Verif.Props.Fixtures
import Verif.Props.Java
import Verif.Props.Cpp
import Verif.Props.Python

/-!
C104: whether a message is valid does not depend on the order in which fields, oneofs and their members are declared, nor
on fields without rules that the message does not use.
-/

set_option linter.unusedSimpArgs false

namespace PGV.Props
open PGV PGV.Spec

/-- **C104** Go: `Validate` and `ValidateAll` accept the same messages under two versions of the types that differ in the
order of declarations and in free fields only. -/
theorem C104_go (E : Go.Env) (S S' : Schema) (all : Bool) (v : Val) (h : Evolved S S' v) :
    Go.validate E S all v = none ↔ Go.validate E S' all v = none := by
  have key : Go.validate E S false v = none ↔ Go.validate E S' false v = none :=
    ⟨Evolution.Go.valid _ v (Nat.le_refl _) h, Evolution.Go.valid _ v (Nat.le_refl _) (Evolution.evolved_symm h)⟩
  cases all with
  | false => exact key
  | true => exact (Go.validate_modes E S v).trans (key.trans (Go.validate_modes E S' v).symm)

/-- **C104** Go: `ValidateAll` reports the same violations, in the same fields of the same embedded messages, with the same
reasons; only their order may differ. -/
theorem C104_violations (E : Go.Env) (S S' : Schema) (v : Val) (h : Evolved S S' v) (p : List (String × Go.FieldRef))
    (x : Go.Err) : Finds (Go.validate E S true v) p x ↔ Finds (Go.validate E S' true v) p x :=
  (PGV.Found.like _ v (Nat.le_refl _) h).2 p x

/-- **C104** Java: `assertValid` returns for the same messages. -/
theorem C104_java (J : Java.JEnv) (S S' : Schema) (v : Val) (h : Evolved S S' v) :
    Java.assertValid J S v = .ok () ↔ Java.assertValid J S' v = .ok () :=
  ⟨Evolution.Java.valid _ v (Nat.le_refl _) h, Evolution.Java.valid _ v (Nat.le_refl _) (Evolution.evolved_symm h)⟩

/-- **C104** C++: `CheckMessage` returns true for the same messages. -/
theorem C104_cpp (P : Cpp.CEnv) (S S' : Schema) (v : Val) (h : Evolved S S' v) :
    Cpp.checkMessage P S v = .ok () ↔ Cpp.checkMessage P S' v = .ok () :=
  ⟨Evolution.Cpp.valid _ v (Nat.le_refl _) h, Evolution.Cpp.valid _ v (Nat.le_refl _) (Evolution.evolved_symm h)⟩

/-- **C104** Python: `validate` returns for the same messages. -/
theorem C104_python (P : Py.PEnv) (S S' : Schema) (v : Val) (h : Evolved S S' v) :
    Py.validate P S v = .ok () ↔ Py.validate P S' v = .ok () :=
  ⟨Evolution.Py.valid _ v (Nat.le_refl _) h, Evolution.Py.valid _ v (Nat.le_refl _) (Evolution.evolved_symm h)⟩

/-! ### A case -/

namespace Versions
open Fixtures

/-- A later version of `Person`: everything is in another order; a text, a message, a member and a oneof are new. -/
def later : MsgDesc :=
  { name := "Person",
    fields := [friends, { name := "Note", typ := .one .string, rules := .absent }, nick,
      { name := "Boss", typ := .one (.embed "Person" none), rules := .absent }, age],
    oneofs := [{ name := "Mood", required := false, fields := [{ name := "Fine", typ := .one .bool, rules := .absent }] },
      { contact with fields := { name := "Fax", typ := .one .string, rules := .absent } :: contact.fields.reverse }] }

def before : Schema := fun n => if n = "Person" then .generated person else .foreign
def after : Schema := fun n => if n = "Person" then .generated later else .foreign

/-- A person of age `n` with a friend, and a note that the first version does not know. -/
def cat (n : Int) : Val :=
  .msg "Person" [("Age", .sc (.num (.int n))), ("Note", .sc (.str (asc "new"))), ("Friends", .list [ann])]
    [("Contact", "Phone", .sc (.str (asc "555")))]

theorem versions (fs : List (String × Val)) (h : fs.lookup "Boss" = none) (u : Val) :
    Versions person later fs [("Contact", "Phone", u)] := by
  refine ⟨rfl, rfl, rfl, ⟨?_, ?_⟩, ⟨?_, ?_⟩, ⟨?_, ?_⟩, ⟨?_, ?_⟩⟩
  · decide
  · intro o ho m w hl
    simp only [person, List.mem_singleton] at ho
    subst ho
    cases hl
    exact ⟨_, .head _, rfl⟩
  · decide
  · intro o ho m w hl
    simp only [later, List.mem_cons, List.not_mem_nil, or_false] at ho
    rcases ho with rfl | rfl
    · cases hl
    · cases hl
      exact ⟨_, .tail _ (.tail _ (.head _)), rfl⟩
  · intro f hf
    simp only [person, List.mem_cons, List.not_mem_nil, or_false] at hf
    left
    rcases hf with rfl | rfl | rfl <;> simp [later]
  · intro o ho
    simp only [person, List.mem_singleton] at ho
    subst ho
    refine .inl ⟨_, .tail _ (.head _), rfl, rfl, fun f hf => .inl (.tail _ ?_)⟩
    exact List.mem_reverse.2 hf
  · intro f hf
    simp only [later, List.mem_cons, List.not_mem_nil, or_false] at hf
    rcases hf with rfl | rfl | rfl | rfl | rfl
    · left; simp [person]
    · exact .inr ⟨rfl, .inl (by simp [HoldsMessages, ElemT.isEmbed])⟩
    · left; simp [person]
    · refine .inr ⟨rfl, .inr ?_⟩
      simp only [getField, h]
      rfl
    · left; simp [person]
  · intro o ho
    simp only [later, List.mem_cons, List.not_mem_nil, or_false] at ho
    rcases ho with rfl | rfl
    · refine .inr ⟨rfl, fun f hf => ?_⟩
      simp only [List.mem_singleton] at hf
      subst hf
      exact ⟨rfl, fun u hu => by cases hu⟩
    · refine .inl ⟨contact, .head _, rfl, rfl, fun f hf => ?_⟩
      rcases List.mem_cons.1 hf with rfl | hf
      · refine .inr ⟨rfl, fun w hw => ?_⟩
        have : some ("Phone", u) = some ("Fax", w) := hw
        simp at this
      · exact .inl (List.mem_reverse.1 hf)

theorem evolved (n : Int) : Evolved before after (cat n) := by
  intro typ fs os hp
  left
  have : typ = "Person" ∧ fs.lookup "Boss" = none ∧ ∃ u, os = [("Contact", "Phone", u)] := by
    generalize hx : Val.msg typ fs os = x at hp
    unfold cat ann at hp
    cases hp with
    | self => cases hx; exact ⟨rfl, rfl, _, rfl⟩
    | field hm hp =>
      simp only [List.mem_cons, Prod.mk.injEq, List.not_mem_nil, or_false] at hm
      rcases hm with ⟨-, rfl⟩ | ⟨-, rfl⟩ | ⟨-, rfl⟩
      · cases hp; cases hx
      · cases hp; cases hx
      · cases hp with
        | self => cases hx
        | item hm hp =>
          simp only [List.mem_singleton] at hm
          subst hm
          cases hp with
          | self => cases hx; exact ⟨rfl, rfl, _, rfl⟩
          | field hm hp =>
            simp only [List.mem_cons, Prod.mk.injEq, List.not_mem_nil, or_false] at hm
            rcases hm with ⟨-, rfl⟩ | ⟨-, rfl⟩ <;> (cases hp; cases hx)
          | member hm hp =>
            simp only [List.mem_singleton, Prod.mk.injEq] at hm
            obtain ⟨-, -, rfl⟩ := hm
            cases hp; cases hx
    | member hm hp =>
      simp only [List.mem_singleton, Prod.mk.injEq] at hm
      obtain ⟨-, -, rfl⟩ := hm
      cases hp; cases hx
  obtain ⟨rfl, hb, u, rfl⟩ := this
  exact ⟨person, later, rfl, rfl, versions fs hb u⟩

end Versions

/-- The hypothesis is met, by messages that are valid and by others. -/
example : Evolved Versions.before Versions.after (Versions.cat 30) ∧ Evolved Versions.before Versions.after (Versions.cat 0) ∧
    Go.validate Fixtures.env Versions.before false (Versions.cat 30) = none ∧
    Go.validate Fixtures.env Versions.after false (Versions.cat 30) = none ∧
    Go.validate Fixtures.env Versions.before false (Versions.cat 0) ≠ none ∧
    Go.validate Fixtures.env Versions.after false (Versions.cat 0) ≠ none :=
  ⟨Versions.evolved 30, Versions.evolved 0, by decide +kernel, by decide +kernel, by decide +kernel, by decide +kernel⟩

/-- There is a violation to be found in the second of these. -/
example : Finds (Go.validate Fixtures.env Versions.after true (Versions.cat 0)) [("Person", ⟨"Age", none⟩)]
    (.viol "Person" ⟨"Age", none⟩ [.s "value must be greater than ", .num (.int 0)] none false) := by
  rw [← C104_violations _ _ _ _ (Versions.evolved 0)]
  refine ⟨_, rfl, .among (e := .viol "Person" ⟨"Age", none⟩ [.s "value must be greater than ", .num (.int 0)] none false) ?_ .bare⟩
  exact .head _

/-- **C104** Only the verdict is the same: the first violation that `Validate` reports is that of the field declared
first. -/
theorem C104_first (E : Go.Env) :
    let v := Val.msg "P" [("Age", .sc (.num (.int 0))), ("Nick", .sc (.str (asc "bobby")))] []
    let S : Schema := fun _ => .generated { name := "P", fields := [Fixtures.age, Fixtures.nick] }
    let S' : Schema := fun _ => .generated { name := "P", fields := [Fixtures.nick, Fixtures.age] }
    Evolved S S' v ∧ (Go.validate E S false v).bind fieldOf = some "Age" ∧
      (Go.validate E S' false v).bind fieldOf = some "Nick" := by
  refine ⟨fun typ fs os hp => .inl ⟨_, _, rfl, rfl, rfl, rfl, rfl, ⟨?_, ?_⟩, ⟨?_, ?_⟩, ⟨?_, ?_⟩, ⟨?_, ?_⟩⟩, ?_, ?_⟩
  all_goals first
    | (intro o ho; cases ho; done)
    | (intro f hf; simp only [List.mem_cons, List.not_mem_nil, or_false] at hf ⊢; exact .inl hf.symm)
    | rfl

end PGV.Props
