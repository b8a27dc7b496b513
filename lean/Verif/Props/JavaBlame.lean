import Verif.Lemmas.JavaBlame
import Verif.Props.Java

/-!
C75: which field the exceptions of generated Java validators are about.
-/

set_option linter.unusedSimpArgs false

namespace PGV.Props
open PGV PGV.Java PGV.Spec
open PGV.Go (depth)

/-- **C75** Whenever a generated Java validator throws, the exception is about the first field or oneof, in the order
of declaration with oneofs last, that breaks its own rules, in the message or in one embedded in it at any depth:
that field, were it the only one with rules, throws the very same exception, the fields and oneofs before it throw
none, and if the exception names a field then by the full name `.Type.field` of this one. The only other source is a
validator that was not generated here.
Missing for the full property: wrapper fields that are `required` (`C75_required_wrapper_misnamed`). -/
theorem C75_violation_names_field_partial (J : JEnv) (S : Schema) (hw : NoRequiredWrappers S) (v : Val) (e : JErr)
    (h : assertValid J S v = .error e) :
    (∃ u, Nested S v u ∧ Blames J S u e) ∨ ∃ w, ¬ Validated S w ∧ J.other w = .error e :=
  error_source hw (depth v) v (Nat.le_refl _) h

/-- The program with the type `Person` only. -/
def people : Schema := fun n => if n = "Person" then .generated Fixtures.person else .foreign

/-- None of its fields is a wrapper. -/
theorem people_no_wrappers : NoRequiredWrappers people := by
  intro typ d f e r hS hf he hr
  have hd : d = Fixtures.person := by
    unfold people at hS
    split at hS
    · cases hS; rfl
    · cases hS
  subst hd
  have hm : f = Fixtures.age ∨ f = Fixtures.nick ∨ f = Fixtures.friends ∨ f ∈ Fixtures.contact.fields := by
    rcases hf with hf | ⟨o, ho, hf⟩
    · simp [Fixtures.person] at hf
      rcases hf with h | h | h <;> simp [h]
    · simp [Fixtures.person] at ho
      subst ho
      exact .inr (.inr (.inr hf))
  have hn : ¬ msgRequired r.message = true := by
    simp only [Fixtures.contact, List.mem_cons, List.not_mem_nil, or_false] at hm
    rcases hm with h | h | h | h | h <;> subst h <;>
      simp [HasElem, Fixtures.age, Fixtures.nick, Fixtures.friends, itemRules, valueRules, FieldRules.absent,
        FieldRules.type] at he <;>
      (obtain ⟨rfl, rfl⟩ := he; simp [msgRequired, FieldRules.message])
  exact hn hr.2.1

/-- A person whose second friend has a nickname that is too long. -/
def cleo : Val :=
  .msg "Person" [("Age", .sc (.num (.int 41))),
      ("Friends", .list [Fixtures.ann, .msg "Person" [("Age", .sc (.num (.int 7))),
        ("Nick", .sc (.str (asc "friend")))] []])]
    [("Contact", "Phone", .sc (.str (asc "555")))]

/-- Validating them throws, and the exception names the field of the friend. -/
theorem cleo_throws : assertValid jenv people cleo =
    .error (.validation ".Person.Nick" [.s "length must be at most ", .nat 3, .s " but got: ", .nat 6]) := by
  rfl

example : ∃ u, Nested people cleo u ∧ Blames jenv people u
    (.validation ".Person.Nick" [.s "length must be at most ", .nat 3, .s " but got: ", .nat 6]) :=
  (C75_violation_names_field_partial jenv people people_no_wrappers cleo _ cleo_throws).resolve_right
    (by rintro ⟨w, -, h⟩; cases h)

/-- **C75, negation** A wrapper field with rules that is `required` and left unset: the exception does not name the
field. The template writes the field's descriptor as Go prints a struct, where the others write its name. -/
theorem C75_required_wrapper_misnamed (J : JEnv) (typ : String) (f : FieldDesc) (S : Schema)
    (hS : OnlyField S typ f) (hi : NotIgnored S typ) (n : String) (w : Option WKT) (m : MessageRules)
    (t : TypeRules) (hT : f.typ = .one (.embed n w)) (hr : f.rules = .mk (some m) t) (hreq : m.required = some true)
    (ht : (∃ k r, t = .num k r ∧ k ∈ [.float, .double, .int32, .int64, .uint32, .uint64]) ∨
      (∃ r, t = .bool r) ∨ (∃ r, t = .string r) ∨ ∃ r, t = .bytes r) :
    ∃ name reason, assertValid J S (.msg typ [(f.name, .null)] []) = .error (.validation name reason) ∧
      name ≠ fullName typ f.name := by
  refine ⟨printedField J (fullyQualified typ f.name), "is required", ?_, ?_⟩
  · obtain ⟨d, hd, hdis, hf, ho⟩ := hS
    rw [assertValid_eq]
    simp only [assertStep, hd, hdis, hi d hd, hf, ho, forEach, Go.getField_single, Bool.false_eq_true, if_false]
    rcases ht with ⟨k, r, rfl, hk⟩ | ⟨r, rfl⟩ | ⟨r, rfl⟩ | ⟨r, rfl⟩
    · simp only [List.mem_cons, List.not_mem_nil, or_false] at hk
      rcases hk with rfl | rfl | rfl | rfl | rfl | rfl <;>
        simp [renderField, hT, hr, elemTpl, Go.resolve, FieldRules.type, FieldRules.message, ElemT.isEmbed, wrapperTpl,
          msgRequired, optB, hreq, when, seq]
    all_goals
      simp [renderField, hT, hr, elemTpl, Go.resolve, FieldRules.type, FieldRules.message, ElemT.isEmbed, wrapperTpl,
        msgRequired, optB, hreq, when, seq]
  · unfold printedField fullName
    intro h
    have := congrArg String.toList h
    simp at this

/-- A required `Int32Value` that must be positive. -/
def requiredWrapper : FieldDesc :=
  { name := "X", typ := .one (.embed "google.protobuf.Int32Value" (some .int32Value)),
    rules := .mk (some { required := some true }) (.num .int32 { gt := some (.int 0) }) }

example : Checked requiredWrapper ∧ ∃ name reason,
    assertValid jenv (Fixtures.only requiredWrapper) (.msg "M" [("X", .null)] []) = .error (.validation name reason) ∧
      name ≠ ".M.X" :=
  ⟨by unfold Checked; decide, C75_required_wrapper_misnamed jenv "M" requiredWrapper _ (Fixtures.only_field _)
    (only_notIgnored _) _ _ _ _ rfl rfl rfl (.inl ⟨_, _, rfl, by simp⟩)⟩

end PGV.Props
