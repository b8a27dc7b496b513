import Verif.Lemmas.Verdict
import Verif.Lemmas.SimpleCalm
import Verif.Props.Simple

/-!
C102: validation ends in a verdict. What is refused is refused with the validation error of the language, and with
no other exception.
-/

set_option linter.unusedSimpArgs false

namespace PGV.Props
open PGV PGV.Spec PGV.Spec.Simple PGV.Go


/-- **C102, partial** Java: on a message whose times can be compared with the limits of their rules, and whose rules
name declared enum constants, `assertValid` returns or throws a `ValidationException`, whatever the other rules and
values are, at any depth. Missing: `C102_java_duration`, `C102_java_enum`,
`C102_java_within`. -/
theorem C102_java_partial (J : Java.JEnv) (S : Schema) (hO : ∀ w, Outside S w → IsVerdict (J.other w)) (v : Val)
    (h : AllSettled J S v) : IsVerdict (Java.assertValid J S v) :=
  Java.Calm.valid hO _ v (Nat.le_refl _) h

/-- **C102, partial** Python: on a message whose types have simple rules only, `validate` returns or raises
`ValidationFailed`, at any depth. Missing: rules of the other kinds; some of them crash (`C102_python_infinity`,
`C102_python_glued`). -/
theorem C102_python_partial (P : Py.PEnv) (S : Schema) (hO : ∀ w, Outside S w → P.other w ≠ .error .crash) (v : Val)
    (hs : Simple P S v) (ht : WellTyped S v) : Py.validate P S v ≠ .error .crash :=
  PGV.Simple.calm_validate hO _ v (Nat.le_refl _) hs ht

section
variable {P : Py.PEnv} {J : Java.JEnv} {S : Schema}

theorem settled_type {e : ElemT} {t : TypeRules} (h : SimpleType e t) (v : Val) : Settled J e t v := by
  cases h with
  | @enum l r h =>
    have : ∀ declared c, ElemT.enum l = .enum declared → r.const = some c → c ∈ declared := by
      intro d c hd hc
      cases hd
      exact h.declared.1 c hc
    cases v <;> exact this
  | _ => cases v <;> trivial

theorem settled_elem {e : ElemT} {rules : FieldRules} (h : SimpleElem P e rules) (v : Val) : Settled J e rules.type v := by
  cases h with
  | free => cases v <;> trivial
  | ruled h => exact settled_type h v

theorem settled_field {f : FieldDesc} (h : SimpleField P f.typ f.rules) (v : Val) : SettledField J f v := by
  obtain ⟨name, typ, rules⟩ := f
  dsimp only at h
  cases h with
  | one h => exact settled_elem h v
  | required => cases v <;> trivial
  | list => cases v <;> trivial
  | listRules h =>
    cases v with
    | list vs => exact fun v _ => settled_elem h v
    | _ => trivial
  | map => cases v <;> trivial
  | mapRules hk _ _ hv =>
    cases v with
    | map kvs => exact fun kv _ => ⟨settled_elem hk _, settled_elem hv _⟩
    | _ => trivial

theorem settled_simple {v : Val} (h : Simple P S v) : AllSettled J S v := fun typ fs os d hp hd =>
  ⟨fun f hf => settled_field (h typ fs os d hp hd f (List.mem_append_left _ hf)) _, fun o ho f hf u _ =>
    settled_field (h typ fs os d hp hd f (List.mem_append_right _ (List.mem_flatMap.2 ⟨o, ho, hf⟩))) u⟩

end

/-- **C102, partial** On a message whose types have simple rules only, all languages end in a verdict: Java throws
nothing but a `ValidationException`, C++ throws nothing, Python raises nothing but `ValidationFailed`; and the three
refuse exactly what Go's `Validate()` returns an error for. Missing: rules of the other kinds. -/
theorem C102_simple_partial (E : Env) (J : Java.JEnv) (Q : Cpp.CEnv) (P : Py.PEnv) (S : Schema)
    (hO : Others E J Q P S) (hJ : ∀ w, Outside S w → IsVerdict (J.other w))
    (hP : ∀ w, Outside S w → P.other w ≠ .error .crash) (typ : String) (d : MsgDesc) (hS : S typ = .generated d)
    (hi : d.ignored = false) (fs : List (String × Val)) (os : List (String × String × Val))
    (hs : Simple P S (.msg typ fs os)) (ht : WellTyped S (.msg typ fs os)) :
    (validate E S false (.msg typ fs os) = none ∧ Java.assertValid J S (.msg typ fs os) = .ok () ∧
      Cpp.checkMessage Q S (.msg typ fs os) = .ok () ∧ Py.validate P S (.msg typ fs os) = .ok ()) ∨
    (validate E S false (.msg typ fs os) ≠ none ∧
      (∃ e n, Java.assertValid J S (.msg typ fs os) = .error e ∧ e.field = some n) ∧
      (∃ e, Cpp.checkMessage Q S (.msg typ fs os) = .error e ∧ ∀ w, e ≠ .unimplemented w) ∧
      ∃ e, Py.validate P S (.msg typ fs os) = .error e ∧ e ≠ .crash) := by
  obtain ⟨hj, ⟨hc, hu⟩, hp, _⟩ := C101_agree E J Q P S hO typ d hS hi fs os hs ht
  have kj := C102_java_partial J S hJ _ (settled_simple (J := J) hs)
  have kp := C102_python_partial P S hP _ hs ht
  by_cases h : validate E S false (.msg typ fs os) = none
  · exact .inl ⟨h, hj.2 h, hc.2 h, hp.2 h⟩
  · refine .inr ⟨h, ?_, ?_, ?_⟩
    · cases hr : Java.assertValid J S (.msg typ fs os) with
      | ok u => exact absurd (hj.1 hr) h
      | error e =>
        cases hf : e.field with
        | none => exact absurd hf (kj e hr)
        | some n => exact ⟨e, n, rfl, hf⟩
    · cases hr : Cpp.checkMessage Q S (.msg typ fs os) with
      | ok u => exact absurd (hc.1 hr) h
      | error e => exact ⟨e, rfl, fun w he => hu w (by rw [hr, he])⟩
    · cases hr : Py.validate P S (.msg typ fs os) with
      | ok u => exact absurd (hp.1 hr) h
      | error e => exact ⟨e, rfl, fun he => kp (by rw [hr, he])⟩

/-- **C102, negation** Java: a limit on a duration throws an IllegalArgumentException for a duration that is out of
range; Go returns an ordinary validation error. -/
theorem C102_java_duration (E : Env) (J : Java.JEnv) :
    let f := Fixtures.fieldOf (.embed "google.protobuf.Duration" (some .duration)) (.duration { gt := some ⟨0, 0⟩ })
    Checked f ∧ Java.assertValid J (Fixtures.only f) (.msg "M" [("X", .dur ⟨1, -5⟩)] []) =
        .error (.runtime "IllegalArgumentException") ∧
      validate E (Fixtures.only f) false (.msg "M" [("X", .dur ⟨1, -5⟩)] []) ≠ none := by
  intro f
  refine ⟨by unfold Checked; decide, rfl, by intro h; cases h⟩

/-- **C102, negation** Java: a constant that the enum does not declare throws a NullPointerException for all values;
Go returns an ordinary validation error for them. -/
theorem C102_java_enum (E : Env) (J : Java.JEnv) :
    let f := Fixtures.fieldOf (.enum [0, 1]) (.enum { const := some 7 })
    Checked f ∧ Java.assertValid J (Fixtures.only f) (.msg "M" [("X", .sc (.enum 1))] []) =
        .error (.runtime "NullPointerException") ∧
      validate E (Fixtures.only f) false (.msg "M" [("X", .sc (.enum 1))] []) ≠ none := by
  intro f
  refine ⟨by unfold Checked; decide, rfl, by intro h; cases h⟩

/-- **C102, negation** Java: `within` throws an ArithmeticException for a time that is more than 292 years from now,
here the year 9000; Go returns an ordinary validation error. -/
theorem C102_java_within :
    let f := Fixtures.fieldOf (.embed "google.protobuf.Timestamp" (some .timestamp))
      (.timestamp { within := some ⟨3600, 0⟩ })
    Checked f ∧ Java.assertValid jenv (Fixtures.only f) (.msg "M" [("X", .ts ⟨221845392000, 0⟩)] []) =
        .error (.runtime "ArithmeticException") ∧
      validate Fixtures.env (Fixtures.only f) false (.msg "M" [("X", .ts ⟨221845392000, 0⟩)] []) ≠ none := by
  intro f
  refine ⟨by unfold Checked; decide, rfl, by decide +kernel⟩

/-- **C102, negation** Python: an infinite limit crashes `validate`. -/
theorem C102_python_infinity (P : Py.PEnv) :
    let f := Fixtures.fieldOf (.scalar .float) (.num .float { lt := some (.f32 0x7F800000#32) })
    Checked f ∧ Py.validate P (Fixtures.only f) (.msg "M" [("X", .sc (.num (.f32 0#32)))] []) = .error .crash := by
  intro f
  exact ⟨by unfold Checked; decide, rfl⟩

/-- **C102, negation** Python: any of `const`, `in` and `not_in` on a duration, together with `lt` or `lte` and no
lower limit, makes text that does not parse: `validate` raises a SyntaxError whatever the message holds. -/
theorem C102_python_glued (P : Py.PEnv) (r : DurationRules)
    (hl : r.const ≠ none ∨ r.ins ≠ [] ∨ r.notIns ≠ []) (hu : r.lt ≠ none ∨ r.lte ≠ none) (hg : r.gt = none)
    (hge : r.gte = none) (v : Val) :
    let f := Fixtures.fieldOf (.embed "google.protobuf.Duration" none) (.duration r)
    Py.validate P (Fixtures.only f) (.msg "M" [("X", v)] []) = .error .crash := by
  intro f
  have seqNone : ∀ {α : Type} (c : Py.Code α), Py.Code.seq c none = none := by
    intro α c
    cases c <;> rfl
  have hglue : (r.const.isSome || !r.ins.isEmpty || !r.notIns.isEmpty) = true := by
    rcases hl with h | h | h
    · cases hc : r.const with
      | none => exact absurd hc h
      | some => rfl
    · cases hc : r.ins with
      | nil => exact absurd hc h
      | cons => simp
    · cases hc : r.notIns with
      | nil => exact absurd hc h
      | cons => simp
  have hr : ∀ nm, Py.timeRange nm true (r.lt.map Py.durLit) (r.lte.map Py.durLit) none none = none := by
    intro nm
    cases h1 : r.lt with
    | some => rfl
    | none =>
      cases h2 : r.lte with
      | some => rfl
      | none => rcases hu with h | h <;> contradiction
  have hb : ∀ nm, Py.durBody nm r = none := by
    intro nm
    unfold Py.durBody
    rw [hg, hge, hglue]
    simp only [Option.map_none, hr, seqNone]
  have hc : ∀ nm pl, Py.durationCode nm pl r = none := by
    intro nm pl
    unfold Py.durationCode
    rw [hb]
    simp [Py.onSecs, Py.Code.block, seqNone]
  have ht : (r != {}) = true := by
    simp only [bne_iff_ne, ne_eq]
    rintro rfl
    simp at hl
  rw [Py.validate_eq]
  show Py.Code.run (Py.msgCode P _ _) _ = _
  have hf : ∀ rec, Py.fieldCode P rec false f = none := by
    intro rec
    simp only [f, Fixtures.fieldOf, Py.fieldCode, Py.unruled, Bool.false_and, Bool.false_eq_true, if_false, Py.messageField, ht,
      if_true, hc]
  unfold Py.msgCode
  simp [hf, Py.seqAll, seqNone, Py.Code.on, Py.Code.run]
  rfl

/-- Rules like that, which the checker accepts. (It refuses `const` and `in` together with limits, but Python does
without the checker.) -/
example : Checked (Fixtures.fieldOf (.embed "google.protobuf.Duration" none)
    (.duration { notIns := [⟨1, 0⟩, ⟨3, 0⟩], lte := some ⟨2, 0⟩ })) := by unfold Checked; decide

/-! ### Cases -/

/-- A time within an hour of now, and one that is not, both refused or accepted by a verdict. -/
example :
    let f := Fixtures.fieldOf (.embed "google.protobuf.Timestamp" (some .timestamp))
      (.timestamp { within := some ⟨3600, 0⟩ })
    ∀ s, 0 ≤ s → s ≤ 3200000000 → AllSettled jenv (Fixtures.only f) (.msg "M" [("X", .ts ⟨s, 0⟩)] []) := by
  intro f s h0 h1 typ fs os d hp hd
  have hm : typ = "M" ∧ fs = [("X", .ts ⟨s, 0⟩)] ∧ os = [] := by
    cases hp with
    | self => exact ⟨rfl, rfl, rfl⟩
    | field hm hp => cases List.mem_singleton.1 hm; nomatch hp
    | member hm => cases hm
  obtain ⟨rfl, rfl, rfl⟩ := hm
  cases hd
  refine ⟨fun g hg => ?_, by simp⟩
  cases List.mem_singleton.1 hg
  refine ⟨by simp, fun _ => ⟨?_, by decide⟩, fun w hw => ?_⟩
  · simp [PTime.valid]; omega
  · cases hw
    refine ⟨by decide, ⟨by decide, by decide⟩, ?_⟩
    have : instant (Java.fromMillis jenv.nowMs) = 1600000000000000000 := by decide
    rw [this]
    simp only [Long, instant]
    omega

example :
    let f := Fixtures.fieldOf (.embed "google.protobuf.Timestamp" (some .timestamp))
      (.timestamp { within := some ⟨3600, 0⟩ })
    Java.assertValid jenv (Fixtures.only f) (.msg "M" [("X", .ts ⟨1600000000, 0⟩)] []) = .ok () ∧
    Java.assertValid jenv (Fixtures.only f) (.msg "M" [("X", .ts ⟨1600003601, 0⟩)] []) ≠ .ok () := by
  refine ⟨by rfl, fun h => by cases h⟩

/-- The hypotheses are met by orders of any count. -/
example (n : Int) (hn : IntOf .int32 n) (t : String) (hu : Utf8 (asc t)) :
    (∀ w, Outside Orders.orders w → IsVerdict (jenv.other w)) ∧ (∀ w, Outside Orders.orders w → penv.other w ≠ .error .crash) ∧
    Others Fixtures.env jenv cenv penv Orders.orders ∧ Simple penv Orders.orders (Orders.order n t) ∧
    WellTyped Orders.orders (Orders.order n t) ∧ AllSettled jenv Orders.orders (Orders.order n t) :=
  ⟨fun _ _ _ h => (by cases h), fun _ _ h => (by cases h), Orders.others, Orders.simple_orders _, Orders.typed_order n hn t hu,
    settled_simple (Orders.simple_orders _)⟩

end PGV.Props
