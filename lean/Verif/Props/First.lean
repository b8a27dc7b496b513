import Verif.Lemmas.First
import Verif.Props.JavaBlame
import Verif.Props.Simple

/-!
C106: which field the validators of a language complain about first.
-/

set_option linter.unusedSimpArgs false

namespace PGV.Props
open PGV PGV.Spec

section
variable {E : Go.Env} {S : Schema} {typ : String} {d : MsgDesc} {fs : List (String × Val)}
  {os : List (String × String × Val)}

/-- **C106** `Validate()` reports the first field that breaks its rules: of the fields outside oneofs, and then the
oneofs, in the order of declaration, all before the one it names are as they must be, and the one it names is not. The
name is that of the field, or of the member of the oneof that is set, or of the oneof if none is. -/
theorem C106_go (hS : S typ = .generated d) (hd : d.disabled = false) {e : Go.Err}
    (he : Go.validate E S false (.msg typ fs os) = some e) :
    ∃ n i reason cause, e = .viol d.name ⟨n, i⟩ reason cause false ∧
      FirstBroken (FieldOk E S fun w => Go.validate E S false w = none) d fs os n := by
  obtain ⟨n, ⟨i, r, c, rfl⟩, h⟩ := First.Go.first hS hd he
  exact ⟨n, i, r, c, rfl, h⟩

/-- **C106** There is only one such name. -/
theorem C106_one {A : FieldDesc → Val → Prop} {n n' : String} (h : FirstBroken A d fs os n)
    (h' : FirstBroken A d fs os n') : n = n' :=
  First.unique h h'

/-- **C106** The C++ validator complains about the same field: its message is about `n`, or says that nothing is set in
the oneof `n`. Missing: what `Portable` excludes. -/
theorem C106_cpp_partial (P : Cpp.CEnv) (hL : Spec.Cpp.LibsAgree E P S) (hS : S typ = .generated d)
    (hi : d.ignored = false) (hd : d.disabled = false) (hP : Spec.Cpp.Portable E P S (.msg typ fs os)) {e : Cpp.CErr}
    (he : Cpp.checkMessage P S (.msg typ fs os) = .error (.invalid e)) :
    ∃ n, ((∃ msg i r c, e = .viol msg n i false r c) ∨ e = .oneof n) ∧
      FirstBroken (FieldOk E S fun w => Go.validate E S false w = none) d fs os n :=
  First.Cpp.first hS hi hd (First.Cpp.field_iff hL hS hd hP) he

/-- **C106** The exception of the Java validator is about the same field: if it names one it names `n`, or it is the
exception for a message that `n` holds. Missing: what `Portable` excludes, and wrapper fields that are `required`, which
it does not name. -/
theorem C106_java_partial (C : Common) (J : Java.JEnv) (hL : Spec.LibsAgree C E J S) (hw : NoRequiredWrappers S)
    (hS : S typ = .generated d) (hi : d.ignored = false) (hd : d.disabled = false)
    (hP : Spec.Portable C S (.msg typ fs os)) {e : Java.JErr}
    (he : Java.assertValid J S (.msg typ fs os) = .error e) :
    ∃ n, ((∀ x, e.field = some x → x = fullName typ n) ∨
        ∃ f v i rules w, Active d fs os f v ∧ f.name = n ∧ HeldBy f v i rules w ∧ Java.assertValid J S w = .error e) ∧
      FirstBroken (FieldOk E S fun w => Go.validate E S false w = none) d fs os n :=
  First.Java.first hw hS hi hd (First.Java.field_iff hL hS hd hP) he

/-- **C106** Go and C++ name the same field or oneof. Missing: what `Portable` excludes. -/
theorem C106_same_partial (P : Cpp.CEnv) (hL : Spec.Cpp.LibsAgree E P S) (hS : S typ = .generated d)
    (hi : d.ignored = false) (hd : d.disabled = false) (hP : Spec.Cpp.Portable E P S (.msg typ fs os))
    {n : String} {i reason cause k}
    (hg : Go.validate E S false (.msg typ fs os) = some (.viol d.name ⟨n, i⟩ reason cause k)) :
    ∃ e, Cpp.checkMessage P S (.msg typ fs os) = .error (.invalid e) ∧
      ((∃ msg i r c, e = .viol msg n i false r c) ∨ e = .oneof n) := by
  have ha := C55_cpp_agrees_partial E P S hL typ d hS hi fs os hP
  cases hc : Cpp.checkMessage P S (.msg typ fs os) with
  | ok u =>
    have := ha.1.1 hc
    rw [this] at hg
    cases hg
  | error x =>
    cases x with
    | unimplemented w => exact absurd hc (ha.2 w)
    | invalid e =>
      obtain ⟨n', i', r', c', heq, hf⟩ := C106_go hS hd hg
      cases heq
      obtain ⟨n₂, hs, hf₂⟩ := C106_cpp_partial P hL hS hi hd hP hc
      exact ⟨e, rfl, C106_one hf₂ hf ▸ hs⟩

/-- **C106** The exception of Python is about the same field, if nothing is wrong with the oneofs: it is about the value
of that field, or it is the exception for a message that the field holds. Missing: broken oneofs
(`C106_python_oneof_first`), and what `Portable` excludes. -/
theorem C106_python_partial (C : Spec.Python.Common) (P : Py.PEnv) (hL : Spec.Python.LibsAgree C E P S)
    (hS : S typ = .generated d) (hi : d.ignored = false) (hd : d.disabled = false)
    (hP : Spec.Python.Portable C P S (.msg typ fs os))
    (ho : ∀ o ∈ d.oneofs, Fulfilled (FieldOk E S fun w => Go.validate E S false w = none) os o)
    {n : String} {text : Py.Text} (he : Py.validate P S (.msg typ fs os) = .error (.failed n text)) :
    ∃ f ∈ d.fields, (PyReason.Grounds P typ f (getField fs f) n text ∨
        ∃ i rules w, HeldBy f (getField fs f) i rules w ∧ Py.validate P S w = .error (.failed n text)) ∧
      FirstBroken (FieldOk E S fun w => Go.validate E S false w = none) d fs os f.name :=
  First.Py.first hL hS hi hd hP ho he

/-- **C106, negation** Python looks at the oneofs before the other fields: for a message with a positive number to give
and a choice to make, and neither done, Go names the number and Python the choice. -/
theorem C106_python_oneof_first (E : Go.Env) (S : Schema) (hS : S "Person" = .generated Fixtures.person)
    (fs : List (String × Val)) (hf : fs.lookup "Age" = some (.sc (.num (.int 0)))) :
    (∃ i reason cause, Go.validate E S false (.msg "Person" fs []) = some (.viol "Person" ⟨"Age", i⟩ reason cause false)) ∧
      Py.validate penv S (.msg "Person" fs []) = .error (.failed "Oneof Contact" [.s "is required"]) := by
  refine ⟨?_, ?_⟩
  · have hg : getField fs Fixtures.age = .sc (.num (.int 0)) := by
      unfold getField
      rw [show fs.lookup Fixtures.age.name = some (.sc (.num (.int 0))) from hf]
      rfl
    rw [Go.validate_fast_msg hS rfl]
    simp only [Fixtures.person, List.findSome?_cons, hg]
    exact ⟨_, _, _, rfl⟩
  · rw [Py.validate_eq]
    unfold Py.validateStep
    simp only [hS]
    rfl

end

/-! ### Orders -/

/-- An order with a line that counts nothing, from a client sent by a client with an unknown tag: of the two fields that
are broken, Go reports `Lines`. -/
theorem order_first : ∃ i reason cause, Go.validate Fixtures.env Orders.orders false (Orders.order 0 "bad") =
    some (.viol "Order" ⟨"Lines", i⟩ reason cause false) := ⟨_, _, _, rfl⟩

example : FirstBroken (FieldOk Fixtures.env Orders.orders fun w => Go.validate Fixtures.env Orders.orders false w = none)
    { name := "Order", fields := [Orders.lines, Orders.client, Orders.state, Orders.notes],
      oneofs := [{ name := "Pay", required := true, fields := [Orders.card, Orders.cash] }] }
    [("Lines", .list [.msg "Line" [("Count", .sc (.num (.int 0))), ("Code", .sc (.str (asc "it-7")))] []]),
     ("Client", .msg "Client" [("Tags", .list []), ("By", .msg "Client"
        [("Tags", .list [.sc (.str (asc "new")), .sc (.str (asc "bad"))]), ("By", .null)] [])] []),
     ("State", .sc (.enum 2)),
     ("Notes", .map [(.str (asc "a"), .sc (.num (.int 5)))])]
    [("Pay", "Card", .sc (.str (asc "1234")))] "Lines" := by
  obtain ⟨i, r, c, h⟩ := order_first
  obtain ⟨n, i', r', c', he, hf⟩ := C106_go (S := Orders.orders) (typ := "Order") rfl rfl h
  cases he
  exact hf

/-- And so does C++. -/
example : ∃ e, Cpp.checkMessage cenv Orders.orders (Orders.order 0 "bad") = .error (.invalid e) ∧
    ((∃ msg i r c, e = .viol msg "Lines" i false r c) ∨ e = .oneof "Lines") := by
  obtain ⟨i, r, c, h⟩ := order_first
  exact C106_same_partial cenv Orders.others.cpp (S := Orders.orders) (typ := "Order") rfl rfl rfl
    (PGV.Simple.cpp_portable _ _ (Orders.simple_orders _)
      (Orders.typed_order 0 ⟨by decide, by decide⟩ "bad" (Cpp.utf8_ascii (by decide)))) h

theorem orders_agree : Spec.LibsAgree PGV.Simple.javaCommon Fixtures.env jenv Orders.orders where
  pattern := fun _ h => h.elim
  format := fun _ h => h.elim
  clock := by decide
  clock_valid := by decide
  other := Orders.others.java

theorem orders_no_wrappers : NoRequiredWrappers Orders.orders := by
  intro typ d f e r hS hf he hr
  have hd : f ∈ [Orders.lines, Orders.client, Orders.state, Orders.notes, Orders.card, Orders.cash, Orders.count,
      Orders.code, Orders.tags, { name := "By", typ := .one (.embed "Client" none), rules := .absent }] := by
    unfold Orders.orders at hS
    split at hS
    · cases hS; simp at hf ⊢; grind
    · split at hS
      · cases hS; simp at hf ⊢; grind
      · split at hS
        · cases hS; simp at hf ⊢; grind
        · cases hS
  have hn : ¬ RequiresWrapper e r := by
    simp only [List.mem_cons, List.not_mem_nil, or_false] at hd
    rcases hd with h | h | h | h | h | h | h | h | h | h <;> subst h <;>
      simp [HasElem, Orders.lines, Orders.client, Orders.state, Orders.notes, Orders.card, Orders.cash, Orders.count,
        Orders.code, Orders.tags, itemRules, valueRules, FieldRules.absent, FieldRules.type] at he <;>
      obtain ⟨rfl, rfl⟩ := he <;>
      simp [ElemT.isEmbed, optB, RequiresWrapper, msgRequired, FieldRules.message, FieldRules.type]
  exact hn hr

/-- The exception of Java is that for the line in `Lines`. -/
example : ∃ e, Java.assertValid jenv Orders.orders (Orders.order 0 "bad") = .error e ∧
    ((∀ x, e.field = some x → x = fullName "Order" "Lines") ∨
      ∃ v i rules w, HeldBy Orders.lines v i rules w ∧ Java.assertValid jenv Orders.orders w = .error e) := by
  refine ⟨_, rfl, ?_⟩
  obtain ⟨i, r, c, h⟩ := order_first
  obtain ⟨n', i', r', c', he, hf⟩ := C106_go (S := Orders.orders) (typ := "Order") rfl rfl h
  cases he
  obtain ⟨n, ha, hb⟩ := C106_java_partial (E := Fixtures.env) PGV.Simple.javaCommon jenv orders_agree orders_no_wrappers
    (S := Orders.orders) (typ := "Order") rfl rfl rfl
    (PGV.Simple.java_portable (Orders.simple_orders _)
      (Orders.typed_order 0 ⟨by decide, by decide⟩ "bad" (Cpp.utf8_ascii (by decide)))) (e := _) rfl
  cases C106_one hb hf
  rcases ha with ha | ⟨f, v, i, rules, w, h1, h2, h3, h4⟩
  · exact .inl ha
  · refine .inr ⟨v, i, rules, w, ?_, h4⟩
    have : f = Orders.lines := by
      cases h1 with
      | field hm =>
        rcases (by simpa using hm : f = Orders.lines ∨ f = Orders.client ∨ f = Orders.state ∨ f = Orders.notes) with
          rfl | rfl | rfl | rfl
        · rfl
        all_goals exact absurd h2 (by decide)
      | member ho hl hm =>
        cases List.mem_singleton.1 ho
        have hm := List.mem_of_find?_eq_some hm
        rcases (by simpa using hm : f = Orders.card ∨ f = Orders.cash) with rfl | rfl <;> exact absurd h2 (by decide)
    exact this ▸ h3

theorem orders_agree_python : Spec.Python.LibsAgree (PGV.Simple.pyCommon penv) Fixtures.env penv Orders.orders where
  pattern := fun _ h => h.elim
  format := fun _ _ h => h.elim
  google := fun _ h => h
  pair := fun n k v h => ⟨k, v, h⟩
  clock := pyFixtures_agree.clock
  other := Orders.others.python

/-- The exception of Python is about `Lines` as well. -/
example : ∃ n text, Py.validate penv Orders.orders (Orders.order 0 "bad") = .error (.failed n text) ∧
    ∃ f v, f.name = "Lines" ∧ (PyReason.Grounds penv "Order" f v n text ∨
      ∃ i rules w, HeldBy f v i rules w ∧ Py.validate penv Orders.orders w = .error (.failed n text)) := by
  refine ⟨_, _, rfl, ?_⟩
  obtain ⟨i, r, c, h⟩ := order_first
  obtain ⟨n', i', r', c', he, hf⟩ := C106_go (S := Orders.orders) (typ := "Order") rfl rfl h
  cases he
  obtain ⟨f, -, ha, hb⟩ := C106_python_partial (E := Fixtures.env) (PGV.Simple.pyCommon penv) penv orders_agree_python
    (S := Orders.orders) (typ := "Order") rfl rfl rfl
    (PGV.Simple.py_portable (Orders.simple_orders _)
      (Orders.typed_order 0 ⟨by decide, by decide⟩ "bad" (Cpp.utf8_ascii (by decide)))) (fun o ho => by
        cases List.mem_singleton.1 ho
        refine ⟨fun h => (by cases h), fun m v f hl hf => ?_⟩
        cases hl
        cases hf
        exact ((Go.field_ok Fixtures.env Orders.orders _ (Go.validate_recOk _ _) "Order" Orders.card
          (.sc (.str (asc "1234")))).spec).1 rfl) rfl
  exact ⟨f, _, C106_one hb hf, ha⟩

end PGV.Props
