import Verif.Lemmas.SimpleMsg
import Verif.Props.Local

/-!
C101: rules of the simple kinds mean the same in Go, Java, C++ and Python, for all messages.
-/

set_option linter.unusedSimpArgs false

namespace PGV.Props
open PGV PGV.Spec PGV.Spec.Simple PGV.Go

section
variable (E : Env) (J : Java.JEnv) (Q : Cpp.CEnv) (P : Py.PEnv) (S : Schema)

/-- **C101** If all rules of the types in a message are simple, then all four languages give the same verdict on it,
whatever values it holds, at any depth: Java returns, C++ returns `true` and Python returns, exactly when Go's
`Validate()` returns `nil`, which is exactly when `ValidateAll()` does; and C++ does not throw. No clock, no text
library and no order of map entries comes into it. -/
theorem C101_agree (hO : Others E J Q P S) (typ : String) (d : MsgDesc) (hS : S typ = .generated d)
    (hi : d.ignored = false) (fs : List (String × Val)) (os : List (String × String × Val))
    (hs : Simple P S (.msg typ fs os)) (ht : WellTyped S (.msg typ fs os)) :
    (Java.assertValid J S (.msg typ fs os) = .ok () ↔ validate E S false (.msg typ fs os) = none) ∧
    ((Cpp.checkMessage Q S (.msg typ fs os) = .ok () ↔ validate E S false (.msg typ fs os) = none) ∧
      ∀ w, Cpp.checkMessage Q S (.msg typ fs os) ≠ .error (.unimplemented w)) ∧
    (Py.validate P S (.msg typ fs os) = .ok () ↔ validate E S false (.msg typ fs os) = none) ∧
    (validate E S true (.msg typ fs os) = none ↔ validate E S false (.msg typ fs os) = none) := by
  have hc := PGV.Simple.clock_free hs
  have hst : SameTypes S S (.msg typ fs os) := fun _ _ _ _ => rfl
  have eg := Local.Go.validate_local E S S 0 _ hst (.inr hc) false
  refine ⟨?_, (C55_cpp_agrees_partial E Q S hO.cpp typ d hS hi fs os (PGV.Simple.cpp_portable E Q hs ht)), ?_, ?_⟩
  · have ej := Local.Java.assert_local J S S 0 _ hst (.inr hc)
    rw [← eg, ← ej]
    refine C60_java_agrees PGV.Simple.javaCommon _ _ S ⟨⟨fun _ h => h.elim, fun _ h => h.elim⟩, rfl, show (Java.fromMillis 0).valid = true by decide, ?_⟩ typ d hS hi
      fs os (PGV.Simple.java_portable hs ht)
    intro v hv
    exact hO.java v hv
  · have ep := Local.Py.validate_local P S S 0 _ hst (.inr hc)
    rw [← eg, ← ep]
    refine C65_python_agrees_partial (PGV.Simple.pyCommon (Local.Py.clock P 0)) _ _ S
      ⟨⟨fun _ h => h.elim, fun _ _ h => h.elim⟩, fun _ h => h, fun n k v h => ⟨k, v, h⟩, ?_, ?_⟩ typ d hS hi fs os ?_
    · show (0 : Int) * _ = 0 * _
      rw [Int.zero_mul, Int.zero_mul]
    · intro v hv
      exact hO.python v hv
    · exact PGV.Simple.py_portable (PGV.Simple.simple_clock 0 hs) ht
  · rw [Go.validate_modes]

end

/-! ### Orders -/

namespace Orders

/-- `int32 count = 1 [(validate.rules).int32 = {gte: 1, lt: 100}];`. -/
def count : FieldDesc :=
  { name := "Count", typ := .one (.scalar .int32),
    rules := .mk none (.num .int32 { gte := some (.int 1), lt := some (.int 100) }) }

/-- `string code = 2 [(validate.rules).string = {prefix: "it-", max_len: 8}];`. -/
def code : FieldDesc :=
  { name := "Code", typ := .one .string, rules := .mk none (.string { pfx := some (asc "it-"), maxLen := some 8 }) }

/-- `repeated Line lines = 1 [(validate.rules).repeated.min_items = 1];`. -/
def lines : FieldDesc :=
  { name := "Lines", typ := .rep (.embed "Line" none), rules := .mk none (.repeated { minItems := some 1 } .absent) }

/-- `Client client = 2 [(validate.rules).message.required = true];`. -/
def client : FieldDesc :=
  { name := "Client", typ := .one (.embed "Client" none), rules := .mk (some { required := some true }) .unset }

/-- `State state = 3 [(validate.rules).enum.defined_only = true];`. -/
def state : FieldDesc :=
  { name := "State", typ := .one (.enum [0, 1, 2]), rules := .mk none (.enum { definedOnly := some true }) }

/-- `map<string, int64> notes = 4 [(validate.rules).map = {max_pairs: 3, keys: {string: {min_len: 1}}, values: {int64: {gt: 0}}}];`. -/
def notes : FieldDesc :=
  { name := "Notes", typ := .map .string (.scalar .int64),
    rules := .mk none (.map { maxPairs := some 3 } (.mk none (.string { minLen := some 1 }))
      (.mk none (.num .int64 { gt := some (.int 0) }))) }

/-- `string card = 5 [(validate.rules).string.len = 4];`. -/
def card : FieldDesc := { name := "Card", typ := .one .string, rules := .mk none (.string { len := some 4 }) }

/-- `bool cash = 6 [(validate.rules).bool.const = true];`. -/
def cash : FieldDesc := { name := "Cash", typ := .one .bool, rules := .mk none (.bool { const := some true }) }

/-- `repeated string tags = 1 [(validate.rules).repeated = {unique: true, items: {string: {in: ["new", "old"]}}}];`. -/
def tags : FieldDesc :=
  { name := "Tags", typ := .rep .string,
    rules := .mk none (.repeated { unique := some true } (.mk none (.string { ins := [asc "new", asc "old"] }))) }

/-- Orders of lines by clients, who may have been sent by other clients. -/
def orders : Schema := fun n =>
  if n = "Order" then .generated
    { name := "Order", fields := [lines, client, state, notes],
      oneofs := [{ name := "Pay", required := true, fields := [card, cash] }] }
  else if n = "Line" then .generated { name := "Line", fields := [count, code] }
  else if n = "Client" then .generated
    { name := "Client", fields := [tags, { name := "By", typ := .one (.embed "Client" none), rules := .absent }] }
  else .foreign

/-- An order with one line; `n` is its count, `t` the second tag of the client who sent the client. -/
def order (n : Int) (t : String) : Val :=
  .msg "Order"
    [("Lines", .list [.msg "Line" [("Count", .sc (.num (.int n))), ("Code", .sc (.str (asc "it-7")))] []]),
     ("Client", .msg "Client" [("Tags", .list []), ("By", .msg "Client"
        [("Tags", .list [.sc (.str (asc "new")), .sc (.str (asc t))]), ("By", .null)] [])] []),
     ("State", .sc (.enum 2)),
     ("Notes", .map [(.str (asc "a"), .sc (.num (.int 5)))])]
    [("Pay", "Card", .sc (.str (asc "1234")))]

theorem word_of (s : Bytes) (h : s ≠ [] ∧ s.all (fun b => (0x61 ≤ b && b ≤ 0x7A) || (0x2D ≤ b && b ≤ 0x39)) = true) :
    Word s := by
  refine ⟨h.1, fun b hb => ?_⟩
  have := List.all_eq_true.1 h.2 b hb
  simp only [Bool.or_eq_true, Bool.and_eq_true, decide_eq_true_eq] at this
  rcases this with h | h
  · exact .inl h
  · exact .inr (.inr (.inl h))

theorem simple_orders (v : Val) : Simple penv orders v := by
  intro typ fs os d _ hd f hf
  unfold orders at hd
  split at hd
  · cases hd
    have : f = lines ∨ f = client ∨ f = state ∨ f = notes ∨ f = card ∨ f = cash := by
      simpa [allFields, or_assoc] using hf
    rcases this with rfl | rfl | rfl | rfl | rfl | rfl
    · exact .listRules (.free ⟨rfl, rfl⟩) (.inl (by simp)) (by simp) rfl (by simp)
    · exact .required ⟨rfl, rfl⟩
    · exact .one (.ruled (.enum ⟨by simp, by decide, ⟨by simp, by simp, by simp⟩, by simp⟩))
    · refine .mapRules (.ruled (.string ?_)) rfl (by simp) (.ruled (.num ?_)) (.inl (by simp)) (by simp) rfl rfl
        (fun h => by cases h)
      · exact ⟨by simp, rfl, rfl, rfl, by simp, by simp, rfl, rfl, rfl, rfl⟩
      · exact ⟨by simp [signed], by decide, by simp, rfl, fun b hb => ⟨0, by simpa [numbersOf] using hb, ⟨by decide, by decide⟩, by decide⟩⟩
    · exact .one (.ruled (.string ⟨by simp, rfl, rfl, rfl, by simp, by simp, rfl, rfl, rfl, rfl⟩))
    · exact .one (.ruled (.bool (by simp)))
  · split at hd
    · cases hd
      have : f = count ∨ f = code := by simpa [allFields] using hf
      rcases this with rfl | rfl
      · refine .one (.ruled (.num ⟨by simp [signed], by decide, by simp, rfl, fun b hb => ?_⟩))
        have : b = .int 100 ∨ b = .int 1 := by simpa [numbersOf] using hb
        rcases this with rfl | rfl
        · exact ⟨100, rfl, ⟨by decide, by decide⟩, by decide⟩
        · exact ⟨1, rfl, ⟨by decide, by decide⟩, by decide⟩
      · refine .one (.ruled (.string ⟨by simp, rfl, rfl, rfl, by simp, fun s hs => ?_, rfl, rfl, rfl, rfl⟩))
        have : s = asc "it-" := by simpa [eq_comm] using hs
        exact this ▸ word_of _ (by decide)
    · split at hd
      · cases hd
        rcases (by simpa [allFields] using hf : f = tags ∨ _) with rfl | rfl
        · refine .listRules (.ruled (.string ⟨by simp, rfl, rfl, rfl, by simp, fun s hs => ?_, rfl, rfl, rfl, rfl⟩))
            (.inl (by simp)) (by simp) rfl (fun _ => .string)
          have : s = asc "new" ∨ s = asc "old" := by simpa using hs
          rcases this with rfl | rfl <;> exact word_of _ (by decide)
        · exact .one (.free ⟨rfl, rfl⟩)
      · cases hd

section
variable {S : Schema}

theorem wt_sc {x : Scalar} : WellTyped S (.sc x) := fun _ _ _ _ h => nomatch h
theorem wt_null : WellTyped S .null := fun _ _ _ _ h => nomatch h

theorem wt_list {vs : List Val} (h : ∀ v ∈ vs, WellTyped S v) : WellTyped S (.list vs) := fun _ _ _ _ hp => by
  cases hp with
  | item hm hp => exact h _ hm _ _ _ _ hp

theorem wt_map {kvs : List (Scalar × Val)} (h : ∀ kv ∈ kvs, WellTyped S kv.2) : WellTyped S (.map kvs) :=
  fun _ _ _ _ hp => by
  cases hp with
  | entry hm hp => exact h _ hm _ _ _ _ hp

theorem wt_msg {typ : String} {fs : List (String × Val)} {os : List (String × String × Val)}
    (own : ∀ d, S typ = .generated d → (∀ f ∈ d.fields, HasFieldType f.typ (getField fs f)) ∧
      (∀ o ∈ d.oneofs, (o.fields.map (·.name)).Nodup ∧ ∀ m u, os.lookup o.name = some (m, u) →
        ∃ f, f ∈ o.fields ∧ f.name = m ∧ HasFieldType f.typ u))
    (hf : ∀ x ∈ fs, WellTyped S x.2) (ho : ∀ x ∈ os, WellTyped S x.2.2) : WellTyped S (.msg typ fs os) :=
  fun _ _ _ d hp hd => by
  cases hp with
  | self => exact own d hd
  | field hm hp => exact hf _ hm _ _ _ _ hp hd
  | member hm hp => exact ho _ hm _ _ _ _ hp hd

end

theorem typed_order (n : Int) (hn : IntOf .int32 n) (t : String) (hu : Utf8 (asc t)) : WellTyped orders (order n t) := by
  have own : ∀ vs u, (∀ v ∈ vs, HasType .string v) → HasType (.embed "Client" none) u → ∀ d, orders "Client" = .generated d →
      (∀ f ∈ d.fields, HasFieldType f.typ (getField [("Tags", .list vs), ("By", u)] f)) ∧
      (∀ o ∈ d.oneofs, (o.fields.map (·.name)).Nodup ∧ ∀ m u,
        ([] : List (String × String × Val)).lookup o.name = some (m, u) →
        ∃ f, f ∈ o.fields ∧ f.name = m ∧ HasFieldType f.typ u) := by
    intro vs u hv hu d hd
    cases hd
    refine ⟨fun f hf => ?_, by simp⟩
    rcases (by simpa using hf : f = tags ∨ _) with rfl | rfl
    · exact .list hv
    · exact .one hu
  refine wt_msg (fun d hd => ?_) ?_ ?_
  · cases hd
    refine ⟨fun f hf => ?_, fun o ho => ?_⟩
    · rcases (by simpa using hf : f = lines ∨ f = client ∨ f = state ∨ f = notes) with rfl | rfl | rfl | rfl
      · exact .list fun v hv => by cases List.mem_singleton.1 hv; exact .msg
      · exact .one .msg
      · exact .one .enum
      · refine .map fun kv hkv => ?_
        cases List.mem_singleton.1 hkv
        exact ⟨.string (Cpp.utf8_ascii (by decide)), .num ⟨by decide, by decide, by decide, by decide⟩⟩
    · cases List.mem_singleton.1 ho
      refine ⟨by decide, fun m u hm => ?_⟩
      cases hm
      exact ⟨card, List.mem_cons_self, rfl, .one (.string (Cpp.utf8_ascii (by decide)))⟩
  · simp only [List.mem_cons, List.not_mem_nil, or_false, forall_eq_or_imp, forall_eq]
    refine ⟨wt_list ?_, wt_msg (own _ _ (by simp) .msg) ?_ (by simp), wt_sc, wt_map ?_⟩
    · simp only [List.mem_cons, List.not_mem_nil, or_false, forall_eq]
      refine wt_msg (fun d hd => ?_) ?_ (by simp)
      · cases hd
        refine ⟨fun f hf => ?_, by simp⟩
        rcases (by simpa using hf : f = count ∨ f = code) with rfl | rfl
        · exact .one (.num ⟨by decide, by decide, hn⟩)
        · exact .one (.string (Cpp.utf8_ascii (by decide)))
      · simp only [List.mem_cons, List.not_mem_nil, or_false, forall_eq_or_imp, forall_eq]
        exact ⟨wt_sc, wt_sc⟩
    · simp only [List.mem_cons, List.not_mem_nil, or_false, forall_eq_or_imp, forall_eq]
      refine ⟨wt_list (by simp), wt_msg (own _ _ ?_ .unset) ?_ (by simp)⟩
      · simp only [List.mem_cons, List.not_mem_nil, or_false, forall_eq_or_imp, forall_eq]
        exact ⟨.string (Cpp.utf8_ascii (by decide)), .string hu⟩
      · simp only [List.mem_cons, List.not_mem_nil, or_false, forall_eq_or_imp, forall_eq]
        refine ⟨wt_list ?_, wt_null⟩
        simp only [List.mem_cons, List.not_mem_nil, or_false, forall_eq_or_imp, forall_eq]
        exact ⟨wt_sc, wt_sc⟩
    · simp only [List.mem_cons, List.not_mem_nil, or_false, forall_eq]
      exact wt_sc
  · simp only [List.mem_cons, List.not_mem_nil, or_false, forall_eq]
    exact wt_sc

theorem others : Others Fixtures.env jenv cenv penv orders where
  java := by
    intro v hv
    simp only [jenv, EmbeddedOk, true_iff]
    split
    · split <;> simp [Fixtures.env]
    · trivial
  python := by
    intro v hv
    simp only [penv, EmbeddedOk, true_iff]
    split
    · split <;> simp [Fixtures.env]
    · trivial
  cpp :=
    { isPrint := cFixtures_agree.isPrint
      dec64 := cenv_dec64
      other := by
        intro v hv
        simp only [cenv, EmbeddedOk, true_iff]
        split
        · split <;> simp [Fixtures.env]
        · trivial
      other_calm := by intro v w _ h; cases h }

/-- The hypotheses are met by an order that is accepted, and by one refused for a tag four levels down. -/
example : Others Fixtures.env jenv cenv penv orders ∧ Simple penv orders (order 1 "old") ∧ WellTyped orders (order 1 "old") ∧
    Simple penv orders (order 1 "new") ∧ WellTyped orders (order 1 "new") ∧
    validate Fixtures.env orders false (order 1 "old") = none ∧ validate Fixtures.env orders false (order 1 "new") ≠ none ∧
    validate Fixtures.env orders false (order 100 "old") ≠ none :=
  ⟨others, simple_orders _, typed_order 1 ⟨by decide, by decide⟩ _ (Cpp.utf8_ascii (by decide)), simple_orders _,
    typed_order 1 ⟨by decide, by decide⟩ _ (Cpp.utf8_ascii (by decide)), by decide +kernel,
    by decide +kernel, by decide +kernel⟩

/-- And by orders of any count, on which the four languages agree. -/
example (n : Int) (hn : IntOf .int32 n) :
    (Java.assertValid jenv orders (order n "old") = .ok () ↔ validate Fixtures.env orders false (order n "old") = none) ∧
    (Cpp.checkMessage cenv orders (order n "old") = .ok () ↔ validate Fixtures.env orders false (order n "old") = none) ∧
    (Py.validate penv orders (order n "old") = .ok () ↔ validate Fixtures.env orders false (order n "old") = none) := by
  obtain ⟨h1, ⟨h2, _⟩, h3, _⟩ := C101_agree _ _ _ _ _ others "Order" _ rfl rfl _ _ (simple_orders (order n "old"))
    (typed_order n hn "old" (Cpp.utf8_ascii (by decide)))
  exact ⟨h1, h2, h3⟩

end Orders

end PGV.Props
