import Verif.Lemmas.Looser
import Verif.Props.Simple
import Verif.Props.Python

/-!
C105: loosening rules never makes a valid message invalid.
-/

set_option linter.unusedSimpArgs false

namespace PGV.Props
open PGV PGV.Spec PGV.Spec.Simple

/-- **C105** Go: a message that is valid stays valid when the rules of its types are loosened, at any depth: rules are
dropped, limits and lists are widened, values are exempted, messages are switched off. -/
theorem C105_go (E : Go.Env) (S S' : Schema) (all : Bool) (v : Val) (h : Looser.Schemas S S' v)
    (hv : Go.validate E S all v = none) : Go.validate E S' all v = none := by
  have key := PGV.Looser.valid (E := E) _ v (Nat.le_refl _) h
  cases all with
  | false => exact key hv
  | true => exact (Go.validate_modes E S' v).2 (key ((Go.validate_modes E S v).1 hv))

/-- **C105** Java, C++ and Python, for rules of the simple kinds. Missing: other rules, on which these languages differ from
Go (C60, C55, C65); for Python see `C105_python_dropped`. -/
theorem C105_others_partial (E : Go.Env) (J : Java.JEnv) (Q : Cpp.CEnv) (P : Py.PEnv) (S S' : Schema)
    (hO : Others E J Q P S) (hO' : Others E J Q P S') (typ : String) (d d' : MsgDesc) (hS : S typ = .generated d)
    (hi : d.ignored = false) (hS' : S' typ = .generated d') (hi' : d'.ignored = false)
    (fs : List (String × Val)) (os : List (String × String × Val))
    (hs : Simple P S (.msg typ fs os)) (hs' : Simple P S' (.msg typ fs os))
    (ht : WellTyped S (.msg typ fs os)) (ht' : WellTyped S' (.msg typ fs os))
    (h : Looser.Schemas S S' (.msg typ fs os)) :
    (Java.assertValid J S (.msg typ fs os) = .ok () → Java.assertValid J S' (.msg typ fs os) = .ok ()) ∧
    (Cpp.checkMessage Q S (.msg typ fs os) = .ok () → Cpp.checkMessage Q S' (.msg typ fs os) = .ok ()) ∧
    (Py.validate P S (.msg typ fs os) = .ok () → Py.validate P S' (.msg typ fs os) = .ok ()) := by
  obtain ⟨j, ⟨c, -⟩, p, -⟩ := C101_agree E J Q P S hO typ d hS hi fs os hs ht
  obtain ⟨j', ⟨c', -⟩, p', -⟩ := C101_agree E J Q P S' hO' typ d' hS' hi' fs os hs' ht'
  have g := C105_go E S S' false _ h
  exact ⟨fun x => j'.2 (g (j.1 x)), fun x => c'.2 (g (c.1 x)), fun x => p'.2 (g (p.1 x))⟩

/-! ### A case -/

namespace Loosened
open Orders

/-- `int32 count = 1 [(validate.rules).int32 = {gte: 0}];`. -/
def count' : FieldDesc := { Orders.count with rules := .mk none (.num .int32 { gte := some (.int 0) }) }

/-- `string code = 2 [(validate.rules).string.max_len = 10];`. -/
def code' : FieldDesc := { code with rules := .mk none (.string { maxLen := some 10 }) }

/-- `Client client = 2;`. -/
def client' : FieldDesc := { client with rules := .absent }

/-- `map<string, int64> notes = 4 [(validate.rules).map.max_pairs = 5];`. -/
def notes' : FieldDesc := { notes with rules := .mk none (.map { maxPairs := some 5 } .absent .absent) }

/-- `string card = 5 [(validate.rules).string = {min_len: 3, max_len: 5}];`. -/
def card' : FieldDesc := { card with rules := .mk none (.string { minLen := some 3, maxLen := some 5 }) }

/-- Orders without `min_items`, with more notes, other cards, and that need not be paid; lines of any count that is not
negative, with any codes of ten characters at most. -/
def looser : Schema := fun n =>
  if n = "Order" then .generated
    { name := "Order", fields := [{ lines with rules := .absent }, client', state, notes'],
      oneofs := [{ name := "Pay", required := false, fields := [card', cash] }] }
  else if n = "Line" then .generated { name := "Line", fields := [count', code'] }
  else orders n

theorem msg_refl (m : Option MessageRules) : Looser.Msg m m := ⟨id, id⟩

theorem fields_refl (l : List FieldDesc) : Looser.Fields l l := fun f hf => ⟨f, hf, rfl, rfl, .same⟩

theorem message_refl (d : MsgDesc) (h : ∀ o ∈ d.oneofs, (o.fields.map (·.name)).Nodup) : Looser.Message d d :=
  ⟨id, id, fields_refl _, fun o ho => ⟨o, ho, rfl, id, h o ho, fields_refl _⟩⟩

theorem lists_refl {α : Type} (a b : List α) : Looser.Lists a b a b := ⟨fun h => ⟨h, fun _ h => h⟩, fun h => .inl ⟨h, fun _ h => h⟩⟩

theorem looser_order : Looser.Message
    { name := "Order", fields := [lines, client, state, notes],
      oneofs := [{ name := "Pay", required := true, fields := [card, cash] }] }
    { name := "Order", fields := [{ lines with rules := .absent }, client', state, notes'],
      oneofs := [{ name := "Pay", required := false, fields := [card', cash] }] } := by
  refine ⟨id, id, fun f hf => ?_, fun o ho => ?_⟩
  · simp only [List.mem_cons, List.not_mem_nil, or_false] at hf
    rcases hf with rfl | rfl | rfl | rfl
    · exact ⟨lines, .head _, rfl, rfl, .listDropped (.rules .unset (msg_refl _)) rfl⟩
    · exact ⟨client, .tail _ (.head _), rfl, rfl, .one (.rules .unset ⟨fun h => (by cases h), fun h => (by cases h)⟩)⟩
    · exact ⟨state, .tail _ (.tail _ (.head _)), rfl, rfl, .same⟩
    · refine ⟨notes, .tail _ (.tail _ (.tail _ (.head _))), rfl, rfl, .map ?_ ?_ id id (.dropped rfl rfl) (.dropped rfl rfl)⟩
      · intro n h; cases h
      · intro n h; cases h; exact ⟨3, rfl, by decide⟩
  · simp only [List.mem_singleton] at ho
    subst ho
    refine ⟨_, .head _, rfl, fun h => (by cases h), by decide, fun f hf => ?_⟩
    simp only [List.mem_cons, List.not_mem_nil, or_false] at hf
    rcases hf with rfl | rfl
    · refine ⟨card, .head _, rfl, rfl, .one (.rules (.string ⟨.inl rfl, .about ?_ ?_, .limits ?_ ?_, .inl rfl, .inl rfl,
        .inl rfl, .inl rfl, .inl rfl, lists_refl _ _, .inl rfl, id⟩) (msg_refl _))⟩
      · intro n h; cases h; decide
      · intro n h; cases h; decide
      · intro n h; cases h
      · intro n h; cases h
    · exact ⟨cash, .tail _ (.head _), rfl, rfl, .same⟩

theorem looser_line : Looser.Message { name := "Line", fields := [Orders.count, code] } { name := "Line", fields := [count', code'] } := by
  refine ⟨id, id, fun f hf => ?_, fun o ho => by cases ho⟩
  simp only [List.mem_cons, List.not_mem_nil, or_false] at hf
  rcases hf with rfl | rfl
  · refine ⟨Orders.count, .head _, rfl, rfl, .one (.rules (.num ⟨.inl rfl, .wider ?_ ?_ ?_ ?_, lists_refl _ _, id⟩) (msg_refl _))⟩
    · intro u l hu hl; cases hu; cases hl; decide
    · intro u l hu hl; cases hu
    · intro u hu; cases hu
    · intro u hu; cases hu; exact ⟨_, rfl, .inl (by decide)⟩
  · refine ⟨code, .tail _ (.head _), rfl, rfl, .one (.rules (.string ⟨.inl rfl, .limits ?_ ?_, .limits ?_ ?_, .inl rfl, .inr rfl,
        .inl rfl, .inl rfl, .inl rfl, lists_refl _ _, .inl rfl, id⟩) (msg_refl _))⟩
    · intro n h; cases h
    · intro n h; cases h; exact ⟨8, rfl, by decide⟩
    · intro n h; cases h
    · intro n h; cases h

theorem schemas (v : Val) : Looser.Schemas orders looser v := by
  intro typ fs os _
  by_cases h1 : typ = "Order"
  · subst h1
    exact .inl ⟨_, _, rfl, rfl, looser_order⟩
  · by_cases h2 : typ = "Line"
    · subst h2
      exact .inl ⟨_, _, rfl, rfl, looser_line⟩
    · have e : looser typ = orders typ := by simp [looser, h1, h2]
      rw [e]
      by_cases h3 : typ = "Client"
      · subst h3
        exact .inl ⟨_, _, rfl, rfl, message_refl _ (by intro o ho; cases ho)⟩
      · have e : orders typ = .foreign := by simp [orders, h1, h2, h3]
        exact .inr ⟨rfl, fun d hd => by rw [e] at hd; cases hd⟩

theorem simple_looser (v : Val) : Simple penv looser v := by
  intro typ fs os d hp hd f hf
  unfold looser at hd
  split at hd
  · cases hd
    have : f = { lines with rules := .absent } ∨ f = client' ∨ f = state ∨ f = notes' ∨ f = card' ∨ f = cash := by
      simpa [Go.allFields, or_assoc] using hf
    rcases this with rfl | rfl | rfl | rfl | rfl | rfl
    · exact .list ⟨rfl, rfl⟩ (by rintro n w hn ⟨k, v, hk⟩; cases hn; cases hk)
    · exact .one (.free ⟨rfl, rfl⟩)
    · exact .one (.ruled (.enum ⟨by simp, by decide, ⟨by simp, by simp, by simp⟩, by simp⟩))
    · exact .mapRules (.free trivial) rfl (by simp) (.free trivial) (.inl (by simp)) (by simp) rfl rfl (fun h => by cases h)
    · exact .one (.ruled (.string ⟨by simp, by decide, rfl, rfl, by simp, by simp, rfl, rfl, rfl, rfl⟩))
    · exact .one (.ruled (.bool (by simp)))
  · split at hd
    · cases hd
      have : f = count' ∨ f = code' := by simpa [Go.allFields] using hf
      rcases this with rfl | rfl
      · refine .one (.ruled (.num ⟨by simp [signed], by decide, by simp, rfl, fun b hb => ?_⟩))
        have : b = .int 0 := by simpa [numbersOf] using hb
        exact ⟨0, this, ⟨by decide, by decide⟩, by decide⟩
      · exact .one (.ruled (.string ⟨by simp, rfl, rfl, rfl, by simp, by simp, rfl, rfl, rfl, rfl⟩))
    · exact simple_orders v typ fs os d hp hd f hf

theorem typed_looser {v : Val} (h : WellTyped orders v) : WellTyped looser v := by
  intro typ fs os d hp hd
  by_cases h1 : typ = "Order"
  · subst h1
    obtain ⟨a, b⟩ := h _ fs os _ hp rfl
    cases hd
    refine ⟨fun f hf => ?_, fun o ho => ?_⟩
    · simp only [List.mem_cons, List.not_mem_nil, or_false] at hf
      rcases hf with rfl | rfl | rfl | rfl
      · exact a lines (.head _)
      · exact a client (.tail _ (.head _))
      · exact a state (.tail _ (.tail _ (.head _)))
      · exact a notes (.tail _ (.tail _ (.tail _ (.head _))))
    · simp only [List.mem_singleton] at ho
      subst ho
      refine ⟨by decide, fun m u hl => ?_⟩
      obtain ⟨f, hf, hn, ht⟩ := (b _ (.head _)).2 m u hl
      simp only [List.mem_cons, List.not_mem_nil, or_false] at hf
      rcases hf with rfl | rfl
      · exact ⟨card', .head _, hn, ht⟩
      · exact ⟨cash, .tail _ (.head _), hn, ht⟩
  · by_cases h2 : typ = "Line"
    · subst h2
      obtain ⟨a, b⟩ := h _ fs os _ hp rfl
      cases hd
      refine ⟨fun f hf => ?_, fun o ho => by cases ho⟩
      simp only [List.mem_cons, List.not_mem_nil, or_false] at hf
      rcases hf with rfl | rfl
      · exact a Orders.count (.head _)
      · exact a code (.tail _ (.head _))
    · have e : looser typ = orders typ := by simp [looser, h1, h2]
      exact h typ fs os d hp (e ▸ hd)

theorem others' : Others Fixtures.env jenv cenv penv looser where
  java := by
    intro v hv
    simp only [jenv, EmbeddedOk, true_iff]
    split
    · split <;> simp [Fixtures.env]
    · trivial
  python := by
    intro v hv
    simp only [penv, EmbeddedOk, true_iff]
    split
    · split <;> simp [Fixtures.env]
    · trivial
  cpp :=
    { isPrint := cFixtures_agree.isPrint
      dec64 := cenv_dec64
      other := by
        intro v hv
        simp only [cenv, EmbeddedOk, true_iff]
        split
        · split <;> simp [Fixtures.env]
        · trivial
      other_calm := by intro v w _ h; cases h }

/-- The hypotheses are met by an order that is valid before and after, and one that only becomes valid. -/
example : Others Fixtures.env jenv cenv penv orders ∧ Others Fixtures.env jenv cenv penv looser ∧
    Simple penv orders (order 1 "old") ∧ Simple penv looser (order 1 "old") ∧ WellTyped orders (order 1 "old") ∧
    WellTyped looser (order 1 "old") ∧ Looser.Schemas orders looser (order 1 "old") ∧
    Go.validate Fixtures.env orders false (order 1 "old") = none ∧
    Go.validate Fixtures.env orders false (order 100 "old") ≠ none ∧
    Go.validate Fixtures.env looser false (order 100 "old") = none ∧
    Go.validate Fixtures.env looser false (order (-1) "old") ≠ none :=
  have ht := typed_order 1 ⟨by decide, by decide⟩ "old" (Cpp.utf8_ascii (by decide))
  ⟨others, others', simple_orders _, simple_looser _, ht, typed_looser ht, schemas _, by decide +kernel, by decide +kernel,
    by decide +kernel, by decide +kernel⟩

end Loosened

/-! ### What is no loosening -/

/-- **C105, negation** Python: when the only rule on a number is dropped and `{}` is left, `validate` accepts nothing
any more, while Go accepts every number. -/
theorem C105_python_dropped (E : Go.Env) (P : Py.PEnv) (n : Num) :
    let f := Fixtures.fieldOf (.scalar .int32) (.num .int32 { gte := some (.int 1) })
    let f' := Fixtures.fieldOf (.scalar .int32) (.num .int32 {})
    Looser.Field f.typ f.rules f'.rules ∧
    Py.validate P (Fixtures.only f) (.msg "M" [("X", .sc (.num (.int 5)))] []) = .ok () ∧
    Py.validate P (Fixtures.only f') (.msg "M" [("X", .sc (.num n))] []) = .error .crash ∧
    Accepts E (Fixtures.only f') "M" f' (.sc (.num n)) := by
  intro f f'
  refine ⟨.one (.rules (.num ⟨.inl rfl, .dropped, Loosened.lists_refl _ _, id⟩) (Loosened.msg_refl _)), rfl,
    C51_empty_rules_crash E P .int32 n⟩

/-- Dropping one limit of two that are met outside a range is no loosening: 12 is allowed by `lt: 5, gt: 10`, but not by
`lt: 5`. -/
theorem C105_outside (E : Go.Env) :
    let f := Fixtures.fieldOf (.scalar .int32) (.num .int32 { lt := some (.int 5), gt := some (.int 10) })
    let f' := Fixtures.fieldOf (.scalar .int32) (.num .int32 { lt := some (.int 5) })
    Accepts E (Fixtures.only f) "M" f (.sc (.num (.int 12))) ∧ ¬ Accepts E (Fixtures.only f') "M" f' (.sc (.num (.int 12))) := by
  intro f f'
  rw [accepts_scalar (Fixtures.only_field f) (e := .scalar .int32) rfl rfl _ trivial,
    accepts_scalar (Fixtures.only_field f') (e := .scalar .int32) rfl rfl _ trivial]
  constructor
  · refine .inr ⟨by simp, ?_, by simp [ListOk]⟩
    intro x hx
    cases hx
    exact .inr (by simp [Bound.AsLower])
  · rintro (⟨h, -⟩ | ⟨-, h, -⟩)
    · cases h
    · have := h 12 rfl
      simp [numUpper, numLower, numVal, RangeOk, Bound.AsUpper] at this

/-- Dropping `lt_now` beside `within` is none either: a time exactly as far back as `within` says is allowed by both
together, but not by `within` alone. -/
theorem C105_within (E : Go.Env) (w : PDur) (hw : 0 < w.exact) (t : PTime) (ht : t.valid = true)
    (hb : instant t = E.now - w.exact) :
    let f := Fixtures.fieldOf (.embed "google.protobuf.Timestamp" none) (.timestamp { ltNow := some true, within := some w })
    let f' := Fixtures.fieldOf (.embed "google.protobuf.Timestamp" none) (.timestamp { within := some w })
    Accepts E (Fixtures.only f) "M" f (.ts t) ∧ ¬ Accepts E (Fixtures.only f') "M" f' (.ts t) := by
  intro f f'
  rw [accepts_value (Fixtures.only_field f) (e := .embed "google.protobuf.Timestamp" none) rfl,
    accepts_value (Fixtures.only_field f') (e := .embed "google.protobuf.Timestamp" none) rfl]
  constructor
  · show TimestampOk E.now _ (some t)
    intro _
    refine ⟨ht, by simp, trivial, fun _ _ => ?_⟩
    simp only [NowOk]
    omega
  · intro h
    have h : TimestampOk E.now { within := some w } (some t) := h
    have := (h (by simp [TsConstrained])).2.2.2 rfl rfl
    simp only [NowOk] at this
    omega

/-- A clock at 100 s and a window of 40 s. -/
example : (⟨40, 0⟩ : PDur).exact > 0 ∧ (⟨60, 0⟩ : PTime).valid = true ∧
    instant ⟨60, 0⟩ = ({ Fixtures.env with now := 100000000000 } : Go.Env).now - (⟨40, 0⟩ : PDur).exact := by decide

end PGV.Props
