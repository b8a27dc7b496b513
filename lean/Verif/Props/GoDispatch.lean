import Verif.Harness.GoDispatch
import Verif.Props.Dispatch

/-!
C111 for Go.
-/

set_option linter.unusedSimpArgs false
set_option autoImplicit false

namespace PGV.Props
open PGV PGV.Spec PGV.Cpp PGV.Harness

/-- **C111** The Go program never takes a message for another type. -/
theorem C111_go_own (linked : List LinkMessage) (host name : Ident) (hn : '/' ∉ name) (m : LinkMessage)
    (h : goType linked (host ++ '/' :: name) = some m) : typeName m = name ∧ m ∈ linked := by
  unfold goType at h
  have h1 := List.find?_some h
  rw [last_part host name hn] at h1
  exact ⟨by simpa using h1, List.mem_of_find?_eq_some h⟩

/-- **C111** It finds the type of a message, nested or not, if, and only if, the type is linked into it. -/
theorem C111_go_iff (linked : List LinkMessage) (url : Ident) (m : LinkMessage) (hu : OfType url m) (ht : Types linked)
    (hn : '/' ∉ typeName m) : goType linked url = some m ↔ m ∈ linked := by
  obtain ⟨host, rfl⟩ := hu
  constructor
  · exact fun h => (C111_go_own linked host _ hn m h).2
  · intro hm
    cases hc : goType linked (host ++ '/' :: typeName m) with
    | none =>
      unfold goType at hc
      have := List.find?_eq_none.1 hc m hm
      rw [last_part host _ hn] at this
      simp at this
    | some m' =>
      have h1 := C111_go_own linked host _ hn m' hc
      rw [ht.2 m' h1.2 m hm h1.1]

theorem goError_fails (failures : Nat) : IsFailure (outcome failures goError) = true := by
  have : answer goError = .result false true false false 1 :=
    answer_ok { error := true, reasons := [[]] } (by
      intro b hb
      simp only [List.mem_singleton] at hb
      subst hb
      exact ⟨by simp, utf8_nil⟩)
  simp [outcome, this, judge, IsFailure]

/-- **C111** Of a type that is not linked into it, every test fails. -/
theorem C111_go_unknown (linked : List LinkMessage) (validate : LinkMessage → Ended) (url : Ident)
    (h : ∀ m ∈ linked, ¬ OfType url m) (hs : '/' ∈ url) (failures : Nat) :
    IsFailure (outcome failures (goMain linked validate url)) = true := by
  have : goType linked url = none := by
    cases hc : goType linked url with
    | none => rfl
    | some m =>
      refine absurd ?_ (h m (List.mem_of_find?_eq_some hc))
      have h1 := List.find?_some hc
      simp only [beq_iff_eq] at h1
      obtain ⟨host, hh⟩ := before_slash url hs
      exact ⟨host, by rw [h1]; exact hh⟩
  simp only [goMain, this]
  exact goError_fails failures

/-- **C111** A test of a message type fails whatever it expects if the type has a validator where it should have none, or has none where it
should have one. Only `MessageIgnored` should have none. -/
theorem C111_go_ignored (linked : List LinkMessage) (validate : LinkMessage → Ended) (url : Ident) (m : LinkMessage) (hu : OfType url m)
    (ht : Types linked) (hn : '/' ∉ typeName m) (hm : m ∈ linked)
    (hw : m.ignored = true ↔ typeName m ≠ "tests.harness.cases.MessageIgnored".toList)
    (failures : Nat) : IsFailure (outcome failures (goMain linked validate url)) = true := by
  have e : "tests.harness.cases.MessageIgnored".toList = messageIgnored := rfl
  rw [e] at hw
  have hg := (C111_go_iff linked url m hu ht hn).2 hm
  simp only [goMain, hg]
  by_cases h : typeName m = messageIgnored
  · have : m.ignored = false := by simpa [h] using hw
    simp only [h, this, beq_self_eq_true, if_true, Bool.not_false]
    exact goError_fails failures
  · have : m.ignored = true := by simpa [h] using hw
    simp only [beq_iff_eq, h, this, if_false, Bool.not_true, Bool.not_false, if_true]
    exact goError_fails failures

/-- **C111** If it is as it should be, the message is validated as its own type, and `MessageIgnored` counts as valid. -/
theorem C111_go_validates (linked : List LinkMessage) (validate : LinkMessage → Ended) (url : Ident) (m : LinkMessage) (hu : OfType url m)
    (ht : Types linked) (hn : '/' ∉ typeName m) (hm : m ∈ linked)
    (hw : m.ignored = true ↔ typeName m = "tests.harness.cases.MessageIgnored".toList) :
    (typeName m ≠ "tests.harness.cases.MessageIgnored".toList → goMain linked validate url = validate m) ∧
    (typeName m = "tests.harness.cases.MessageIgnored".toList → ∀ failures,
      IsSuccess (outcome failures (goMain linked validate url)) = decide (failures = 0) ∧
      IsFailure (outcome failures (goMain linked validate url)) = decide (failures ≠ 0)) := by
  have e : "tests.harness.cases.MessageIgnored".toList = messageIgnored := rfl
  rw [e] at hw ⊢
  have hg := (C111_go_iff linked url m hu ht hn).2 hm
  constructor
  · intro h
    have : m.ignored = false := by simpa [h] using hw
    simp only [goMain, hg, beq_iff_eq, h, this, if_false, Bool.not_false, Bool.not_true, Bool.false_eq_true]
  · intro h failures
    have h2 : m.ignored = true := hw.2 h
    have ha : answer (.exit (encodeResult { valid := true })) = .result true false false false 0 :=
      answer_ok { valid := true } (by intro b hb; cases hb)
    simp only [goMain, hg, h, h2, beq_self_eq_true, if_true, Bool.not_true, Bool.false_eq_true, if_false, outcome, ha, judge, IsSuccess,
      IsFailure]
    by_cases h0 : failures = 0 <;> simp [h0]

/-- The hypotheses are met: a nested type, and one that is ignored. -/
example : Types [typeOf ["a"] ["Msg"], typeOf ["a"] ["Msg", "In"], { typeOf ["a"] ["Off"] with ignored := true }] ∧
    goType [typeOf ["a"] ["Msg"], typeOf ["a"] ["Msg", "In"], { typeOf ["a"] ["Off"] with ignored := true }] "x/a.Msg.In".toList =
      some (typeOf ["a"] ["Msg", "In"]) ∧
    typeName { typeOf ["a"] ["Off"] with ignored := true } ≠ messageIgnored := by
  refine ⟨⟨by decide, ?_⟩, rfl, by decide⟩
  intro m hm m' hm' he
  simp only [List.mem_cons, List.not_mem_nil, or_false] at hm hm'
  rcases hm with rfl | rfl | rfl <;> rcases hm' with rfl | rfl | rfl <;> first | rfl | exact absurd he (by decide)

example : typeName { typeOf ["tests", "harness", "cases"] ["MessageIgnored"] with ignored := true } =
    "tests.harness.cases.MessageIgnored".toList := by decide +kernel

end PGV.Props
