import Verif.Lemmas.JavaReason
import Verif.Props.JavaBlame

/-!
C91: what the reasons of Java exceptions say.
-/

set_option linter.unusedSimpArgs false

namespace PGV.Props
open PGV PGV.Java PGV.Spec
open PGV.Go (depth)

/-- **C91** Whenever a generated Java validator throws a `ValidationException`, its reason, read as a requirement, is
one that the message, or one embedded in it at any depth, does not meet: either a required oneof is unset, or the
value of a field, or an item, key or value of it, breaks the requirement, with the limits that the reason names, while
every value that the rules accept on their own meets it; and what the reason says of the value itself, such as its
length, is true. The only other source is a validator that was not generated here.
Missing for the full property: what the rules accept without meeting the reason (`Overstated`), see
`C91_uri_ref_overstates` and `C91_within_overstates`. -/
theorem C91_reason_is_a_broken_requirement_partial (J : JEnv) (S : Schema) (hS : Sane S) (v : Val) (n : String)
    (reason : Reason) (h : assertValid J S v = .error (.validation n reason)) :
    (∃ typ fs os d, Nested S v (.msg typ fs os) ∧ S typ = .generated d ∧
      ((∃ o ∈ d.oneofs, o.required = true ∧ os.lookup o.name = none ∧ reason = [.s "is required"]) ∨
        ∃ f u, Active d fs os f u ∧ Grounds J typ f u reason)) ∨
    ∃ w, ¬ Validated S w ∧ J.other w = .error (.validation n reason) :=
  message_grounds hS (depth v) v (Nat.le_refl _) h

/-- The generator accepts the type `Person`. -/
theorem people_sane : Sane people := by
  intro typ d f hS hf
  have hd : d = Fixtures.person := by
    unfold people at hS
    split at hS
    · cases hS; rfl
    · cases hS
  subst hd
  have hm : f = Fixtures.age ∨ f = Fixtures.nick ∨ f = Fixtures.friends ∨ f ∈ Fixtures.contact.fields := by
    rcases hf with hf | ⟨o, ho, hf⟩
    · simp [Fixtures.person] at hf
      rcases hf with h | h | h <;> simp [h]
    · simp [Fixtures.person] at ho
      subst ho
      exact .inr (.inr (.inr hf))
  simp only [Fixtures.contact, List.mem_cons, List.not_mem_nil, or_false] at hm
  rcases hm with h | h | h | h | h <;> subst h <;>
    exact ⟨by unfold Checked; decide, by intro k e h; cases h⟩

/-- For the friend whose nickname is too long, the reason states the limit. -/
example : (∃ typ fs os d, Nested people cleo (.msg typ fs os) ∧ people typ = .generated d ∧
      ((∃ o ∈ d.oneofs, o.required = true ∧ os.lookup o.name = none ∧
        [JPiece.s "length must be at most ", .nat 3, .s " but got: ", .nat 6] = [.s "is required"]) ∨
        ∃ f u, Active d fs os f u ∧
          Grounds jenv typ f u [.s "length must be at most ", .nat 3, .s " but got: ", .nat 6])) :=
  (C91_reason_is_a_broken_requirement_partial jenv people people_sane cleo _ _ cleo_throws).resolve_right
    (by rintro ⟨w, -, h⟩; cases h)

/-- A nickname of six letters does not meet that reason, one of two letters does. -/
example : ¬ JReading jenv .string (.string {}) [.s "length must be at most ", .nat 3, .s " but got: ", .nat 6]
      (.sc (.str (asc "friend"))) ∧
    JReading jenv .string (.string {}) [.s "length must be at most ", .nat 3, .s " but got: ", .nat 6]
      (.sc (.str (asc "al"))) := by
  constructor
  · intro h
    have := h _ rfl
    simp only [itemReading, charsText] at this
    exact absurd (this _ rfl) (by decide +kernel)
  · intro x hx
    cases hx
    simp only [itemReading, charsText]
    rintro _ ⟨⟩
    decide +kernel

/-- A field of the kind that `uri_ref` is for. -/
def uriRefField : FieldDesc :=
  { name := "Link", typ := .one .string, rules := .mk none (.string { wellKnown := some (.uriRef true) }) }

/-- **C91, negation** `uri_ref` rejects what is no URI with the reason that it should be an absolute one, and accepts
relative references, which are not. -/
theorem C91_uri_ref_overstates (J : JEnv) (typ : String) (v u : Bytes) (hv : J.uri (jstr v) = none)
    (hu : J.uri (jstr u) = some false) :
    fieldAlone J typ uriRefField (.sc (.str v)) =
      .error (.validation (fullName typ "Link") [.s "should be a valid absolute uri"]) ∧
    fieldAlone J typ uriRefField (.sc (.str u)) = .ok () ∧
    ¬ JReading J .string uriRefField.rules.type [.s "should be a valid absolute uri"] (.sc (.str u)) := by
  refine ⟨?_, ?_, ?_⟩
  · rw [fieldAlone_eq]
    simp only [renderField, uriRefField, elemTpl_lenient]
    show stringTpl J _ { wellKnown := some (.uriRef true) } v = _
    simp [stringTpl, strLen, strAffix, strWellKnown, optB, optS, withOpt, when, seq, check, hv,
      StringRules.getEmail, StringRules.getAddress, StringRules.getHostname, StringRules.getIp, StringRules.getIpv4,
      StringRules.getIpv6, StringRules.getUri, StringRules.getUriRef, StringRules.getUuid, fullName, fullyQualified]
  · rw [fieldAlone_eq]
    simp only [renderField, uriRefField, elemTpl_lenient]
    show stringTpl J _ { wellKnown := some (.uriRef true) } u = _
    simp [stringTpl, strLen, strAffix, strWellKnown, optB, optS, withOpt, when, seq, check, hu,
      StringRules.getEmail, StringRules.getAddress, StringRules.getHostname, StringRules.getIp, StringRules.getIpv4,
      StringRules.getIpv6, StringRules.getUri, StringRules.getUriRef, StringRules.getUuid]
  · intro h
    have := h _ rfl
    simp only [itemReading, bareText] at this
    rw [this _ rfl] at hu
    cases hu

example : ∃ J : JEnv, J.uri (jstr (asc "a b")) = none ∧ J.uri (jstr (asc "a/b")) = some false ∧ Checked uriRefField :=
  ⟨{ jenv with uri := fun s => if s = jstr (asc "a b") then none else some false }, by simp, by
    simp only [ite_eq_right_iff, reduceCtorEq, imp_false]; decide +kernel, by unfold Checked; decide +kernel⟩

/-- A field that must be within one second of the clock. -/
def withinField : FieldDesc :=
  { name := "At", typ := .one (.embed "google.protobuf.Timestamp" (some .timestamp)),
    rules := .mk none (.timestamp { within := some ⟨1, 0⟩ }) }

/-- **C91, negation** A time in 1677, exactly 2^63 nanoseconds before the clock, is accepted as within one second of
it, and a time two seconds before is rejected with the reason that it must be. -/
theorem C91_within_overstates : ∃ J : JEnv, ∃ v u : PTime, ∃ reason, Checked withinField ∧
    fieldAlone J "M" withinField (.ts v) = .error (.validation ".M.At" reason) ∧
    fieldAlone J "M" withinField (.ts u) = .ok () ∧
    ¬ JReading J (.embed "google.protobuf.Timestamp" (some .timestamp)) withinField.rules.type reason (.ts u) := by
  refine ⟨{ jenv with nowMs := 0 }, ⟨-2, 0⟩, ⟨-9223372037, 145224192⟩,
    [.s "value must be within ", .item (.dur ⟨1, 0⟩), .s " of ", .item (.ts ⟨0, 0⟩)], ?_, ?_, ?_, ?_⟩
  · unfold Checked; decide +kernel
  · rfl
  · rfl
  · intro h
    have := h _ rfl
    simp only [itemReading] at this
    exact absurd (this _ _ _ rfl rfl rfl) (by decide +kernel)

end PGV.Props
