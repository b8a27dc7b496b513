import Verif.Lemmas.AcceptedFields

/-!
C89: exactly which messages the generator accepts.
-/

set_option linter.unusedSimpArgs false

namespace PGV.Props
open PGV PGV.Go PGV.Spec PGV.Checker

/-- **C89** The generator accepts a message exactly when validation is disabled for it or the rules of
each of its fields, at every depth, are let through. -/
theorem C89_accepts_iff (compiles : Bytes → Bool) (hc : HeadersCompile compiles) (d : MsgDesc)
    (hp : ∀ f, FieldOf d f → ∀ t r, RuleAt f t r → ParsedRules r.type) :
    AcceptedMsg compiles d ↔ d.disabled = true ∨
      ∀ f, FieldOf d f → MessageRulesOk f ∧ ∀ t r, RuleAt f t r → RulesOk compiles t r.type := by
  have hall : (∀ f, FieldOf d f → MessageRulesOk f ∧ ∀ t r, RuleAt f t r → RulesOk compiles t r.type) ↔
      ∀ f, FieldOf d f → Accepted compiles f :=
    forall_congr' fun f => forall_congr' fun hf => (accepted_field_iff hc (hp f hf)).symm
  rw [hall]
  unfold AcceptedMsg checkMsg
  cases hd : d.disabled with
  | true => simp
  | false =>
    have hand : (∀ f, FieldOf d f → Accepted compiles f) ↔
        checkFields compiles d.fields ≠ none ∧ checkOneofs compiles d.oneofs ≠ none := by
      rw [checkFields_iff, checkOneofs_iff]
      constructor
      · intro h; exact ⟨fun f hf => h f (.inl hf), fun o ho f hf => h f (.inr ⟨o, ho, hf⟩)⟩
      · rintro ⟨h1, h2⟩ f (hf | ⟨o, ho, hf⟩)
        · exact h1 f hf
        · exact h2 o ho f hf
    rw [hand]
    simp only [Bool.false_eq_true, if_false, false_or]
    cases checkFields compiles d.fields <;> cases checkOneofs compiles d.oneofs <;> simp

/-- A message with an accepted map field, a string field with accepted rules and a field with message rules. -/
def acceptedMsg : MsgDesc :=
  { name := "T", fields :=
    [{ name := "M", typ := .map .string (.scalar .int32),
       rules := .mk none (.map { maxPairs := some 3 } (.mk none (.string { pfx := some (asc "a"), maxLen := some 4 }))
         (.mk none (.num .int32 { gt := some (.int 0), lte := some (.int 9) }))) },
     { name := "N", typ := .one (.embed "T" none), rules := .mk (some { required := some true }) .unset }] }

/-- C89's hypotheses are met, by an accepted message and, with the bounds swapped for equal ones, a refused one. -/
example : HeadersCompile (fun _ => true) ∧
    (∀ f, FieldOf acceptedMsg f → ∀ t r, RuleAt f t r → ParsedRules r.type) ∧
    AcceptedMsg (fun _ => true) acceptedMsg ∧
    ¬ RulesOk (fun _ => true) (.one (.scalar .int32))
      (.num .int32 { gt := some (.int 9), lte := some (.int 9) }) := by
  refine ⟨fun _ _ => rfl, ?_, by unfold AcceptedMsg; decide, ?_⟩
  · intro f hf t r hr
    simp only [FieldOf, acceptedMsg, List.mem_cons, List.not_mem_nil, or_false, false_and, exists_false] at hf
    have key : (r = f.rules) ∨ r = .mk none (.string { pfx := some (asc "a"), maxLen := some 4 }) ∨
        r = .mk none (.num .int32 { gt := some (.int 0), lte := some (.int 9) }) := by
      induction hr with
      | top => exact .inl rfl
      | item hr ih => rcases hf with rfl | rfl <;> simp at ih
      | key hr ih =>
        rcases hf with rfl | rfl <;> simp at ih
        obtain ⟨-, -, rfl, -⟩ := ih
        exact .inr (.inl rfl)
      | value hr ih =>
        rcases hf with rfl | rfl <;> simp at ih
        obtain ⟨-, -, -, rfl⟩ := ih
        exact .inr (.inr rfl)
    rcases key with rfl | rfl | rfl
    · rcases hf with rfl | rfl <;> trivial
    · refine ⟨by simp, ?_⟩
      rintro p (h | h | h) <;> simp at h
      subst h
      exact ⟨[0x61], by simp [CodePoint], by decide⟩
    · trivial
  · rintro ⟨-, h⟩
    exact h.apart (.int 9) (.int 9) (by simp) (by simp) ⟨_, rfl, rfl⟩

/-- **C89** Two durations of different lengths, both beyond what a `time.Duration` holds, count as equal:
rules that durations between the two satisfy are refused. -/
theorem C89_long_durations_equal (compiles : Bytes → Bool) (t : FieldT) (u l : PDur)
    (h1 : 9223372036854775807 < length l) (h2 : length l < length u) :
    ¬ AcceptedMsg compiles { name := "T", fields :=
      [{ name := "F", typ := t, rules := .mk none (.duration { lt := some u, gt := some l }) }] } := by
  intro ha
  have hf := accepted_of_msg (f := { name := "F", typ := t, rules := .mk none (.duration { lt := some u, gt := some l }) })
    ha rfl (.inl (by simp))
  rw [accepted_iff rfl] at hf
  have : checkDuration { lt := some u, gt := some l } = true := by
    cases hh : checkDuration { lt := some u, gt := some l } with
    | true => rfl
    | false => simp [checkTypeRules, hh] at hf
  rw [checkDuration_iff] at this
  refine this.bounds.apart u l (by simp) (by simp) ?_
  show heldLength u = heldLength l
  unfold heldLength
  omega

/-- Such durations are valid. -/
example : ValidDuration ⟨10000000001, 0⟩ ∧ ValidDuration ⟨10000000000, 0⟩ ∧
    9223372036854775807 < length ⟨10000000000, 0⟩ ∧ length ⟨10000000000, 0⟩ < length ⟨10000000001, 0⟩ := by
  unfold ValidDuration
  decide

end PGV.Props
