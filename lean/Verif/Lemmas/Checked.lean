import Verif.Spec.Api
import Verif.Lemmas.Lib

/-!
What an accepting run of the generator's rule checks tells about a field.
-/

set_option linter.unusedSimpArgs false

namespace PGV.Go
open PGV PGV.Spec PGV.Checker

theorem checked_type {f : FieldDesc} (h : Checked f) :
    (checkTypeRules (fun _ => true) (.field f.typ) f.rules.type).isSome = true := by
  unfold Checked checkField at h
  split at h
  · simp at h
  · cases hr : f.rules with
    | absent => simp [FieldRules.type, checkTypeRules]
    | mk m t => simpa [hr, checkFieldRules, FieldRules.type] using h

theorem checked_num {f : FieldDesc} (h : Checked f) {k : NumKind} {r : NumRules}
    (hr : f.rules.type = .num k r) : checkNum r = true := by
  have := checked_type h
  simp only [hr, checkTypeRules] at this
  cases hn : checkNum r <;> simp_all

theorem checked_string {f : FieldDesc} (h : Checked f) {r : StringRules}
    (hr : f.rules.type = .string r) : (checkString (fun _ => true) r).isSome = true := by
  have := checked_type h
  simp only [hr, checkTypeRules] at this
  split at this <;> simp_all

theorem checked_bytes {f : FieldDesc} (h : Checked f) {r : BytesRules}
    (hr : f.rules.type = .bytes r) : checkBytes (fun _ => true) r = true := by
  have := checked_type h
  simp only [hr, checkTypeRules] at this
  cases hn : checkBytes (fun _ => true) r <;> simp_all

theorem checked_enum {f : FieldDesc} (h : Checked f) {r : EnumRules}
    (hr : f.rules.type = .enum r) : checkEnum (.field f.typ) r = true := by
  have := checked_type h
  simp only [hr, checkTypeRules] at this
  cases hn : checkEnum (.field f.typ) r <;> simp_all

theorem checked_any {f : FieldDesc} (h : Checked f) {r : AnyRules}
    (hr : f.rules.type = .any r) : checkIns r.ins.length r.notIns.length = true := by
  have := checked_type h
  simp only [hr, checkTypeRules] at this
  split at this <;> simp_all

theorem checked_duration {f : FieldDesc} (h : Checked f) {r : DurationRules}
    (hr : f.rules.type = .duration r) : checkDuration r = true := by
  have := checked_type h
  simp only [hr, checkTypeRules] at this
  split at this <;> simp_all

theorem checked_timestamp {f : FieldDesc} (h : Checked f) {r : TimestampRules}
    (hr : f.rules.type = .timestamp r) : checkTimestamp r = true := by
  have := checked_type h
  simp only [hr, checkTypeRules] at this
  split at this <;> simp_all

theorem checkIns_iff (a b : Nat) : checkIns a b = true ↔ a = 0 ∨ b = 0 := by
  simp [checkIns]

/-- `checkNums` as a proposition. -/
theorem checkNums_iff {α : Type} (eq : α → α → Bool) (a b : Nat) (c lt lte gt gte : Option α) :
    checkNums eq a b c lt lte gt gte = true ↔
      (a = 0 ∨ b = 0) ∧
      (c ≠ none → a = 0 ∧ b = 0 ∧ lt = none ∧ lte = none ∧ gt = none ∧ gte = none) ∧
      (a ≠ 0 → lt = none ∧ lte = none ∧ gt = none ∧ gte = none) ∧
      (lt = none ∨ lte = none) ∧ (gt = none ∨ gte = none) ∧
      (∀ u l, (lt = some u ∨ lte = some u) → (gt = some l ∨ gte = some l) → eq u l = false) := by
  unfold checkNums
  simp only [Bool.and_eq_true, checkIns_iff, Bool.or_eq_true, Option.isNone_iff_eq_none,
    beq_iff_eq, and_assoc]
  constructor
  · rintro ⟨h1, h2, h3, h4, h5, h6⟩
    refine ⟨h1, ?_, ?_, h4, h5, ?_⟩
    · intro hc; rcases h2 with h2 | h2
      · exact absurd h2 hc
      · exact h2
    · intro ha; rcases h3 with h3 | h3
      · exact absurd h3 ha
      · exact h3
    · intro u l hu hl
      rcases hu with rfl | rfl
      · rcases hl with rfl | rfl <;> simp_all
      · rcases h4 with h4 | h4
        · subst h4; rcases hl with rfl | rfl <;> simp_all
        · simp at h4
  · rintro ⟨h1, h2, h3, h4, h5, h6⟩
    refine ⟨h1, ?_, ?_, h4, h5, ?_⟩
    · cases c with
      | none => exact .inl rfl
      | some x => exact .inr (h2 (by simp))
    · by_cases ha : a = 0
      · exact .inl ha
      · exact .inr (h3 ha)
    · cases lt with
      | some u => cases gt <;> cases gte <;> simp_all
      | none => cases lte with
        | none => rfl
        | some u => cases gt <;> cases gte <;> simp_all

end PGV.Go
