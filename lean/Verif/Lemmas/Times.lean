import Verif.Spec.Range
import Verif.Lemmas.Lib
import Verif.Lemmas.Checked

/-!
Saturating durations, and ranges stated on limits.
-/

set_option linter.unusedSimpArgs false

namespace PGV.Go
open PGV PGV.Spec PGV.Checker

theorem valid_iff (d : PDur) : d.valid = true ↔ ValidDuration d := by
  unfold PDur.valid ValidDuration
  simp [and_assoc]
  omega

theorem tsValid_iff (t : PTime) : t.valid = true ↔ ValidTimestamp t := by
  unfold PTime.valid ValidTimestamp
  simp [and_assoc]

theorem goDiv_bound {x : Int} (h1 : minInt64 ≤ x) (h2 : x ≤ maxInt64) :
    -9223372036 ≤ goDiv x 1000000000 ∧ goDiv x 1000000000 ≤ 9223372036 := by
  unfold minInt64 at h1; unfold maxInt64 at h2; unfold goDiv
  rcases Int.le_total 0 x with h | h
  · rw [Int.tdiv_eq_ediv_of_nonneg h]; omega
  · have : x.tdiv 1000000000 = -((-x).tdiv 1000000000) := by simp
    rw [this, Int.tdiv_eq_ediv_of_nonneg (by omega)]; omega

theorem wrap64_range (x : Int) : minInt64 ≤ wrap64 x ∧ wrap64 x ≤ maxInt64 := by
  unfold wrap64 minInt64 maxInt64
  have h1 := Int.le_bmod (x := x) (m := 18446744073709551616) (by decide)
  have h2 := Int.bmod_lt (x := x) (m := 18446744073709551616) (by decide)
  omega

/-- `AsDuration` is exact inside int64 and saturates outside. -/
theorem asDuration_eq {d : PDur} (h : ValidDuration d) :
    d.asDuration = if d.exact < minInt64 then minInt64 else
      if maxInt64 < d.exact then maxInt64 else d.exact := by
  obtain ⟨⟨hs1, hs2⟩, ⟨hn1, hn2⟩, hp, hq⟩ := h
  obtain ⟨s, n⟩ := d
  simp only at hs1 hs2 hn1 hn2 hp hq
  unfold PDur.asDuration PDur.exact
  simp only
  by_cases hm : minInt64 ≤ s * 1000000000 ∧ s * 1000000000 ≤ maxInt64
  · rw [wrap64_of_range hm.1 hm.2]
    have hd : goDiv (s * 1000000000) 1000000000 = s := by
      unfold goDiv; exact Int.mul_tdiv_cancel s (by decide)
    rw [hd]
    unfold minInt64 maxInt64 at hm ⊢
    by_cases hlo : s * 1000000000 + n < -9223372036854775808
    · have hw : wrap64 (s * 1000000000 + n) = s * 1000000000 + n + 18446744073709551616 := by
        unfold wrap64; rw [Int.bmod_def]; omega
      rw [hw]
      have e1 : decide (s < 0) = true := by simp; omega
      have e2 : decide (n < 0) = true := by simp; omega
      have e3 : decide (s * 1000000000 + n + 18446744073709551616 > 0) = true := by simp; omega
      have e4 : s < 0 := by omega
      simp [e1, e2, e3, e4, hlo]
    · by_cases hhi : 9223372036854775807 < s * 1000000000 + n
      · have hw : wrap64 (s * 1000000000 + n) = s * 1000000000 + n - 18446744073709551616 := by
          unfold wrap64; rw [Int.bmod_def]; omega
        rw [hw]
        have e1 : decide (s > 0) = true := by simp; omega
        have e2 : decide (n > 0) = true := by simp; omega
        have e3 : decide (s * 1000000000 + n - 18446744073709551616 < 0) = true := by simp; omega
        have e4 : ¬ s < 0 := by omega
        have e5 : s > 0 := by omega
        have e6 : ¬ s * 1000000000 + n < -9223372036854775808 := hlo
        simp [e1, e2, e3, e4, e5, e6, hhi]
      · rw [wrap64_of_range (by unfold minInt64; omega) (by unfold maxInt64; omega)]
        rw [if_neg hlo, if_neg hhi]
        have e2 : (decide (s < 0) && decide (n < 0) && decide (s * 1000000000 + n > 0)) = false := by
          simp; omega
        have e3 : (decide (s > 0) && decide (n > 0) && decide (s * 1000000000 + n < 0)) = false := by
          simp; omega
        simp [e2, e3]
  · have hb := wrap64_range (s * 1000000000)
    have hd := goDiv_bound hb.1 hb.2
    unfold minInt64 maxInt64 at hm ⊢
    have hne : goDiv (wrap64 (s * 1000000000)) 1000000000 ≠ s := by
      intro he; rw [he] at hd; omega
    have hb : (goDiv (wrap64 (s * 1000000000)) 1000000000 != s) = true := by simp [hne]
    rw [hb]
    simp only [Bool.true_or, if_true]
    by_cases hs : s < 0
    · rw [if_pos hs, if_pos (by omega)]
    · rw [if_neg hs, if_pos (by omega), if_neg (by omega), if_pos (by omega)]

/-- Comparisons of a saturated duration with an ordinary one are comparisons of exact lengths. -/
theorem asDuration_cmp {d : PDur} (h : ValidDuration d) {y : Int}
    (h1 : -9223372036854775808 < y) (h2 : y < 9223372036854775807) :
    (d.asDuration < y ↔ length d < y) ∧ (d.asDuration ≤ y ↔ length d ≤ y) ∧
    (y < d.asDuration ↔ y < length d) ∧ (y ≤ d.asDuration ↔ y ≤ length d) ∧
    (d.asDuration = y ↔ length d = y) := by
  have hl : d.exact = length d := rfl
  rw [asDuration_eq h, hl]
  unfold minInt64 maxInt64
  split
  · omega
  · split <;> omega

theorem asDuration_ordinary {d : PDur} (h : ValidDuration d) (ho : Ordinary d) :
    d.asDuration = length d := by
  rw [asDuration_eq h, show d.exact = length d from rfl]
  unfold Ordinary at ho
  unfold minInt64 maxInt64
  rw [if_neg (by omega), if_neg (by omega)]

/-- The bounds of limits. -/
def upperOf (L : Limits) : Option Bound :=
  match L.lt with
  | some b => some ⟨true, b⟩
  | none => L.lte.map fun b => ⟨false, b⟩
def lowerOf (L : Limits) : Option Bound :=
  match L.gt with
  | some b => some ⟨true, b⟩
  | none => L.gte.map fun b => ⟨false, b⟩

theorem rangeOk_admits (L : Limits) (hu : L.lt = none ∨ L.lte = none)
    (hl : L.gt = none ∨ L.gte = none)
    (hne : ∀ u l, (L.lt = some u ∨ L.lte = some u) → (L.gt = some l ∨ L.gte = some l) → u ≠ l)
    (x : Int) : RangeOk (upperOf L) (lowerOf L) x ↔ L.Admits x := by
  obtain ⟨lt, lte, gt, gte⟩ := L
  simp only at hu hl hne
  unfold RangeOk upperOf lowerOf Limits.Admits Limits.Inverted Limits.Below Limits.Above
  cases lt with
  | some u =>
    have : lte = none := by rcases hu with h | h <;> simp_all
    subst this
    cases gt with
    | some l =>
      have : gte = none := by rcases hl with h | h <;> simp_all
      subst this
      have := hne u l (by simp) (by simp)
      simp [Bound.AsUpper, Bound.AsLower]
      split <;> omega
    | none =>
      cases gte with
      | some l =>
        have := hne u l (by simp) (by simp)
        simp [Bound.AsUpper, Bound.AsLower]
        split <;> omega
      | none => simp [Bound.AsUpper, Bound.AsLower]
  | none =>
    cases lte with
    | some u =>
      cases gt with
      | some l =>
        have : gte = none := by rcases hl with h | h <;> simp_all
        subst this
        have := hne u l (by simp) (by simp)
        simp [Bound.AsUpper, Bound.AsLower]
        split <;> omega
      | none =>
        cases gte with
        | some l =>
          have := hne u l (by simp) (by simp)
          simp [Bound.AsUpper, Bound.AsLower]
          split <;> omega
        | none => simp [Bound.AsUpper, Bound.AsLower]
    | none =>
      cases gt with
      | some l =>
        have : gte = none := by rcases hl with h | h <;> simp_all
        subst this
        simp [Bound.AsUpper, Bound.AsLower]
      | none =>
        cases gte with
        | some l => simp [Bound.AsUpper, Bound.AsLower]
        | none => simp [Bound.AsUpper, Bound.AsLower]

end PGV.Go
