import Verif.Spec.Rules
import Verif.Go.Known

/-!
Library-level lemmas: numbers, byte strings, instants.
-/

namespace PGV
open PGV.Go

theorem numVal_eq_key (n : Num) : Spec.numVal n = n.key := by
  cases n <;> rfl

theorem Num.eq_iff (a b : Num) : a.eq b = true ↔ Spec.numSame a b := by
  unfold Num.eq Spec.numSame
  rw [numVal_eq_key, numVal_eq_key]
  cases ha : a.key <;> cases hb : b.key <;> simp
  exact eq_comm

theorem Num.isZero_iff (a : Num) : a.isZero = true ↔ Spec.numVal a = some 0 := by
  simp [Num.isZero, numVal_eq_key]

theorem hasPrefix_iff (s p : Bytes) : hasPrefix s p = true ↔ p <+: s := by
  unfold hasPrefix
  simp only [Bool.and_eq_true, decide_eq_true_eq, beq_iff_eq]
  constructor
  · rintro ⟨_, h⟩
    rw [← h]; exact List.take_prefix _ _
  · intro h
    exact ⟨h.length_le, (List.prefix_iff_eq_take.1 h).symm⟩

theorem hasSuffix_iff (s p : Bytes) : hasSuffix s p = true ↔ p <:+ s := by
  unfold hasSuffix
  simp only [Bool.and_eq_true, decide_eq_true_eq, beq_iff_eq]
  constructor
  · rintro ⟨_, h⟩
    rw [← h]; exact List.drop_suffix _ _
  · intro h
    exact ⟨h.length_le, (List.suffix_iff_eq_drop.1 h).symm⟩

theorem containsSub_iff (s p : Bytes) : containsSub s p = true ↔ p <:+: s := by
  unfold containsSub
  simp only [List.any_eq_true, List.mem_range, hasPrefix_iff]
  constructor
  · rintro ⟨i, _, t, ht⟩
    exact ⟨s.take i, t, by rw [List.append_assoc, ht, List.take_append_drop]⟩
  · rintro ⟨a, b, h⟩
    refine ⟨a.length, ?_, b, ?_⟩
    · rw [← h]; simp; omega
    · rw [← h]; simp

theorem asTime_eq (t : PTime) : t.asTime = Spec.instant t := rfl

theorem wrap64_of_range {x : Int} (h1 : minInt64 ≤ x) (h2 : x ≤ maxInt64) : wrap64 x = x := by
  unfold wrap64 minInt64 maxInt64 at *
  apply Int.bmod_eq_of_le <;> omega

theorem sub_sign (t u : Int) :
    (Instant.sub t u < 0 ↔ t < u) ∧ (Instant.sub t u ≤ 0 ↔ t ≤ u) := by
  unfold Instant.sub Instant.add
  simp only
  split
  · rename_i h
    generalize wrap64 (t - u) = d at *
    have h' : u + d = t := h
    omega
  · split
    · rename_i h2
      have h2' : t < u := h2
      unfold minInt64; omega
    · rename_i h1 h2
      have h2' : ¬ t < u := h2
      have : t ≠ u := by
        rintro rfl
        apply h1
        have : wrap64 (t - t) = 0 := by simp [wrap64]
        rw [this]; exact Int.add_zero t
      unfold maxInt64
      omega

theorem sub_lt_zero (t u : Int) : Instant.sub t u < 0 ↔ t < u := (sub_sign t u).1
theorem sub_le_zero (t u : Int) : Instant.sub t u ≤ 0 ↔ t ≤ u := (sub_sign t u).2
theorem sub_ge_zero (t u : Int) : Instant.sub t u ≥ 0 ↔ u ≤ t := by
  have := sub_lt_zero t u; omega
theorem sub_gt_zero (t u : Int) : Instant.sub t u > 0 ↔ u < t := by
  have := sub_le_zero t u; omega

theorem optB_iff (b : Option Bool) : optB b = true ↔ b = some true := by
  cases b <;> simp [optB]

theorem optB_false_iff (b : Option Bool) : optB b = false ↔ b ≠ some true := by
  cases b <;> simp [optB]

end PGV
