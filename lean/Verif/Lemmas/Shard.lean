import Verif.Harness.Shard
import Verif.Lemmas.CppNum

/-!
The length of a shard is the exact quotient rounded up, and the slices fit together.
-/

set_option linter.unusedSimpArgs false
set_option autoImplicit false

namespace PGV.Harness
open PGV PGV.Cpp

theorem nearest_error (a d : Int) (hd : 0 < d) :
    2 * (nearest a d * d) ≤ 2 * a + d ∧ 2 * a - d ≤ 2 * (nearest a d * d) := by
  unfold nearest
  have h1 := Int.mul_ediv_add_emod a d
  have h2 := Int.emod_nonneg a (by omega : d ≠ 0)
  have h3 := Int.emod_lt_of_pos a hd
  generalize a / d = q at h1 ⊢
  generalize a % d = r at h1 h2 h3 ⊢
  have e1 : q * d = a - r := by rw [Int.mul_comm]; omega
  have e2 : (q + 1) * d = a - r + d := by rw [Int.add_mul, e1]; omega
  simp only
  split
  · rw [e1]; omega
  · split
    · rw [e2]; omega
    · split
      · rw [e1]; omega
      · rw [e2]; omega

theorem readDouble_nat (n : Nat) (hn : n < 2 ^ 53) : readDouble n 1 = n * 2 ^ 1074 := by
  refine roundTo_exact (M := n) (j := 1074) (by decide) (by simp) ?_ hn (Nat.zero_le _)
  rw [Int.natAbs_mul, Int.natAbs_pow]
  rfl

theorem ulp_bound (q : Nat) : 2 ^ max (bitLen q - 53) 0 = 1 ∨ 2 ^ max (bitLen q - 53) 0 * 2 ^ 52 ≤ q := by
  rw [Nat.max_zero]
  by_cases h : bitLen q ≤ 53
  · left; rw [Nat.sub_eq_zero_of_le h]
  · right
    unfold bitLen at h ⊢
    split at h
    · omega
    · rename_i hq
      rw [if_neg hq]
      have h1 : 2 ^ q.log2 ≤ q := Nat.log2_self_le hq
      rw [← Nat.pow_add, show q.log2 + 1 - 53 + 52 = q.log2 by omega]
      exact h1

theorem int_le_of_mul {a b c : Int} (hc : 0 < c) (h : a * c < b * c) : a < b :=
  Int.lt_of_mul_lt_mul_right h (Int.le_of_lt hc)

/-- The rounded quotient is within one unit of the last place of the exact one, in the sense needed. -/
theorem quotient_error (n c : Nat) (hc : 0 < c) (hn : n < 2 ^ 53) (hc' : c < 2 ^ 53) :
    let q := readDouble (n * 2 ^ 1074) (c * 2 ^ 1074)
    q * c < n * 2 ^ 1074 + 2 ^ 1074 ∧ (n : Int) * 2 ^ 1074 - 2 ^ 1074 < q * c := by
  intro q
  have hq : q = readDouble (n * 2 ^ 1074) (c * 2 ^ 1074) := rfl
  clear_value q
  unfold readDouble roundTo at hq
  have hD : (0 : Int) < 2 ^ 1074 := Int.pow_pos (by decide)
  have hDn : 0 < 2 ^ 1074 := Nat.two_pow_pos 1074
  have hcast : ((2 ^ 1074 : Nat) : Int) = 2 ^ 1074 := by simp
  have habs : ((n : Int) * 2 ^ 1074).natAbs = n * 2 ^ 1074 := by
    rw [Int.natAbs_mul, Int.natAbs_pow]; rfl
  have habs' : ((c : Int) * 2 ^ 1074).natAbs = c * 2 ^ 1074 := by
    rw [Int.natAbs_mul, Int.natAbs_pow]; rfl
  rw [habs, habs', Nat.mul_div_mul_right _ _ hDn] at hq
  have hbig : (2 : Int) ^ 53 ≤ 2 ^ 1074 := by
    have : (2 : Nat) ^ 53 ≤ 2 ^ 1074 := Nat.pow_le_pow_right (by decide) (by decide)
    have := Int.ofNat_le.mpr this
    simpa using this
  have hu := ulp_bound (n * 2 ^ 1074 / c)
  generalize hM : max (bitLen (n * 2 ^ 1074 / c) - 53) 0 = m at hq hu
  have hU : (0 : Int) < 2 ^ m := Int.pow_pos (by decide)
  -- c * ulp < 2 D
  have hcu : (c : Int) * 2 ^ m < 2 * 2 ^ 1074 := by
    rcases hu with h | h
    · have : (2 : Int) ^ m = 1 := by
        have := congrArg (fun x : Nat => (x : Int)) h
        simpa using this
      rw [this]
      have : (c : Int) < 2 ^ 53 := by
        have := Int.ofNat_lt.mpr hc'
        simpa using this
      omega
    · have h1 : 2 ^ m * 2 ^ 52 * c ≤ n * 2 ^ 1074 := (Nat.le_div_iff_mul_le hc).mp h
      have h2 : n * 2 ^ 1074 < 2 ^ 53 * 2 ^ 1074 := Nat.mul_lt_mul_of_pos_right hn hDn
      have h3 : c * 2 ^ m * 2 ^ 52 < 2 * 2 ^ 1074 * 2 ^ 52 := by
        have e1 : c * 2 ^ m * 2 ^ 52 = 2 ^ m * 2 ^ 52 * c := by
          rw [Nat.mul_comm c, Nat.mul_assoc, Nat.mul_comm c, ← Nat.mul_assoc]
        have e2 : 2 * 2 ^ 1074 * 2 ^ 52 = 2 ^ 53 * 2 ^ 1074 := by
          rw [Nat.mul_comm 2, Nat.mul_assoc, Nat.mul_comm]
        rw [e1, e2]
        exact Nat.lt_of_le_of_lt h1 h2
      have h4 : c * 2 ^ m < 2 * 2 ^ 1074 := Nat.lt_of_mul_lt_mul_right h3
      have := Int.ofNat_lt.mpr h4
      simpa using this
  have hcp : (0 : Int) < c := by omega
  -- the error of rounding, multiplied by `c D`
  have hden : (0 : Int) < c * 2 ^ 1074 * 2 ^ m := Int.mul_pos (Int.mul_pos hcp hD) hU
  have herr := nearest_error ((n : Int) * 2 ^ 1074 * 2 ^ 1074) (c * 2 ^ 1074 * 2 ^ m) hden
  have hqc : nearest ((n : Int) * 2 ^ 1074 * 2 ^ 1074) (c * 2 ^ 1074 * 2 ^ m) * (c * 2 ^ 1074 * 2 ^ m) =
      q * c * 2 ^ 1074 := by
    rw [hq]
    simp only
    generalize nearest _ _ = z
    generalize (2 : Int) ^ 1074 = D
    generalize (2 : Int) ^ m = U
    rw [Int.mul_assoc z U, Int.mul_assoc z, Int.mul_comm (c * D) U, ← Int.mul_assoc U]
  rw [hqc] at herr
  generalize (2 : Int) ^ 1074 = D at hD hcu herr hbig ⊢
  generalize (2 : Int) ^ m = U at hU hcu herr
  have e3 : (c : Int) * D * U = c * U * D := by rw [Int.mul_assoc, Int.mul_comm D, ← Int.mul_assoc]
  rw [e3] at herr
  constructor
  · have : 2 * (q * c) * D < (2 * (n * D) + 2 * D) * D := by
      have h5 : (c : Int) * U * D < 2 * D * D := Int.mul_lt_mul_of_pos_right hcu hD
      rw [Int.add_mul, Int.mul_assoc, Int.mul_assoc 2 (↑n * D)]
      omega
    have := int_le_of_mul hD this
    omega
  · have : (2 * (n * D) - 2 * D) * D < 2 * (q * c) * D := by
      have h5 : (c : Int) * U * D < 2 * D * D := Int.mul_lt_mul_of_pos_right hcu hD
      rw [Int.sub_mul, Int.mul_assoc, Int.mul_assoc 2 (q * c)]
      omega
    have := int_le_of_mul hD this
    omega

/-- The length of a shard is the number of cases divided by the number of shards, rounded up. -/
theorem shardLength_eq (n c : Nat) (hc : 0 < c) (hn : n < 2 ^ 53) (hc' : c < 2 ^ 53) :
    shardLength n c = ((n + (c - 1)) / c : Nat) := by
  unfold shardLength ceil
  rw [readDouble_nat n hn, readDouble_nat c hc']
  have hD : (0 : Int) < 2 ^ 1074 := Int.pow_pos (by decide)
  generalize hk : (n + (c - 1)) / c = k
  -- c (k-1) < n ≤ c k
  have hk1 : n ≤ c * k := by
    have h1 := Nat.div_add_mod (n + (c - 1)) c
    have h2 := Nat.mod_lt (n + (c - 1)) hc
    rw [hk] at h1
    omega
  have hk2 : c * k < n + c := by
    have := Nat.mul_div_le (n + (c - 1)) c
    rw [hk] at this
    omega
  by_cases he : n = c * k
  · have : readDouble (↑n * 2 ^ 1074) (↑c * 2 ^ 1074) = k * 2 ^ 1074 := by
      have hkn : k ≤ n := by rw [he]; exact Nat.le_mul_of_pos_left k hc
      refine roundTo_exact (M := k) (j := 1074) (Int.mul_pos (by omega) hD) ?_ ?_
        (Nat.lt_of_le_of_lt hkn hn) (Nat.zero_le _)
      · have hI : (n : Int) = c * k := by rw [he]; simp
        rw [hI]
        generalize (2 : Int) ^ 1074 = D
        rw [Int.mul_assoc, Int.mul_comm (c : Int) k, Int.mul_assoc, Int.mul_assoc,
          Int.mul_comm D (c * D), Int.mul_assoc]
      · rw [Int.natAbs_mul, Int.natAbs_pow]; rfl
    rw [this]
    generalize (2 : Int) ^ 1074 = D at hD
    rw [← Int.neg_mul, Int.mul_ediv_cancel _ (by omega)]
    omega
  · have hq := quotient_error n c hc hn hc'
    simp only at hq
    generalize readDouble (↑n * 2 ^ 1074) (↑c * 2 ^ 1074) = q at hq
    generalize (2 : Int) ^ 1074 = D at hD hq
    have hcp : (0 : Int) < c := by omega
    have h1 : (n : Int) + 1 ≤ c * k := by
      have : n + 1 ≤ c * k := by omega
      have := Int.ofNat_le.mpr this
      simpa using this
    have h2 : (c : Int) * k + 1 ≤ n + c := by
      have := Int.ofNat_le.mpr hk2
      simpa using this
    have hup : q * c < k * D * c := by
      have h3 : ((n : Int) + 1) * D ≤ c * k * D := Int.mul_le_mul_of_nonneg_right h1 (by omega)
      rw [Int.add_mul] at h3
      have e : (k : Int) * D * c = c * k * D := by
        rw [Int.mul_comm _ (c : Int), ← Int.mul_assoc]
      rw [e]; omega
    have hlo : (k - 1) * D * c < q * c := by
      have h3 : ((c : Int) * k + 1) * D ≤ (n + c) * D := Int.mul_le_mul_of_nonneg_right h2 (by omega)
      rw [Int.add_mul, Int.add_mul] at h3
      have e : ((k : Int) - 1) * D * c = c * k * D - c * D := by
        rw [Int.sub_mul, Int.sub_mul, Int.one_mul, Int.mul_comm (_ * D) (c : Int), ← Int.mul_assoc,
          Int.mul_comm D]
      rw [e]; omega
    have hup' := int_le_of_mul hcp hup
    have hlo' := int_le_of_mul hcp hlo
    have : -q / D = -k := by
      refine (Int.ediv_eq_iff_of_pos hD).mpr ⟨?_, ?_⟩
      · rw [Int.neg_mul]; omega
      · rw [Int.sub_mul] at hlo'
        rw [Int.neg_mul]; omega
    rw [this]; omega

/-- The slice of a shard. -/
theorem shard_eq {α : Type} (l : List α) (c i : Nat) (hc : 0 < c) (hn : l.length < 2 ^ 53)
    (hc' : c < 2 ^ 53) :
    shard l c i = if i * ((l.length + (c - 1)) / c) ≤ l.length then
      some ((l.drop (i * ((l.length + (c - 1)) / c))).take ((l.length + (c - 1)) / c)) else none := by
  unfold shard
  rw [shardLength_eq _ _ hc hn hc']
  clear hn hc'
  generalize (l.length + (c - 1)) / c = k
  have h1 : (i : Int) * (k : Int) = ((i * k : Nat) : Int) := by simp
  have h2 : ((i : Int) + 1) * (k : Int) = ((i * k + k : Nat) : Int) := by
    rw [Int.add_mul]; simp
  simp only [h1, h2]
  generalize i * k = a
  have e : ((if (l.length : Int) ≤ ((a + k : Nat) : Int) then (l.length : Int) else ((a + k : Nat) : Int)) =
      ((min (a + k) l.length : Nat) : Int)) := by
    split <;> omega
  simp only [ge_iff_le]
  rw [e]
  by_cases h : a ≤ l.length
  · rw [if_pos h, if_pos (by omega)]
    have : ((↑(min (a + k) l.length) : Int) - (a : Int)).toNat = min k (l.length - a) := by omega
    rw [this, Int.toNat_natCast]
    congr 1
    rw [← List.length_drop, List.take_eq_take_min (i := k)]
  · rw [if_neg h, if_neg (by omega)]

/-- Consecutive slices of length `k` make up the list. -/
theorem slices_take {α : Type} (l : List α) (k : Nat) (f : Nat → Option (List α))
    (hf : ∀ i, f i = if i * k ≤ l.length then some ((l.drop (i * k)).take k) else none) (m : Nat) :
    ((List.range m).filterMap f).flatten = l.take (m * k) := by
  induction m with
  | zero => simp
  | succ m ih =>
    rw [List.range_succ, List.filterMap_append, List.flatten_append, ih, Nat.add_mul, Nat.one_mul]
    by_cases hm : m * k ≤ l.length
    · simp [hf m, hm, List.take_add]
    · have h1 : l.length ≤ m * k := by omega
      have h2 : l.length ≤ m * k + k := by omega
      simp [hf m, hm, List.take_of_length_le h1, List.take_of_length_le h2]

/-- The first `m` shards are the first cases. -/
theorem shards_take {α : Type} (l : List α) (c : Nat) (hc : 0 < c) (hn : l.length < 2 ^ 53)
    (hc' : c < 2 ^ 53) (m : Nat) :
    ((List.range m).filterMap (shard l c)).flatten = l.take (m * ((l.length + (c - 1)) / c)) :=
  slices_take l _ _ (fun i => shard_eq l c i hc hn hc') m

theorem length_le_shards (n c : Nat) (hc : 0 < c) : n ≤ c * ((n + (c - 1)) / c) := by
  have h1 := Nat.div_add_mod (n + (c - 1)) c
  have h2 := Nat.mod_lt (n + (c - 1)) hc
  omega

end PGV.Harness
