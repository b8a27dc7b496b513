import Verif.Lemmas.PyNum

/-!
How far doubles are from the times they stand for.
-/

set_option linter.unusedSimpArgs false
set_option autoImplicit false

namespace PGV.Py
open PGV PGV.Spec PGV.Spec.Python PGV.Checker Code

variable {nm : String}

theorem nearest_near (x d : Int) (hd : 0 < d) :
    2 * (nearest x d * d - x) ≤ d ∧ -d ≤ 2 * (nearest x d * d - x) := by
  have h1 := Int.mul_ediv_add_emod x d
  have h2 := Int.emod_nonneg x (by omega : d ≠ 0)
  have h3 := Int.emod_lt_of_pos x hd
  have h4 : (x / d + 1) * d = d * (x / d) + d := by rw [Int.add_mul, Int.one_mul, Int.mul_comm]
  have h5 : x / d * d = d * (x / d) := Int.mul_comm _ _
  unfold nearest
  simp only
  generalize x % d = r at *
  generalize hz : d * (x / d) = z at *
  split
  · rw [h5]; omega
  · split
    · rw [h4]; omega
    · split
      · rw [h5]; omega
      · rw [h4]; omega

/-- Half way between two integers it is the even one. -/
theorem nearest_tie (x d : Int) (hd : 0 < d) :
    2 * (nearest x d * d - x) = d ∨ 2 * (x - nearest x d * d) = d → nearest x d % 2 = 0 := by
  have h1 := Int.mul_ediv_add_emod x d
  have h2 := Int.emod_nonneg x (by omega : d ≠ 0)
  have h3 := Int.emod_lt_of_pos x hd
  have h4 : (x / d + 1) * d = d * (x / d) + d := by rw [Int.add_mul, Int.one_mul, Int.mul_comm]
  have h5 : x / d * d = d * (x / d) := Int.mul_comm _ _
  unfold nearest
  simp only
  generalize x % d = r at *
  generalize hz : d * (x / d) = z at *
  split
  · rw [h5]; omega
  · split
    · rw [h4]; omega
    · split
      · rw [h5]; omega
      · rw [h4]; omega

/-- An integer less than half away is the nearest one. -/
theorem nearest_eq (x d q : Int) (hd : 0 < d) (h1 : 2 * (x - q * d) < d) (h2 : -d < 2 * (x - q * d)) :
    nearest x d = q := by
  obtain ⟨h3, h4⟩ := nearest_near x d hd
  generalize nearest x d = m at *
  by_cases hlt : m < q
  · exfalso
    have : (m + 1) * d ≤ q * d := Int.mul_le_mul_of_nonneg_right (by omega) (by omega)
    rw [Int.add_mul, Int.one_mul] at this
    omega
  · by_cases hgt : q < m
    · exfalso
      have : (q + 1) * d ≤ m * d := Int.mul_le_mul_of_nonneg_right (by omega) (by omega)
      rw [Int.add_mul, Int.one_mul] at this
      omega
    · omega

/-- The step between neighbouring doubles is 1 or at most `|x| / 2^52`. -/
theorem ulp_le (n : Nat) : (2 : Int) ^ (bitLen n - 53) = 1 ∨ 2 ^ 52 * (2 : Int) ^ (bitLen n - 53) ≤ n := by
  by_cases h : bitLen n ≤ 53
  · left
    rw [show bitLen n - 53 = 0 by omega]; rfl
  · right
    have hn : n ≠ 0 := by
      rintro rfl
      exact h (by decide)
    have hb : bitLen n = Nat.log2 n + 1 := by unfold bitLen; rw [if_neg hn]
    have h1 := Nat.log2_self_le hn
    have h2 : (2 : Nat) ^ 52 * 2 ^ (bitLen n - 53) = 2 ^ Nat.log2 n := by
      rw [← Nat.pow_add]; congr 1; omega
    rw [← h2] at h1
    exact_mod_cast h1

/-- Rounding to a double moves a number by at most one part in 2^53. -/
theorem roundDouble_near (x : Int) :
    (2 ^ 53 * (roundDouble x - x)).natAbs ≤ x.natAbs := by
  unfold roundDouble
  simp only
  have hp := two_pow_pos (bitLen x.natAbs - 53)
  have hu := ulp_le x.natAbs
  generalize (2 : Int) ^ (bitLen x.natAbs - 53) = u at *
  rcases hu with rfl | hu
  · have := nearest_mul x 1 (by decide)
    rw [Int.mul_one] at this
    rw [this]
    omega
  · have := nearest_near x u hp
    generalize nearest x u * u = z at *
    omega

/-- So does rounding a fraction, up to the smallest double. -/
theorem ofRatio_near (n d : Int) (hd : 0 < d) :
    (2 ^ 53 * (ofRatio n d * d - n * scale)).natAbs ≤ n.natAbs * scale + 2 ^ 52 * d := by
  unfold ofRatio
  simp only
  have hsc := scale_pos
  generalize scale = K at *
  have hb := ulp_le ((n.natAbs : Int) * K / d).natAbs
  have hp := two_pow_pos (bitLen ((n.natAbs : Int) * K / d).natAbs - 53)
  generalize (2 : Int) ^ (bitLen ((n.natAbs : Int) * K / d).natAbs - 53) = u at *
  have hnn : 0 ≤ (n.natAbs : Int) * K := Int.mul_nonneg (by omega) (by omega)
  have hq : 0 ≤ (n.natAbs : Int) * K / d := Int.ediv_nonneg hnn (by omega)
  have hqd : (n.natAbs : Int) * K / d * d ≤ (n.natAbs : Int) * K := Int.ediv_mul_le _ (by omega)
  have hn := nearest_near (n * K) (d * u) (Int.mul_pos hd hp)
  have e : nearest (n * K) (d * u) * u * d = nearest (n * K) (d * u) * (d * u) := by
    rw [Int.mul_assoc, Int.mul_comm u d]
  rw [e]
  have hdu : 2 ^ 52 * (d * u) ≤ (n.natAbs : Int) * K + 2 ^ 52 * d := by
    rcases hb with rfl | hb
    · rw [Int.mul_one]; omega
    · have h1 : 2 ^ 52 * u * d ≤ (n.natAbs : Int) * K / d * d := by
        refine Int.mul_le_mul_of_nonneg_right ?_ (by omega)
        omega
      rw [Int.mul_assoc, Int.mul_comm u d] at h1
      omega
  generalize nearest (n * K) (d * u) * (d * u) = z at *
  generalize d * u = w at *
  generalize n * K = y at *
  generalize (n.natAbs : Int) * K = v at *
  omega

theorem two_pow_le {m n : Nat} (h : m ≤ n) : (2 : Int) ^ m ≤ 2 ^ n := by
  obtain ⟨d, rfl⟩ := Nat.exists_eq_add_of_le h
  rw [Int.pow_add]
  have h1 := two_pow_pos d
  have h2 := Int.mul_le_mul_of_nonneg_left (show (1 : Int) ≤ 2 ^ d by omega)
    (Int.le_of_lt (two_pow_pos m))
  rwa [Int.mul_one] at h2

theorem scale_large : (2 : Int) ^ 100 ≤ scale := two_pow_le (by decide)

theorem natAbs_mul_le {a b : Int} {m : Int} (hb : 0 ≤ b) (h : (a.natAbs : Int) ≤ m) :
    ((a * b).natAbs : Int) ≤ m * b := by
  rw [Int.natAbs_mul, Int.natCast_mul]
  have : (b.natAbs : Int) = b := by omega
  rw [this]
  exact Int.mul_le_mul_of_nonneg_right h hb

/-- The fraction of a literal. -/
theorem litPart_near (n : Int) (hn : n.natAbs < 1000000000) :
    ((2 ^ 53 * (roundDouble (nano * n) * 1000000000 - n * scale)).natAbs : Int) ≤ 3000000000 * scale := by
  have h1 := roundDouble_near (nano * n)
  have h2 := ofRatio_near 1 1000000000 (by decide)
  have hK := scale_large
  rw [show ofRatio 1 1000000000 = nano from rfl] at h2
  generalize roundDouble (nano * n) = t at *
  generalize scale = K at *
  generalize nano = e at *
  simp only [Int.one_mul, Int.natAbs_one] at h2
  have h3 := natAbs_mul_le (a := n) (b := 2 ^ 53 * (e * 1000000000 - K)) (m := 1000000000)
  have h4 := natAbs_mul_le (a := n) (b := K) (m := 1000000000) (by omega) (by omega)
  have h5 : ((n * (e * 1000000000 - K)).natAbs : Int) * 2 ^ 53 ≤ 1000000000 * (K + 2 ^ 52 * 1000000000) := by
    rw [Int.natAbs_mul, Int.natCast_mul, Int.mul_assoc]
    refine Int.mul_le_mul (by omega) (by omega) (by omega) (by decide)
  have h6 : n * (e * 1000000000 - K) = e * n * 1000000000 - n * K := by
    rw [Int.mul_sub, ← Int.mul_assoc, Int.mul_comm n e]
  rw [h6] at h5
  clear h3 h6 h2
  generalize e * n = N at *
  generalize n * K = nK at *
  omega

/-- The fraction of a value. -/
theorem valuePart_near (n : Int) (hn : n.natAbs < 1000000000) :
    ((2 ^ 53 * (round9 (roundDouble (nano * n)) * 1000000000 - n * scale)).natAbs : Int) ≤
      3000000000 * scale := by
  have h1 := litPart_near n hn
  have hK := scale_large
  have h2 : nearest (roundDouble (nano * n) * 1000000000) scale = n := by
    refine nearest_eq _ _ _ scale_pos ?_ ?_ <;> omega
  have h3 := ofRatio_near n 1000000000 (by decide)
  unfold round9
  rw [h2]
  have h4 := natAbs_mul_le (a := n) (b := scale) (m := 1000000000) (by omega) (by omega)
  have h5 : (n.natAbs : Int) * scale ≤ 1000000000 * scale :=
    Int.mul_le_mul_of_nonneg_right (by omega) (by omega)
  generalize ofRatio n 1000000000 = w at *
  generalize (n.natAbs : Int) * scale = a at *
  generalize n * scale = nK at *
  generalize scale = K at *
  omega

/-- Seconds plus a fraction. -/
theorem sum_near (s n c : Int) (k : Nat) (hs : s.natAbs < 2 ^ k) (hs' : s.natAbs < 2 ^ 53)
    (hn : n.natAbs < 1000000000)
    (hc : ((2 ^ 53 * (c * 1000000000 - n * scale)).natAbs : Int) ≤ 3000000000 * scale) :
    ((2 ^ 53 * (roundDouble (ofInt s + c) * 1000000000 - (s * 1000000000 + n) * scale)).natAbs : Int) ≤
      1000000000 * (2 ^ k * scale) + 3000000000 * scale := by
  rw [ofInt_exact s hs']
  have h1 := roundDouble_near (s * scale + c)
  have hK := scale_large
  have h2 : ((s * scale).natAbs : Int) ≤ (2 ^ k - 1) * scale :=
    natAbs_mul_le (by omega) (by
      have : (s.natAbs : Int) < ((2 ^ k : Nat) : Int) := by exact_mod_cast hs
      rw [Int.natCast_pow] at this
      have e : ((2 : Nat) : Int) = 2 := rfl
      rw [e] at this
      omega)
  have h3 : ((n * scale).natAbs : Int) ≤ 999999999 * scale := natAbs_mul_le (by omega) (by omega)
  rw [Int.sub_mul, Int.one_mul] at h2
  have e : (s * 1000000000 + n) * scale = s * scale * 1000000000 + n * scale := by
    rw [Int.add_mul, Int.mul_assoc, Int.mul_comm 1000000000, ← Int.mul_assoc]
  rw [e]
  generalize roundDouble (s * scale + c) = y at *
  generalize (2 : Int) ^ k * scale = A at *
  generalize s * scale = sK at *
  generalize n * scale = nK at *
  generalize scale = K at *
  clear hs hs' e
  omega

theorem litSecs_near (s n : Int) (k : Nat) (hs : s.natAbs < 2 ^ k) (hs' : s.natAbs < 2 ^ 53)
    (hn : n.natAbs < 1000000000) :
    ((2 ^ 53 * (litSecs s n * 1000000000 - (s * 1000000000 + n) * scale)).natAbs : Int) ≤
      1000000000 * (2 ^ k * scale) + 3000000000 * scale :=
  sum_near s n _ k hs hs' hn (litPart_near n hn)

theorem valueSecs_near (s n : Int) (k : Nat) (hs : s.natAbs < 2 ^ k) (hs' : s.natAbs < 2 ^ 53)
    (hn : n.natAbs < 1000000000) :
    ((2 ^ 53 * (valueSecs s n * 1000000000 - (s * 1000000000 + n) * scale)).natAbs : Int) ≤
      1000000000 * (2 ^ k * scale) + 3000000000 * scale :=
  sum_near s n _ k hs hs' hn (valuePart_near n hn)

/-- Doubles `x`, `y` for the times `a`, `b` compare as they do. -/
def Faithful (x a y b : Int) : Prop := (x < y ↔ a < b) ∧ (y < x ↔ b < a)

/-- Times further apart than the error of both doubles. -/
theorem faithful_far {x a y b : Int} {k : Nat} (hk : 2 ≤ k)
    (hx : ((2 ^ 53 * (x * 1000000000 - a * scale)).natAbs : Int) ≤
      1000000000 * (2 ^ k * scale) + 3000000000 * scale)
    (hy : ((2 ^ 53 * (y * 1000000000 - b * scale)).natAbs : Int) ≤
      1000000000 * (2 ^ k * scale) + 3000000000 * scale)
    (hd : 1000000000 * 2 ^ k < (a - b).natAbs * 2 ^ 51) : Faithful x a y b := by
  have hK := scale_pos
  have hA : 4 * scale ≤ 2 ^ k * scale := by
    refine Int.mul_le_mul_of_nonneg_right ?_ (by omega)
    exact two_pow_le (m := 2) hk
  have hd' : 1000000000 * (2 ^ k * scale) < ((a - b).natAbs * scale) * 2 ^ 51 := by
    have h1 : (1000000000 * 2 ^ k : Int) < (a - b).natAbs * 2251799813685248 := by
      have : ((1000000000 * 2 ^ k : Nat) : Int) < (((a - b).natAbs * 2251799813685248 : Nat) : Int) :=
        Int.ofNat_lt.2 (by simpa using hd)
      rw [Int.natCast_mul, Int.natCast_mul, Int.natCast_pow] at this
      exact this
    have h2 := Int.mul_lt_mul_of_pos_right h1 hK
    have e1 : (1000000000 * 2 ^ k * scale : Int) = 1000000000 * (2 ^ k * scale) := Int.mul_assoc _ _ _
    have e2 : ((a - b).natAbs * 2251799813685248 * scale : Int) = (a - b).natAbs * scale * 2251799813685248 := by
      rw [Int.mul_assoc, Int.mul_comm 2251799813685248, ← Int.mul_assoc]
    rw [e1, e2] at h2
    exact h2
  have he : ((a - b).natAbs : Int) * scale = (a * scale - b * scale).natAbs := by
    rw [← Int.sub_mul, Int.natAbs_mul, Int.natCast_mul]
    have : (scale.natAbs : Int) = scale := by omega
    rw [this]
  rw [he] at hd'
  have hlt : a < b ↔ a * scale < b * scale := (scale_lt a b).symm
  have hgt : b < a ↔ b * scale < a * scale := (scale_lt b a).symm
  unfold Faithful
  rw [hlt, hgt]
  clear hlt hgt he hd hk
  generalize (2 : Int) ^ k * scale = A at *
  generalize a * scale = aK at *
  generalize b * scale = bK at *
  generalize scale = K at *
  omega

/-- Whole seconds. -/
theorem faithful_whole {s t : Int} : Faithful (s * scale) (s * 1000000000) (t * scale) (t * 1000000000) := by
  unfold Faithful
  rw [scale_lt, scale_lt]
  omega

theorem Faithful.lt {x a y b : Int} (h : Faithful x a y b) : x < y ↔ a < b := h.1
theorem Faithful.gt {x a y b : Int} (h : Faithful x a y b) : y < x ↔ b < a := h.2
theorem Faithful.le {x a y b : Int} (h : Faithful x a y b) : x ≤ y ↔ a ≤ b := by
  have := h.2; omega
theorem Faithful.ge {x a y b : Int} (h : Faithful x a y b) : y ≤ x ↔ b ≤ a := by
  have := h.1; omega
theorem Faithful.eq {x a y b : Int} (h : Faithful x a y b) : x = y ↔ a = b := by
  have := h.1; have := h.2; omega

/-- The bound that rules give. -/
def boundOf {α : Type} (X : α → Int) (strict weak : Option α) : Option Bound :=
  match strict with
  | some b => some ⟨true, X b⟩
  | none => weak.map fun b => ⟨false, X b⟩

/-- Range tests on doubles that compare as the exact times do. -/
theorem timeRange_near {α : Type} (L X : α → Int) {glued : Bool} {lt lte gt gte : Option α} {x a : Int}
    (hs : (timeRange nm glued (lt.map L) (lte.map L) (gt.map L) (gte.map L)).isSome = true)
    (hx : ∀ b, lt = some b ∨ lte = some b ∨ gt = some b ∨ gte = some b → Faithful x a (L b) (X b))
    (hb : ∀ u l, (lt = some u ∨ lte = some u) → (gt = some l ∨ gte = some l) →
      Faithful (L u) (X u) (L l) (X l)) :
    (timeRange nm glued (lt.map L) (lte.map L) (gt.map L) (gte.map L)).run x = .ok () ↔
      RangeOk (boundOf X lt lte) (boundOf X gt gte) a := by
  have hg : ∀ (why : Text) (t : Int → Bool), ((if glued then none else raiseIf nm why t) : Code Int).isSome = true →
      (((if glued then none else raiseIf nm why t) : Code Int).run x = .ok () ↔ t x = false) := by
    intro why t ht
    cases glued <;> simp_all
  unfold timeRange at *
  rcases lt with _ | u <;> rcases lte with _ | u' <;> rcases gt with _ | l <;> rcases gte with _ | l' <;>
    simp only [Option.map_some, Option.map_none, boundOf, RangeOk, gt_iff_lt] at hs ⊢ <;>
    (try have h1 := hx u (by simp)) <;> (try have h2 := hx u' (by simp)) <;>
    (try have h3 := hx l (by simp)) <;> (try have h4 := hx l' (by simp)) <;>
    (try have h5 := hb u l (by simp) (by simp)) <;> (try have h6 := hb u l' (by simp) (by simp)) <;>
    (try have h7 := hb u' l (by simp) (by simp)) <;> (try have h8 := hb u' l' (by simp) (by simp)) <;>
    clear hx hb <;> (try unfold Faithful at *) <;>
    first
    | (simp; done)
    | (rw [hg _ _ hs]
       simp [Bound.AsUpper, Bound.AsLower]
       omega)
    | (simp [Bound.AsUpper, Bound.AsLower]; omega)
    | (split at hs
       · rename_i h
         rw [if_pos h, run_raiseIf, if_pos (by omega)]
         simp [Bound.AsUpper, Bound.AsLower]
         omega
       · rename_i h
         rw [if_neg h, hg _ _ hs, if_neg (by omega)]
         simp [Bound.AsUpper, Bound.AsLower]
         omega)

end PGV.Py
