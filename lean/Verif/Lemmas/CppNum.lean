import Verif.Spec.CppPortable
import Verif.Lemmas.Tpl
import Verif.Lemmas.Java

/-!
Numbers in generated C++ code: literals and comparisons.
-/

set_option linter.unusedSimpArgs false
set_option autoImplicit false

namespace PGV.Cpp
open PGV PGV.Spec.Cpp
open PGV.Go (Ctx Piece)
open PGV.Spec (numVal f32Val f64Val numSame RangeOk Bound numUpper numLower ListOk NumOk IntOf kindRange)

/-! ### Statements -/

/-- The statement does not throw, and goes through exactly when `p` holds. -/
def Decides (x : Run) (p : Prop) : Prop := (x = .ok () ↔ p) ∧ ∀ w, x ≠ .error (.unimplemented w)

theorem Decides.ok : Decides (.ok ()) True := ⟨by simp, by simp⟩

theorem Decides.iff {x : Run} {p q : Prop} (h : Decides x p) (e : p ↔ q) : Decides x q :=
  ⟨h.1.trans e, h.2⟩

theorem Decides.fail (c : Ctx) (r : List Piece) : Decides (fail c r) False :=
  ⟨by simp [Cpp.fail, failIdx], by simp [Cpp.fail, failIdx]⟩

theorem Decides.failIdx (c : Ctx) (i : Option Go.Idx) (k : Option CErr) (r : List Piece) :
    Decides (failIdx c i k r) False :=
  ⟨by simp [Cpp.failIdx], by simp [Cpp.failIdx]⟩

theorem Decides.seq {x y : Run} {p q : Prop} (h : Decides x p) (h' : p → Decides y q) :
    Decides (x ⊳ y) (p ∧ q) := by
  unfold Cpp.seq
  cases x with
  | ok u =>
    have hp : p := h.1.1 rfl
    have := h' hp
    exact ⟨by simp [this.1, hp], this.2⟩
  | error e =>
    have hp : ¬ p := fun hp => by have := h.1.2 hp; simp at this
    exact ⟨by simp [hp], fun w => h.2 w⟩

theorem Decides.when {b : Bool} {x : Run} {p q : Prop} (h : b = true → Decides x p)
    (e : (b = true → p) ↔ q) : Decides (when b x) q := by
  unfold Cpp.when
  cases b with
  | true => exact (h rfl).iff (by rw [← e]; simp)
  | false => exact Decides.ok.iff (by rw [← e]; simp)

/-- A failure under a condition. -/
theorem Decides.check {b : Bool} {c : Ctx} {r : List Piece} {p : Prop} (e : b = false ↔ p) :
    Decides (Cpp.when b (Cpp.fail c r)) p :=
  Decides.when (fun _ => Decides.fail c r) (by rw [← e]; simp)

theorem Decides.withOpt {α : Type} {o : Option α} {k : α → Run} {p : α → Prop}
    (h : ∀ a, o = some a → Decides (k a) (p a)) : Decides (withOpt o k) (∀ a, o = some a → p a) := by
  unfold Cpp.withOpt
  cases o with
  | none => exact Decides.ok.iff (by simp)
  | some a => exact (h a rfl).iff (by simp)

theorem Decides.forEach {α : Type} {xs : List α} {f : α → Run} {p : α → Prop}
    (h : ∀ x ∈ xs, Decides (f x) (p x)) : Decides (forEach xs f) (∀ x ∈ xs, p x) := by
  induction xs with
  | nil => exact Decides.ok.iff (by simp)
  | cons x xs ih =>
    unfold Cpp.forEach
    exact ((h x (by simp)).seq fun _ => ih fun y hy => h y (by simp [hy])).iff (by simp)

theorem Decides.ite {b : Prop} [Decidable b] {x y : Run} {p : Prop} (h : b → Decides x p)
    (h' : ¬ b → Decides y p) : Decides (if b then x else y) p := by
  split
  · exact h (by assumption)
  · exact h' (by assumption)

/-- `ignore_empty`. -/
theorem Decides.ignore {b : Option Bool} {nonempty : Bool} {body : Run} {p q : Prop}
    (h : Decides body p) (e : nonempty = false ↔ q) :
    Decides (if optB b then Cpp.when nonempty body else body) ((b = some true ∧ q) ∨ p) := by
  cases hb : optB b with
  | true =>
    rw [PGV.optB_iff] at hb
    simp only [if_true, hb, true_and]
    refine Decides.when (fun _ => h) ?_
    rw [← e]
    cases nonempty <;> simp
  | false =>
    have hb' : b ≠ some true := by rintro rfl; simp [optB] at hb
    simp only [Bool.false_eq_true, if_false, hb', false_and, false_or]
    exact h

/-! ### Exact literals -/

/-- At most half away, and the even one half way between two integers. -/
theorem nearest_spec (x d : Int) (hd : 0 < d) :
    2 * (nearest x d * d - x) ≤ d ∧ -d ≤ 2 * (nearest x d * d - x) ∧
    (2 * (nearest x d * d - x) = d ∨ 2 * (x - nearest x d * d) = d → nearest x d % 2 = 0) := by
  have h1 := Int.mul_ediv_add_emod x d
  have h2 := Int.emod_nonneg x (by omega : d ≠ 0)
  have h3 := Int.emod_lt_of_pos x hd
  have h4 : (x / d + 1) * d = d * (x / d) + d := by rw [Int.add_mul, Int.one_mul, Int.mul_comm]
  have h5 : x / d * d = d * (x / d) := Int.mul_comm _ _
  unfold nearest
  simp only
  generalize x % d = r at *
  generalize hz : d * (x / d) = z at *
  split
  · rw [h5]; omega
  · split
    · rw [h4]; omega
    · split
      · rw [h5]; omega
      · rw [h4]; omega

theorem nearest_exact (q d : Int) (hd : 0 < d) : nearest (q * d) d = q := by
  unfold nearest
  rw [Int.mul_ediv_cancel q (by omega), Int.mul_emod_left]
  simp only [Int.mul_zero, hd, if_true]

theorem bitLen_le {M j prec : Nat} (h : M < 2 ^ prec) : bitLen (M * 2 ^ j) ≤ prec + j := by
  unfold bitLen
  split
  · omega
  · rename_i hn
    have : M * 2 ^ j < 2 ^ (prec + j) := by
      rw [Nat.pow_add]
      exact Nat.mul_lt_mul_of_pos_right h (Nat.two_pow_pos j)
    have := (Nat.log2_lt hn).2 this
    omega

/-- A decimal equal to a number with few significant bits is read as that number. -/
theorem roundTo_exact {prec low M j : Nat} {num den V : Int} (hd : 0 < den)
    (he : num * 2 ^ 1074 = V * den) (hV : V.natAbs = M * 2 ^ j) (hM : M < 2 ^ prec) (hj : low ≤ j) :
    roundTo prec low num den = V := by
  unfold roundTo
  have hq : num.natAbs * 2 ^ 1074 / den.natAbs = V.natAbs := by
    have := congrArg Int.natAbs he
    rw [Int.natAbs_mul, Int.natAbs_mul, Int.natAbs_pow] at this
    rw [show (2 : Int).natAbs = 2 from rfl] at this
    rw [this]
    exact Nat.mul_div_cancel _ (by omega)
  rw [hq, hV]
  have hb := bitLen_le (j := j) hM
  generalize hE : max (bitLen (M * 2 ^ j) - prec) low = E
  have hEj : E ≤ j := by omega
  obtain ⟨W, hW⟩ : ∃ W : Int, V = W * 2 ^ E := by
    have h1 : (2 : Nat) ^ E ∣ V.natAbs := by
      rw [hV]; exact Nat.dvd_trans (Nat.pow_dvd_pow 2 hEj) (Nat.dvd_mul_left _ _)
    have h2 : ((2 ^ E : Nat) : Int) ∣ V := Int.ofNat_dvd_left.2 h1
    obtain ⟨W, h⟩ := h2
    refine ⟨W, ?_⟩
    rw [h, Int.mul_comm]
    simp
  have hp : (0 : Int) < 2 ^ E := Int.pow_pos (by decide)
  simp only
  rw [he, hW, show W * 2 ^ E * den = W * (den * 2 ^ E) by
    rw [Int.mul_assoc, Int.mul_comm (2 ^ E) den], nearest_exact _ _ (Int.mul_pos hd hp)]

theorem pow1074 : (2 : Int) ^ 1074 = 2 ^ 149 * 2 ^ 925 := by
  rw [← Int.pow_add]

/-- The shape of finite `float`s. -/
theorem f32_finite {b : BitVec 32} (h : Finite32 b) :
    ∃ x, f32Val b = some x ∧ ∃ M j : Nat, x.natAbs = M * 2 ^ j ∧ M < 2 ^ 24 ∧ j ≤ 253 := by
  unfold Finite32 at h
  unfold f32Val
  simp only [h, false_and, if_false]
  refine ⟨_, rfl, ?_⟩
  have hm : b.toNat % 8388608 < 8388608 := Nat.mod_lt _ (by decide)
  have he : b.toNat / 8388608 % 256 < 256 := Nat.mod_lt _ (by decide)
  generalize b.toNat / 8388608 % 256 = e at *
  generalize b.toNat % 8388608 = m at *
  have ha : ∀ (p : Prop) [Decidable p] (n : Nat), (if p then -(n : Int) else n).natAbs = n := by
    intro p _ n; split <;> simp
  rw [ha]
  by_cases h0 : e = 0
  · exact ⟨m, 0, by simp [h0], by omega, by omega⟩
  · exact ⟨8388608 + m, e - 1, by simp [h0], by omega, by omega⟩

/-- All `float`s are within the value of infinity, and finite ones strictly. -/
theorem f32_bounds {b : BitVec 32} {x : Int} (h : f32Val b = some x) :
    -2 ^ 277 ≤ x ∧ x ≤ 2 ^ 277 := by
  unfold f32Val at h
  simp only at h
  split at h
  · simp at h
  · rename_i hn
    injection h with h
    have hm : b.toNat % 8388608 < 8388608 := Nat.mod_lt _ (by decide)
    have he : b.toNat / 8388608 % 256 < 256 := Nat.mod_lt _ (by decide)
    generalize b.toNat / 8388608 % 256 = e at *
    generalize b.toNat % 8388608 = m at *
    have hmag : (if e = 0 then m else (8388608 + m) * 2 ^ (e - 1)) ≤ 2 ^ 277 := by
      have e24 : (2 : Nat) ^ 24 = 16777216 := rfl
      have e23 : (2 : Nat) ^ 23 = 8388608 := rfl
      by_cases h0 : e = 0
      · rw [if_pos h0]
        have : (2 : Nat) ^ 23 ≤ 2 ^ 277 := Nat.pow_le_pow_right (by decide) (by decide)
        omega
      · rw [if_neg h0]
        by_cases h255 : e = 255
        · have hm0 : m = 0 := by
            rcases Nat.eq_zero_or_pos m with h | h
            · exact h
            · exact absurd ⟨h255, by omega⟩ hn
          subst h255; subst hm0
          rw [show (8388608 + 0 : Nat) = 2 ^ 23 from rfl, ← Nat.pow_add]
          exact Nat.le_refl _
        · have h1 : (8388608 + m) * 2 ^ (e - 1) ≤ 2 ^ 24 * 2 ^ (e - 1) :=
            Nat.mul_le_mul_right _ (by omega)
          have h2 : (2 : Nat) ^ 24 * 2 ^ (e - 1) ≤ 2 ^ 277 := by
            rw [← Nat.pow_add]; exact Nat.pow_le_pow_right (by decide) (by omega)
          exact Nat.le_trans h1 h2
    generalize (if e = 0 then m else (8388608 + m) * 2 ^ (e - 1)) = mag at *
    have hi : (mag : Int) ≤ 2 ^ 277 := by
      have := Int.ofNat_le.2 hmag
      rwa [Int.natCast_pow] at this
    generalize (2 : Int) ^ 277 = A at *
    split at h <;> omega

theorem f32_finite_lt {b : BitVec 32} {x : Int} (hf : Finite32 b) (h : f32Val b = some x) :
    -2 ^ 277 < x ∧ x < 2 ^ 277 := by
  obtain ⟨y, hy, M, j, hM, hl, hj⟩ := f32_finite hf
  rw [h] at hy; injection hy with hy; subst hy
  have h1 : x.natAbs < 2 ^ 277 := by
    rw [hM]
    have h1 : M * 2 ^ j < 2 ^ 24 * 2 ^ j := Nat.mul_lt_mul_of_pos_right hl (Nat.two_pow_pos j)
    have h2 : (2 : Nat) ^ 24 * 2 ^ j ≤ 2 ^ 277 := by
      rw [← Nat.pow_add]; exact Nat.pow_le_pow_right (by decide) (by omega)
    exact Nat.lt_of_lt_of_le h1 h2
  have h2 : (x.natAbs : Int) < 2 ^ 277 := by
    have := Int.ofNat_lt.2 h1
    rwa [Int.natCast_pow] at this
  generalize (2 : Int) ^ 277 = A at *
  omega

/-- The scale of `val32`. -/
def lift (x : Int) : Int :=
  if x = 2 ^ 277 then 2 ^ 2098 else if x = -2 ^ 277 then -2 ^ 2098 else x * 2 ^ 925

theorem val32_eq (b : BitVec 32) : val32 b = (f32Val b).map lift := rfl

theorem lift_aux (A B C : Int) (hB : 0 < B) (hC : A * B < C) (f : Int → Int)
    (hf : ∀ x, f x = if x = A then C else if x = -A then -C else x * B) (x y : Int)
    (hx : -A ≤ x ∧ x ≤ A) (hy : -A ≤ y ∧ y ≤ A) : f x < f y ↔ x < y := by
  have mono : ∀ a b : Int, a * B < b * B ↔ a < b := fun a b =>
    ⟨fun h => Int.lt_of_mul_lt_mul_right h (Int.le_of_lt hB), fun h => Int.mul_lt_mul_of_pos_right h hB⟩
  have le : ∀ a : Int, -A ≤ a → a ≤ A → -(A * B) ≤ a * B ∧ a * B ≤ A * B := by
    intro a h1 h2
    refine ⟨?_, Int.mul_le_mul_of_nonneg_right h2 (Int.le_of_lt hB)⟩
    have := Int.mul_le_mul_of_nonneg_right h1 (Int.le_of_lt hB)
    rwa [Int.neg_mul] at this
  have hA : 0 ≤ A := by omega
  have hAB : 0 ≤ A * B := Int.mul_nonneg hA (Int.le_of_lt hB)
  have := le x hx.1 hx.2
  have := le y hy.1 hy.2
  have := mono x y
  rw [hf x, hf y]
  split <;> split <;> (try split) <;> (try split) <;> omega

theorem lift_gap : (2 : Int) ^ 277 * 2 ^ 925 < 2 ^ 2098 := by
  rw [← Int.pow_add]
  have h : (2 : Nat) ^ (277 + 925) < 2 ^ 2098 := Nat.pow_lt_pow_right (by decide) (by decide)
  have := Int.ofNat_lt.2 h
  rwa [Int.natCast_pow, Int.natCast_pow] at this

theorem lift_lt (x y : Int) (hx : -2 ^ 277 ≤ x ∧ x ≤ 2 ^ 277) (hy : -2 ^ 277 ≤ y ∧ y ≤ 2 ^ 277) :
    lift x < lift y ↔ x < y :=
  lift_aux (2 ^ 277) (2 ^ 925) (2 ^ 2098) (Int.pow_pos (by decide)) lift_gap lift (fun _ => rfl) x y hx hy

theorem lift_le (x y : Int) (hx : -2 ^ 277 ≤ x ∧ x ≤ 2 ^ 277) (hy : -2 ^ 277 ≤ y ∧ y ≤ 2 ^ 277) :
    lift x ≤ lift y ↔ x ≤ y := by
  have := lift_lt y x hy hx
  omega

theorem lift_eq (x y : Int) (hx : -2 ^ 277 ≤ x ∧ x ≤ 2 ^ 277) (hy : -2 ^ 277 ≤ y ∧ y ≤ 2 ^ 277) :
    lift x = lift y ↔ x = y := by
  have := lift_lt y x hy hx
  have := lift_lt x y hx hy
  omega

theorem lift_finite {x : Int} (h : -2 ^ 277 < x ∧ x < 2 ^ 277) : lift x = x * 2 ^ 925 := by
  unfold lift
  rw [if_neg (by omega), if_neg (by omega)]

/-- A finite `float` in the shape `readDouble` and `readFloat` keep. -/
theorem lift_shape {b : BitVec 32} {x : Int} (hf : Finite32 b) (h : f32Val b = some x) :
    ∃ M j : Nat, (lift x).natAbs = M * 2 ^ j ∧ M < 2 ^ 24 ∧ 925 ≤ j := by
  rw [lift_finite (f32_finite_lt hf h)]
  obtain ⟨y, hy, M, j, hM, hl, hj⟩ := f32_finite hf
  rw [h] at hy; injection hy with hy; subst hy
  refine ⟨M, j + 925, ?_, hl, by omega⟩
  rw [Int.natAbs_mul, hM, Int.natAbs_pow, show (2 : Int).natAbs = 2 from rfl, Nat.pow_add, Nat.mul_assoc]

/-- A limit whose decimal is exact is read as its value. -/
theorem read_dec32 {b : BitVec 32} {x num den : Int} (hf : Finite32 b) (h : f32Val b = some x)
    (hd : 0 < den) (he : num * 2 ^ 149 = x * den) : readDouble num den = lift x := by
  obtain ⟨M, j, hV, hM, hj⟩ := lift_shape hf h
  refine roundTo_exact hd ?_ hV (Nat.lt_trans hM (Nat.pow_lt_pow_right (by decide) (by decide)))
    (by omega)
  rw [lift_finite (f32_finite_lt hf h), pow1074, ← Int.mul_assoc, he, Int.mul_assoc, Int.mul_assoc,
    Int.mul_comm den]

/-- A `float` with at most six decimals is read as its value. -/
theorem read_millionths {b : BitVec 32} {x : Int} (hf : Finite32 b) (h : f32Val b = some x)
    (hd : (2 ^ 149 : Int) ∣ x * 1000000) : readFloat (millionths (lift x)) 1000000 = lift x := by
  obtain ⟨M, j, hV, hM, hj⟩ := lift_shape hf h
  obtain ⟨q, hq⟩ := hd
  have e : lift x * 1000000 = q * 2 ^ 1074 := by
    rw [lift_finite (f32_finite_lt hf h), pow1074, Int.mul_assoc, Int.mul_comm (2 ^ 925) 1000000,
      ← Int.mul_assoc, hq, Int.mul_comm (2 ^ 149) q, Int.mul_assoc]
  have hm : millionths (lift x) = q := by
    unfold millionths
    rw [e]
    exact nearest_exact _ _ (Int.pow_pos (by decide))
  rw [hm]
  exact roundTo_exact (by decide) e.symm hV hM hj

theorem f64_finite {b : BitVec 64} (h : Finite64 b) : ∃ x, f64Val b = some x := by
  unfold Finite64 at h
  unfold f64Val
  simp only [h, false_and, if_false]
  exact ⟨_, rfl⟩

/-! ### Comparisons -/

/-- Comparisons of `v` with `l` are comparisons of `x` (NaN if absent) with `y`. -/
structure Compares (v l : CNum) (x : Option Int) (y : Int) : Prop where
  lt : v.lt l = (x.map fun x => decide (x < y)).getD false
  gt : l.lt v = (x.map fun x => decide (y < x)).getD false
  le : v.le l = (x.map fun x => decide (x ≤ y)).getD false
  ge : l.le v = (x.map fun x => decide (y ≤ x)).getD false
  eq : v.eq l = (x.map fun x => decide (x = y)).getD false

theorem compares_int {t u : CTy} {a b : Int} (ha : (t.common u).conv a = a)
    (hb : (t.common u).conv b = b) (ha' : (u.common t).conv a = a) (hb' : (u.common t).conv b = b) :
    Compares (.int t a) (.int u b) (some a) b := by
  constructor <;> simp [CNum.lt, CNum.le, CNum.eq, CNum.cmp, ha, hb, ha', hb']

theorem compares_flt {x : Option Int} {y : Int} : Compares (.flt x) (.flt (some y)) x y := by
  cases x <;> constructor <;> rfl

theorem Compares.congr {v l : CNum} {x : Option Int} {y : Int} {f : Int → Int}
    (h : Compares v l (x.map f) (f y)) (hl : ∀ a, x = some a → (f a < f y ↔ a < y))
    (hg : ∀ a, x = some a → (f y < f a ↔ y < a)) : Compares v l x y := by
  obtain ⟨h1, h2, h3, h4, h5⟩ := h
  cases x with
  | none => exact ⟨h1, h2, h3, h4, h5⟩
  | some a =>
    have e1 := hl a rfl
    have e2 := hg a rfl
    simp only [Option.map_some, Option.getD_some] at *
    refine ⟨?_, ?_, ?_, ?_, ?_⟩
    · rw [h1]; exact decide_eq_decide.2 e1
    · rw [h2]; exact decide_eq_decide.2 e2
    · rw [h3]; exact decide_eq_decide.2 (by omega)
    · rw [h4]; exact decide_eq_decide.2 (by omega)
    · rw [h5]; exact decide_eq_decide.2 (by omega)

theorem bmod32 {a : Int} (h1 : -2147483648 ≤ a) (h2 : a ≤ 2147483647) : a.bmod 4294967296 = a := by
  unfold Int.bmod; simp only; split <;> omega

theorem bmod64 {a : Int} (h1 : -9223372036854775808 ≤ a) (h2 : a ≤ 9223372036854775807) :
    a.bmod 18446744073709551616 = a := by
  unfold Int.bmod; simp only; split <;> omega

theorem compares_lit {k : NumKind} {a b : Int} (h1 : k ≠ .float) (h2 : k ≠ .double) (ha : IntOf k a)
    (hb : IntOf k b) (hl : b.natAbs < 9223372036854775808) :
    Compares (.int (fieldTy k) a) (.int ((litTy b).getD .long) b) (some a) b := by
  unfold IntOf at ha hb
  have hlit : litTy b = if b.natAbs < 2147483648 then some .int else some .long := by
    unfold litTy; rw [if_pos hl]
  rw [hlit]
  cases k <;> simp only [kindRange] at ha hb <;> first
    | exact absurd rfl h1
    | exact absurd rfl h2
    | (split <;> refine compares_int ?_ ?_ ?_ ?_ <;>
        simp only [fieldTy, CTy.common, CTy.rank, Option.getD_some, CTy.conv, Nat.lt_irrefl, Nat.reduceLT,
          if_true, if_false] <;>
        first | exact bmod32 (by omega) (by omega) | exact bmod64 (by omega) (by omega) | omega)

theorem conv_field {k : NumKind} {a : Int} (h1 : k ≠ .float) (h2 : k ≠ .double) (ha : IntOf k a) :
    (fieldTy k).conv a = a := by
  unfold IntOf at ha
  cases k <;> simp only [kindRange] at ha <;> simp only [fieldTy, CTy.conv] <;> first
    | exact absurd rfl h1
    | exact absurd rfl h2
    | exact bmod32 (by omega) (by omega)
    | exact bmod64 (by omega) (by omega)
    | omega

theorem common_self (t : CTy) : t.common t = t := by unfold CTy.common; simp

theorem compares_field {k : NumKind} {a b : Int} (h1 : k ≠ .float) (h2 : k ≠ .double) (ha : IntOf k a)
    (hb : IntOf k b) : Compares (.int (fieldTy k) a) (.int (fieldTy k) b) (some a) b := by
  refine compares_int ?_ ?_ ?_ ?_ <;> rw [common_self] <;> exact conv_field h1 h2 (by assumption)

theorem compares_f32 {b c : BitVec 32} {y : Int} (h : f32Val c = some y) :
    Compares (.flt (val32 b)) (.flt (some (lift y))) (f32Val b) y := by
  refine Compares.congr (f := lift) (by rw [← val32_eq]; exact compares_flt) ?_ ?_
  · intro a ha; exact lift_lt a y (f32_bounds ha) (f32_bounds h)
  · intro a ha; exact lift_lt y a (f32_bounds h) (f32_bounds ha)

/-- The numbers a field of the kind holds and the constants of its rules are of one shape. -/
theorem compares_range {P : CEnv} {E : Go.Env} {S : Schema} (hL : LibsAgree E P S) {k : NumKind}
    {n b : Num} (hn : NumOf k n) (hb : LimitOk P k b) :
    ∃ y, numVal b = some y ∧ Compares (cnum k n) (rangeLit P b) (numVal n) y := by
  obtain ⟨hk, hb⟩ := hb
  cases b with
  | int i =>
    obtain ⟨h1, h2, hi⟩ := hk
    refine ⟨i, rfl, ?_⟩
    cases n with
    | int a => exact compares_lit h1 h2 hn.2.2 hi hb
    | f32 _ => exact absurd hn h1
    | f64 _ => exact absurd hn h2
  | f32 c =>
    obtain ⟨hf, hd, he⟩ := hb
    obtain ⟨y, hy, -⟩ := f32_finite hf
    refine ⟨y, hy, ?_⟩
    have hk : k = .float := hk
    subst hk
    cases n with
    | int a => exact absurd rfl hn.1
    | f32 a =>
      simp only [rangeLit, cnum, numVal]
      rw [read_dec32 hf hy hd (he y hy)]
      exact compares_f32 hy
    | f64 _ => cases hn
  | f64 c =>
    obtain ⟨y, hy⟩ := f64_finite hb
    refine ⟨y, hy, ?_⟩
    have hk : k = .double := hk
    subst hk
    cases n with
    | int a => exact absurd rfl hn.2.1
    | f32 a => cases hn
    | f64 a =>
      simp only [rangeLit, cnum, numVal]
      rw [hL.dec64 c y hb hy]
      exact compares_flt

theorem compares_const {P : CEnv} {E : Go.Env} {S : Schema} (hL : LibsAgree E P S) {k : NumKind}
    {n b : Num} (hn : NumOf k n) (hb : ConstOk k b) :
    ∃ y, numVal b = some y ∧ Compares (cnum k n) (constLit P b) (numVal n) y := by
  obtain ⟨hk, hb⟩ := hb
  cases b with
  | int i =>
    obtain ⟨h1, h2, hi⟩ := hk
    refine ⟨i, rfl, ?_⟩
    cases n with
    | int a => exact compares_lit h1 h2 hn.2.2 hi hb
    | f32 _ => exact absurd hn h1
    | f64 _ => exact absurd hn h2
  | f32 c =>
    obtain ⟨hf, he⟩ := hb
    obtain ⟨y, hy, -⟩ := f32_finite hf
    refine ⟨y, hy, ?_⟩
    have hk : k = .float := hk
    subst hk
    cases n with
    | int a => exact absurd rfl hn.1
    | f32 a =>
      simp only [constLit, cnum, numVal]
      rw [val32_eq c, hy, Option.map_some, Option.map_some, read_millionths hf hy (he y hy)]
      exact compares_f32 hy
    | f64 _ => cases hn
  | f64 c =>
    obtain ⟨y, hy⟩ := f64_finite hb
    refine ⟨y, hy, ?_⟩
    have hk : k = .double := hk
    subst hk
    cases n with
    | int a => exact absurd rfl hn.2.1
    | f32 a => cases hn
    | f64 a =>
      simp only [constLit, cnum, numVal]
      rw [hL.dec64 c y hb hy]
      exact compares_flt

theorem compares_set {P : CEnv} {E : Go.Env} {S : Schema} (hL : LibsAgree E P S) {k : NumKind}
    {n b : Num} (hn : NumOf k n) (hb : ConstOk k b) :
    ∃ y, numVal b = some y ∧ Compares (cnum k n) (setKey P k b) (numVal n) y := by
  obtain ⟨y, hy, hc⟩ := compares_const hL hn hb
  refine ⟨y, hy, ?_⟩
  unfold setKey
  cases b with
  | int i =>
    cases n with
    | int a =>
      cases hy
      obtain ⟨⟨h1, h2, hi⟩, -⟩ := hb
      simp only [constLit]
      rw [conv_field h1 h2 hi]
      exact compares_field h1 h2 hn.2.2 hi
    | f32 _ => exact absurd hn hb.1.1
    | f64 _ => exact absurd hn hb.1.2.1
  | f32 c => exact hc
  | f64 c => exact hc

/-! ### Rules on numbers -/

theorem ltgt_decides {P : CEnv} (c : Ctx) (r : NumRules) (v : CNum) (n : Num)
    (h : ∀ b, r.lt = some b ∨ r.lte = some b ∨ r.gt = some b ∨ r.gte = some b →
      ∃ y, numVal b = some y ∧ Compares v (rangeLit P b) (numVal n) y) :
    Decides (ltgtTpl P c r v) (∀ x, numVal n = some x → RangeOk (numUpper r) (numLower r) x) := by
  have tpl : ∀ a b : Num, ∀ x y : Int, numVal a = some x → numVal b = some y →
      a.tplGt b = decide (y < x) := by
    intro a b x y ha hb
    rw [numVal_eq_key] at ha hb
    simp only [Num.tplGt, Num.lt, Num.eq, ha, hb]
    rw [← Bool.decide_or, ← decide_not, decide_eq_decide]
    omega
  unfold ltgtTpl numUpper numLower
  cases hlt : r.lt with
  | some lt =>
    obtain ⟨y, hy, cy⟩ := h lt (by simp [hlt])
    cases hgt : r.gt with
    | some gt =>
      obtain ⟨z, hz, cz⟩ := h gt (by simp [hgt])
      simp only [tpl lt gt y z hy hz]
      refine Decides.ite (fun hd => Decides.check ?_) (fun hd => Decides.check ?_) <;>
        rw [cz.le, cy.ge] <;> cases numVal n <;>
        simp_all [RangeOk, Bound.AsUpper, Bound.AsLower] <;> (try split) <;> omega
    | none =>
      cases hgte : r.gte with
      | some gt =>
        obtain ⟨z, hz, cz⟩ := h gt (by simp [hgte])
        simp only [tpl lt gt y z hy hz]
        refine Decides.ite (fun hd => Decides.check ?_) (fun hd => Decides.check ?_) <;>
          rw [cz.lt, cy.ge] <;> cases numVal n <;>
          simp_all [RangeOk, Bound.AsUpper, Bound.AsLower] <;> (try split) <;> omega
      | none =>
        refine Decides.check ?_
        rw [cy.ge]
        cases numVal n <;> simp_all [RangeOk, Bound.AsUpper, Bound.AsLower]
  | none =>
    cases hlte : r.lte with
    | some lt =>
      obtain ⟨y, hy, cy⟩ := h lt (by simp [hlte])
      cases hgt : r.gt with
      | some gt =>
        obtain ⟨z, hz, cz⟩ := h gt (by simp [hgt])
        simp only [tpl lt gt y z hy hz]
        refine Decides.ite (fun hd => Decides.check ?_) (fun hd => Decides.check ?_) <;>
          rw [cz.le, cy.gt] <;> cases numVal n <;>
          simp_all [RangeOk, Bound.AsUpper, Bound.AsLower] <;> (try split) <;> omega
      | none =>
        cases hgte : r.gte with
        | some gt =>
          obtain ⟨z, hz, cz⟩ := h gt (by simp [hgte])
          simp only [tpl lt gt y z hy hz]
          refine Decides.ite (fun hd => Decides.check ?_) (fun hd => Decides.check ?_) <;>
            rw [cz.lt, cy.gt] <;> cases numVal n <;>
            simp_all [RangeOk, Bound.AsUpper, Bound.AsLower] <;> (try split) <;> omega
        | none =>
          refine Decides.check ?_
          rw [cy.gt]
          cases numVal n <;> simp_all [RangeOk, Bound.AsUpper, Bound.AsLower]
    | none =>
      cases hgt : r.gt with
      | some gt =>
        obtain ⟨z, hz, cz⟩ := h gt (by simp [hgt])
        refine Decides.check ?_
        rw [cz.le]
        cases numVal n <;> simp_all [RangeOk, Bound.AsUpper, Bound.AsLower]
      | none =>
        cases hgte : r.gte with
        | some gt =>
          obtain ⟨z, hz, cz⟩ := h gt (by simp [hgte])
          refine Decides.check ?_
          rw [cz.lt]
          cases numVal n <;> simp_all [RangeOk, Bound.AsUpper, Bound.AsLower]
        | none => exact Decides.ok.iff (by simp [RangeOk])

theorem in_decides {α β : Type} (c : Ctx) (same : β → α → Prop) (ins notIns : List α) (v : β)
    (found : List α → Bool) (what : List α → Piece) (ok : Prop)
    (hi : ins ≠ [] → (found ins = true ↔ ∃ k ∈ ins, same v k))
    (hn : notIns ≠ [] → (found notIns = true ↔ ∃ k ∈ notIns, same v k))
    (e : ((ins ≠ [] → ∃ k ∈ ins, same v k) ∧ (ins = [] → ∀ k ∈ notIns, ¬ same v k)) ↔ ok) :
    Decides (inTpl c ins notIns found what) ok := by
  refine Decides.iff ?_ e
  unfold inTpl
  cases ins with
  | cons a l =>
    simp only [List.isEmpty_cons, Bool.not_false, if_true]
    refine Decides.check ?_
    rw [Bool.not_eq_false', hi (by simp)]
    simp
  | nil =>
    simp only [List.isEmpty_nil, Bool.not_true, Bool.false_eq_true, if_false]
    cases notIns with
    | cons a l =>
      simp only [List.isEmpty_cons, Bool.not_false, if_true]
      refine Decides.check ?_
      rw [← Bool.not_eq_true, hn (by simp)]
      simp
    | nil => exact Decides.ok.iff (by simp)

theorem set_iff {P : CEnv} {E : Go.Env} {S : Schema} (hL : LibsAgree E P S) {k : NumKind} {n : Num}
    (l : List Num) (hn : NumOf k n) (hnan : numVal n ≠ none) (hl : ∀ b ∈ l, ConstOk k b) :
    setFind CNum.lt (l.map (setKey P k)) (cnum k n) = true ↔ ∃ b ∈ l, numSame n b := by
  unfold setFind
  rw [List.any_map, List.any_eq_true]
  refine exists_congr fun b => and_congr_right fun hb => ?_
  obtain ⟨y, hy, hc⟩ := compares_set hL hn (hl b hb)
  simp only [Function.comp, hc.lt, hc.gt, numSame, hy]
  cases hx : numVal n with
  | none => exact absurd hx hnan
  | some x =>
    simp
    omega

theorem nonzero_iff (k : NumKind) (n : Num) (hn : NumOf k n) :
    (cnum k n).nonzero = false ↔ numVal n = some 0 := by
  cases n with
  | int i => simp [cnum, CNum.nonzero, numVal]
  | f64 b => simp only [cnum, CNum.nonzero, numVal, bne_eq_false_iff_eq]; exact Iff.rfl
  | f32 b =>
    simp only [cnum, CNum.nonzero, numVal, bne_eq_false_iff_eq, val32_eq]
    cases h : f32Val b with
    | none => simp
    | some x =>
      simp only [Option.map_some, Option.some.injEq]
      have h0 : lift 0 = 0 := by
        rw [lift_finite ⟨?_, ?_⟩, Int.zero_mul]
        · have : (0 : Int) < 2 ^ 277 := Int.pow_pos (by decide)
          omega
        · exact Int.pow_pos (by decide)
      have hp : (0 : Int) < 2 ^ 277 := Int.pow_pos (by decide)
      have := lift_eq x 0 (f32_bounds h) ⟨by omega, by omega⟩
      rw [h0] at this
      exact this

theorem num_decides {P : CEnv} {E : Go.Env} {S : Schema} (hL : LibsAgree E P S) (c : Ctx) (k : NumKind)
    (r : NumRules) (n : Num) (hr : PortNum P k r) (hn : NumOf k n)
    (hnan : r.ins ≠ [] ∨ r.notIns ≠ [] → numVal n ≠ none) :
    Decides (numTpl P c k r n) (NumOk r n) := by
  obtain ⟨h1, h2, h3, h4⟩ := hr
  unfold numTpl NumOk
  refine Decides.ignore ?_ (nonzero_iff k n hn)
  refine Decides.seq ?_ fun _ => Decides.seq ?_ fun _ => ?_
  · refine Decides.withOpt fun b hb => Decides.check ?_
    obtain ⟨y, hy, hc⟩ := compares_const hL hn (h1 b hb)
    rw [hc.eq, numSame, hy]
    cases numVal n with
    | none => simp
    | some x => simp; exact eq_comm
  · exact ltgt_decides c r _ n fun b hb => compares_range hL hn (h2 b hb)
  · exact in_decides c numSame r.ins r.notIns n _ _ _
      (fun h => set_iff hL _ hn (hnan (.inl h)) h3) (fun h => set_iff hL _ hn (hnan (.inr h)) h4) Iff.rfl

end PGV.Cpp
