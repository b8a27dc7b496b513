import Verif.Lemmas.PyCode
import Verif.Spec.PyPortable

/-!
Generated Python code for numbers, and doubles that hold whole seconds.
-/

set_option linter.unusedSimpArgs false
set_option autoImplicit false

namespace PGV.Py
open PGV PGV.Spec PGV.Spec.Python PGV.Checker Code

variable {nm : String} {why : Text}

theorem finite_iff (n : Num) : finite n = true ↔ Finite n := by
  cases n <;> simp [finite, Finite]

theorem finite_key {n : Num} (h : Finite n) : ∃ x, n.key = some x := by
  cases n with
  | int i => exact ⟨i, rfl⟩
  | f32 b =>
    simp only [Finite] at h
    simp only [Num.key, f32Key]
    rw [if_neg (by simp [h])]
    exact ⟨_, rfl⟩
  | f64 b =>
    simp only [Finite] at h
    simp only [Num.key, f64Key]
    rw [if_neg (by simp [h])]
    exact ⟨_, rfl⟩

theorem run_numTest {lits : List Num} {t : Num → Bool} (h : ∀ n ∈ lits, Finite n) (x : Num) :
    (numTest nm lits why t).run x = .ok () ↔ t x = false := by
  have : lits.all finite = true := by
    rw [List.all_eq_true]; exact fun n hn => (finite_iff n).2 (h n hn)
  simp only [numTest, run_stmt, this, if_true]
  cases t x <;> simp

theorem num_const {r : NumRules} {c : Num} (h : r.const = some c) : c ∈ numbersOf r := by
  simp [numbersOf, h]
theorem num_lt {r : NumRules} {c : Num} (h : r.lt = some c) : c ∈ numbersOf r := by
  simp [numbersOf, h]
theorem num_lte {r : NumRules} {c : Num} (h : r.lte = some c) : c ∈ numbersOf r := by
  simp [numbersOf, h]
theorem num_gt {r : NumRules} {c : Num} (h : r.gt = some c) : c ∈ numbersOf r := by
  simp [numbersOf, h]
theorem num_gte {r : NumRules} {c : Num} (h : r.gte = some c) : c ∈ numbersOf r := by
  simp [numbersOf, h]

theorem numRange_ok (r : NumRules) (v : Num) (hf : ∀ b ∈ numbersOf r, Finite b) :
    (numRange nm r).run v = .ok () ↔ ∀ x, numVal v = some x → RangeOk (numUpper r) (numLower r) x := by
  have V := numVal_eq_key v
  unfold numRange numUpper numLower
  cases h1 : r.lt with
  | some lt =>
    have L := numVal_eq_key lt
    have F1 := hf lt (num_lt h1)
    obtain ⟨l, hl⟩ := finite_key F1
    cases h3 : r.gt with
    | some gt =>
      have G := numVal_eq_key gt
      have F2 := hf gt (num_gt h3)
      obtain ⟨g, hg⟩ := finite_key F2
      simp only [L, G, V]
      split <;> rw [run_numTest (by simp [F1, F2])] <;>
      cases hv : v.key <;>
        simp_all [Num.le, Num.lt, Num.ge, Num.gt, RangeOk, Bound.AsUpper, Bound.AsLower] <;>
        (try split) <;> omega
    | none =>
      cases h4 : r.gte with
      | some gt =>
        have G := numVal_eq_key gt
        have F2 := hf gt (num_gte h4)
        obtain ⟨g, hg⟩ := finite_key F2
        simp only [L, G, V]
        split <;> rw [run_numTest (by simp [F1, F2])] <;>
        cases hv : v.key <;>
          simp_all [Num.le, Num.lt, Num.ge, Num.gt, RangeOk, Bound.AsUpper, Bound.AsLower] <;>
          (try split) <;> omega
      | none =>
        simp only [L, V]
        rw [run_numTest (by simp [F1])]
        cases hv : v.key <;>
          simp_all [Num.le, Num.lt, Num.ge, Num.gt, RangeOk, Bound.AsUpper, Bound.AsLower]
  | none =>
    cases h2 : r.lte with
    | some lt =>
      have L := numVal_eq_key lt
      have F1 := hf lt (num_lte h2)
      obtain ⟨l, hl⟩ := finite_key F1
      cases h3 : r.gt with
      | some gt =>
        have G := numVal_eq_key gt
        have F2 := hf gt (num_gt h3)
        obtain ⟨g, hg⟩ := finite_key F2
        simp only [L, G, V]
        split <;> rw [run_numTest (by simp [F1, F2])] <;>
        cases hv : v.key <;>
          simp_all [Num.le, Num.lt, Num.ge, Num.gt, RangeOk, Bound.AsUpper, Bound.AsLower] <;>
          (try split) <;> omega
      | none =>
        cases h4 : r.gte with
        | some gt =>
          have G := numVal_eq_key gt
          have F2 := hf gt (num_gte h4)
          obtain ⟨g, hg⟩ := finite_key F2
          simp only [L, G, V]
          split <;> rw [run_numTest (by simp [F1, F2])] <;>
          cases hv : v.key <;>
            simp_all [Num.le, Num.lt, Num.ge, Num.gt, RangeOk, Bound.AsUpper, Bound.AsLower] <;>
            (try split) <;> omega
        | none =>
          simp only [L, V]
          rw [run_numTest (by simp [F1])]
          cases hv : v.key <;>
            simp_all [Num.le, Num.lt, Num.ge, Num.gt, RangeOk, Bound.AsUpper, Bound.AsLower]
    | none =>
      cases h3 : r.gt with
      | some gt =>
        have G := numVal_eq_key gt
        have F2 := hf gt (num_gt h3)
        obtain ⟨g, hg⟩ := finite_key F2
        simp only [G, V]
        rw [run_numTest (by simp [F2])]
        cases hv : v.key <;>
          simp_all [Num.le, Num.lt, Num.ge, Num.gt, RangeOk, Bound.AsUpper, Bound.AsLower]
      | none =>
        cases h4 : r.gte with
        | some gt =>
          have G := numVal_eq_key gt
          have F2 := hf gt (num_gte h4)
          obtain ⟨g, hg⟩ := finite_key F2
          simp only [G, V]
          rw [run_numTest (by simp [F2])]
          cases hv : v.key <;>
            simp_all [Num.le, Num.lt, Num.ge, Num.gt, RangeOk, Bound.AsUpper, Bound.AsLower]
        | none => simp [RangeOk]

theorem listOk_of {α : Type} {same : α → α → Prop} {ins notIns : List α} {v : α} {I N : Prop}
    (hc : checkIns ins.length notIns.length = true) (hI : I ↔ ∃ k ∈ ins, same v k)
    (hN : N ↔ ∀ k ∈ notIns, ¬ same v k) :
    (((!ins.isEmpty) = true → I) ∧ ((!notIns.isEmpty) = true → N)) ↔ ListOk same ins notIns v := by
  rw [hI, hN]
  have hc' : ins = [] ∨ notIns = [] := by simpa [checkIns] using hc
  unfold ListOk
  cases ins with
  | nil => cases notIns <;> simp
  | cons a l =>
    have : notIns = [] := by rcases hc' with h | h <;> simp_all
    simp [this]

theorem checkNums_ins {α : Type} {eq : α → α → Bool} {a b : Nat} {c d e f g : Option α}
    (h : checkNums eq a b c d e f g = true) : checkIns a b = true := by
  unfold checkNums at h
  simp only [Bool.and_eq_true] at h
  simp [h]

theorem numIn_ok (r : NumRules) (v : Num) (hc : checkIns r.ins.length r.notIns.length = true)
    (hf : ∀ b ∈ numbersOf r, Finite b) :
    (numIn nm r).run v = .ok () ↔ ListOk numSame r.ins r.notIns v := by
  have h1 : ∀ n ∈ r.ins, Finite n := fun n hn => hf n (by simp [numbersOf, hn])
  have h2 : ∀ n ∈ r.notIns, Finite n := fun n hn => hf n (by simp [numbersOf, hn])
  simp only [numIn, run_seq, run_gen, run_numTest h1, run_numTest h2]
  refine listOk_of hc ?_ ?_
  · simp [Num.eq_iff]
  · simp [← Num.eq_iff]

theorem numCode_ok {r : NumRules} (hs : (numCode nm r).isSome = true) (hp : PortNum r) (v : Num) :
    (numCode nm r).run v = .ok () ↔ NumOk r v := by
  obtain ⟨hc, hi, hf⟩ := hp
  have hbody : ((genOpt r.const (fun c => numTest nm [c] [.s "not equal to ", .item (.num c)] fun x => !x.eq c)) ;; numIn nm r ;;
      numRange nm r).run v = .ok () ↔ ((∀ k, r.const = some k → numSame v k) ∧
      (∀ x, numVal v = some x → RangeOk (numUpper r) (numLower r) x) ∧
      ListOk numSame r.ins r.notIns v) := by
    simp only [run_seq, run_genOpt, numIn_ok r v (checkNums_ins hc) hf, numRange_ok r v hf]
    have : (∀ a, r.const = some a → (numTest nm [a] [.s "not equal to ", .item (.num a)] fun x => !x.eq a).run v = .ok ()) ↔
        ∀ k, r.const = some k → numSame v k := by
      refine forall_congr' fun k => imp_congr_right fun hk => ?_
      rw [run_numTest (by simpa using hf k (num_const hk)), ← Num.eq_iff]
      simp
    rw [this]
    exact and_congr_right fun _ => and_comm
  unfold NumOk
  rw [← hbody]
  unfold numCode at *
  simp only at hs ⊢
  cases hie : r.ignoreEmpty with
  | none => simp [hie]
  | some b =>
    cases b with
    | false => exact absurd hie hi
    | true =>
      simp only [hie, Option.isSome_some, if_true] at hs
      simp only [hie, Option.isSome_some, if_true, true_and]
      rw [run_block hs, ← Num.isZero_iff]
      cases v.isZero <;> simp

/-! ### Whole seconds -/

theorem nearest_mul (q d : Int) (hd : 0 < d) : nearest (q * d) d = q := by
  unfold nearest
  simp only [Int.mul_emod_left, Int.mul_zero]
  rw [if_pos hd]
  exact Int.mul_ediv_cancel _ (by omega)

theorem two_pow_pos (n : Nat) : (0 : Int) < 2 ^ n := Int.pow_pos (by decide)

/-- Rounding keeps an integer below 2^53 times a power of two. -/
theorem round_exact (s : Int) (K : Nat) (h : s.natAbs < 2 ^ 53) :
    nearest (s * 2 ^ K) (2 ^ (bitLen (s * 2 ^ K).natAbs - 53)) *
      2 ^ (bitLen (s * 2 ^ K).natAbs - 53) = s * 2 ^ K := by
  generalize hb : bitLen (s * 2 ^ K).natAbs = b
  have hle : b - 53 ≤ K := by
    unfold bitLen at hb
    split at hb
    · omega
    · rename_i hne
      have h1 : (s * 2 ^ K).natAbs < 2 ^ (53 + K) := by
        rw [Int.natAbs_mul, Int.natAbs_pow, Nat.pow_add]
        exact Nat.mul_lt_mul_of_pos_right h (Nat.pow_pos (by decide))
      rw [← Nat.log2_lt hne] at h1
      omega
  obtain ⟨m, rfl⟩ := Nat.exists_eq_add_of_le hle
  rw [show (s * 2 ^ (b - 53 + m) : Int) = s * 2 ^ m * 2 ^ (b - 53) by
    rw [Int.pow_add, Int.mul_assoc, Int.mul_comm (2 ^ (b - 53))]]
  rw [nearest_mul _ _ (two_pow_pos _)]

theorem scale_pos : 0 < scale := two_pow_pos 1074

theorem ofInt_exact (s : Int) (h : s.natAbs < 2 ^ 53) : ofInt s = s * scale := by
  unfold ofInt roundDouble scale
  exact round_exact s 1074 h

theorem roundDouble_exact (s : Int) (h : s.natAbs < 2 ^ 53) : roundDouble (s * scale) = s * scale := by
  unfold roundDouble scale
  exact round_exact s 1074 h

theorem nearest_zero (d : Int) (hd : 0 < d) : nearest 0 d = 0 := by
  have := nearest_mul 0 d hd
  rwa [Int.zero_mul] at this

theorem round_zero : roundDouble 0 = 0 := by
  unfold roundDouble
  simp only [nearest_zero _ (two_pow_pos _), Int.zero_mul]

theorem ofRatio_zero (d : Int) (hd : 0 < d) : ofRatio 0 d = 0 := by
  unfold ofRatio
  simp only [Int.zero_mul]
  rw [nearest_zero _ (Int.mul_pos hd (two_pow_pos _))]
  simp

theorem round9_zero : round9 0 = 0 := by
  unfold round9
  rw [Int.zero_mul, nearest_zero _ scale_pos]
  exact ofRatio_zero _ (by decide)

theorem litSecs_whole (s : Int) (h : s.natAbs < 2 ^ 53) : litSecs s 0 = s * scale := by
  unfold litSecs
  rw [Int.mul_zero, round_zero, Int.add_zero, ofInt_exact s h, roundDouble_exact s h]

theorem valueSecs_whole (s : Int) (h : s.natAbs < 2 ^ 53) : valueSecs s 0 = s * scale := by
  unfold valueSecs
  rw [Int.mul_zero, round_zero, round9_zero, Int.add_zero, ofInt_exact s h, roundDouble_exact s h]

theorem scale_lt (a b : Int) : a * scale < b * scale ↔ a < b := Int.mul_lt_mul_right scale_pos
theorem scale_le (a b : Int) : a * scale ≤ b * scale ↔ a ≤ b := Int.mul_le_mul_right scale_pos
theorem scale_eq (a b : Int) : a * scale = b * scale ↔ a = b :=
  Int.mul_eq_mul_right_iff (by have := scale_pos; omega)

end PGV.Py
