import Verif.Java.Templates
import Verif.Spec.Rules
import Verif.Lemmas.Checked

/-!
Lemmas about the Java model: when its statements complete normally.
-/

set_option linter.unusedSimpArgs false

namespace PGV.Java
open PGV PGV.Spec

@[simp] theorem seq_ok (a b : Run) : a ⊳ b = .ok () ↔ a = .ok () ∧ b = .ok () := by
  unfold seq
  cases a with
  | ok u => cases u; simp
  | error e => simp

@[simp] theorem when_ok (c : Bool) (x : Run) : when c x = .ok () ↔ (c = true → x = .ok ()) := by
  unfold when; cases c <;> simp

@[simp] theorem check_ok (c : Bool) (f : String) (w : Reason) : check c f w = .ok () ↔ c = true := by
  unfold check; cases c <;> simp

@[simp] theorem withOpt_ok {α : Type} (o : Option α) (k : α → Run) :
    withOpt o k = .ok () ↔ ∀ a, o = some a → k a = .ok () := by
  unfold withOpt; cases o <;> simp

@[simp] theorem forEach_ok {α : Type} (xs : List α) (f : α → Run) :
    forEach xs f = .ok () ↔ ∀ x ∈ xs, f x = .ok () := by
  induction xs with
  | nil => simp [forEach]
  | cons x xs ih => simp [forEach, ih]

/-- A comparator that orders two values as the integers `val` gives. -/
def Orders {α : Type} (c : Cmp α) (val : α → Int) (a b : α) : Prop := c a b = .ok (icmp (val a) (val b))

theorem icmp_lt (a b : Int) : icmp a b < 0 ↔ a < b := by unfold icmp; split <;> (try split) <;> omega
theorem icmp_le (a b : Int) : icmp a b ≤ 0 ↔ a ≤ b := by unfold icmp; split <;> (try split) <;> omega
theorem icmp_gt (a b : Int) : 0 < icmp a b ↔ b < a := by unfold icmp; split <;> (try split) <;> omega
theorem icmp_ge (a b : Int) : 0 ≤ icmp a b ↔ b ≤ a := by unfold icmp; split <;> (try split) <;> omega

/-- The upper bound given by two optional limits. -/
def upper {α : Type} (val : α → Int) (lt lte : Option α) : Option Bound :=
  match lt with
  | some b => some ⟨true, val b⟩
  | none => lte.map fun b => ⟨false, val b⟩

/-- `range` with an upper and a lower limit. -/
theorem range_ok {α : Type} [Shown α] (f : String) (c : Cmp α) (val : α → Int) (lt lte gt gte : Option α)
    (v u l : α) (si ti : Bool) (hu : lt.or lte = some u) (hl : gt.or gte = some l)
    (hsi : lte.isSome = si) (hti : gte.isSome = ti) (hne : val u ≠ val l)
    (e1 : Orders c val v u) (e2 : Orders c val v l) (e3 : Orders c val l u) :
    Java.range f v lt lte gt gte c = .ok () ↔
      RangeOk (some ⟨!si, val u⟩) (some ⟨!ti, val l⟩) (val v) := by
  unfold Orders at e1 e2 e3
  simp only [Java.range, hu, hl, hsi, hti, between, withCmp, e1, e2, e3, RangeOk, Bound.AsUpper,
    Bound.AsLower, icmp_le, icmp_lt, icmp_ge, icmp_gt, ge_iff_le, gt_iff_lt]
  by_cases h5 : val l ≤ val u
  · have h6 : val l < val u := by omega
    simp only [h5, h6, if_true]
    cases si <;> cases ti <;> simp <;> split <;> simp <;> omega
  · have h6 : ¬ val l < val u := by omega
    simp only [h5, h6, if_false]
    cases si <;> cases ti <;> simp <;> split <;> simp <;> omega

/-- The range checks of generated Java code accept exactly the values in the range, for limits the
generator accepts. -/
theorem ltgt_ok {α : Type} [Shown α] (f : String) (c : Cmp α) (val : α → Int) (lt lte gt gte : Option α) (v : α)
    (h1 : lt = none ∨ lte = none) (h2 : gt = none ∨ gte = none)
    (hne : ∀ u l, (lt = some u ∨ lte = some u) → (gt = some l ∨ gte = some l) → val u ≠ val l)
    (hv : ∀ b, (lt = some b ∨ lte = some b ∨ gt = some b ∨ gte = some b) → Orders c val v b)
    (hb : ∀ u l, (lt = some u ∨ lte = some u) → (gt = some l ∨ gte = some l) → Orders c val l u) :
    ltgt f lt lte gt gte c v = .ok () ↔ RangeOk (upper val lt lte) (upper val gt gte) (val v) := by
  cases lt with
  | some u =>
    have : lte = none := by simpa using h1
    subst this
    have e1 := hv u (by simp)
    cases gt with
    | some l =>
      have : gte = none := by simpa using h2
      subst this
      exact range_ok f c val (some u) none (some l) none v u l false false rfl rfl rfl rfl (hne u l (by simp) (by simp)) e1
        (hv l (by simp)) (hb u l (by simp) (by simp))
    | none =>
      cases gte with
      | some l =>
        exact range_ok f c val (some u) none none (some l) v u l false true rfl rfl rfl rfl (hne u l (by simp) (by simp)) e1
          (hv l (by simp)) (hb u l (by simp) (by simp))
      | none =>
        unfold Orders at e1
        simp [ltgt, lessThan, withCmp, e1, upper, RangeOk, Bound.AsUpper, icmp_lt]
  | none =>
    cases lte with
    | some u =>
      have e1 := hv u (by simp)
      cases gt with
      | some l =>
        have : gte = none := by simpa using h2
        subst this
        exact range_ok f c val none (some u) (some l) none v u l true false rfl rfl rfl rfl (hne u l (by simp) (by simp)) e1
          (hv l (by simp)) (hb u l (by simp) (by simp))
      | none =>
        cases gte with
        | some l =>
          exact range_ok f c val none (some u) none (some l) v u l true true rfl rfl rfl rfl (hne u l (by simp) (by simp)) e1
            (hv l (by simp)) (hb u l (by simp) (by simp))
        | none =>
          unfold Orders at e1
          simp [ltgt, lessThanOrEqual, withCmp, e1, upper, RangeOk, Bound.AsUpper, icmp_le]
    | none =>
      cases gt with
      | some l =>
        have : gte = none := by simpa using h2
        subst this
        have e2 := hv l (by simp)
        unfold Orders at e2
        simp [ltgt, greaterThan, withCmp, e2, upper, RangeOk, Bound.AsLower, icmp_gt]
      | none =>
        cases gte with
        | some l =>
          have e2 := hv l (by simp)
          unfold Orders at e2
          simp [ltgt, greaterThanOrEqual, withCmp, e2, upper, RangeOk, Bound.AsLower, icmp_ge]
        | none => simp [ltgt, upper, RangeOk]

end PGV.Java
