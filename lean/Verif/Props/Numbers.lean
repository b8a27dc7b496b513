import Verif.Lemmas.Render
import Verif.Lemmas.Checked
import Verif.Props.Fixtures

/-!
C10-C12, C20: numeric ranges, constants and lists, enums.
-/

set_option linter.unusedSimpArgs false

namespace PGV.Props
open PGV PGV.Go PGV.Spec PGV.Checker

/-! ### Ranges -/

/-- The rule set has range rules at most. -/
def RangeOnly (r : NumRules) : Prop :=
  r.const = none ∧ r.ins = [] ∧ r.notIns = [] ∧ r.ignoreEmpty ≠ some true

/-- All the bounds given are integers. -/
def IntBounds (r : NumRules) : Prop :=
  ∀ b, r.lt = some b ∨ r.lte = some b ∨ r.gt = some b ∨ r.gte = some b → ∃ i, b = .int i

/-- `x` respects the upper bounds given. -/
def BelowUpper (r : NumRules) (x : Int) : Prop :=
  (∀ b, r.lt = some (.int b) → x < b) ∧ (∀ b, r.lte = some (.int b) → x ≤ b)

/-- `x` respects the lower bounds given. -/
def AboveLower (r : NumRules) (x : Int) : Prop :=
  (∀ b, r.gt = some (.int b) → b < x) ∧ (∀ b, r.gte = some (.int b) → b ≤ x)

/-- The upper bound is below the lower bound. -/
def Inverted (r : NumRules) : Prop :=
  ∃ u l, (r.lt = some (.int u) ∨ r.lte = some (.int u)) ∧
    (r.gt = some (.int l) ∨ r.gte = some (.int l)) ∧ u < l

/-- The same on exact values of arbitrary numbers. -/
def BelowUpperV (r : NumRules) (x : Int) : Prop :=
  (∀ b, r.lt = some b → ∀ y, numVal b = some y → x < y) ∧
  (∀ b, r.lte = some b → ∀ y, numVal b = some y → x ≤ y)
/-- The same on exact values of arbitrary numbers. -/
def AboveLowerV (r : NumRules) (x : Int) : Prop :=
  (∀ b, r.gt = some b → ∀ y, numVal b = some y → y < x) ∧
  (∀ b, r.gte = some b → ∀ y, numVal b = some y → y ≤ x)
/-- The same on exact values of arbitrary numbers. -/
def InvertedV (r : NumRules) : Prop :=
  ∃ ub lb u l, (r.lt = some ub ∨ r.lte = some ub) ∧ (r.gt = some lb ∨ r.gte = some lb) ∧
    numVal ub = some u ∧ numVal lb = some l ∧ u < l
/-- No bound is NaN. -/
def NoNaNBounds (r : NumRules) : Prop :=
  ∀ b, r.lt = some b ∨ r.lte = some b ∨ r.gt = some b ∨ r.gte = some b → numVal b ≠ none

theorem accepts_scalar {E : Env} {S : Schema} {typ : String} {f : FieldDesc} (h : OnlyField S typ f)
    {e : ElemT} (hT : f.typ = .one e) (he : e.isEmbed = false) (s : Scalar)
    (ht : match f.rules.type with
      | .unset | .any _ | .duration _ | .timestamp _ => False
      | _ => True) :
    Accepts E S typ f (.sc s) ↔ ScalarOk E e f.rules.type s := by
  rw [accepts_iff h]
  simp only [FieldOk, hT, ValueOk]
  cases hr : f.rules.type <;> rw [hr] at ht <;> simp_all

theorem range_iff {E : Env} {S : Schema} {typ : String} {f : FieldDesc} (h : OnlyField S typ f)
    {k : NumKind} {m : Option MessageRules} {r : NumRules} (hT : f.typ = .one (.scalar k))
    (hr : f.rules = .mk m (.num k r)) (hc : Checked f) (ho : RangeOnly r) (hb : NoNaNBounds r)
    {n : Num} {x : Int} (hx : numVal n = some x) :
    (¬ InvertedV r → (Accepts E S typ f (.sc (.num n)) ↔ BelowUpperV r x ∧ AboveLowerV r x)) ∧
    (InvertedV r → (Accepts E S typ f (.sc (.num n)) ↔ BelowUpperV r x ∨ AboveLowerV r x)) := by
  have hty : f.rules.type = .num k r := by rw [hr]; rfl
  have hcheck := checked_num hc hty
  obtain ⟨h1, h2, h3, h4⟩ := ho
  rw [accepts_scalar h hT rfl _ (by rw [hty]; trivial), hty]
  simp only [ScalarOk, NumOk, h1, h2, h3, h4, false_and, false_or, reduceCtorEq, false_implies,
    implies_true, true_and, hx, Option.some.injEq, forall_eq', ListOk, ne_eq, not_true_eq_false,
    List.not_mem_nil, and_true]
  rw [checkNum, checkNums_iff] at hcheck
  obtain ⟨-, -, -, hlt, hgt, hne⟩ := hcheck
  obtain ⟨const, lt, lte, gt, gte, ins, notIns, ie⟩ := r
  simp only at hlt hgt hne h1 h2 h3 h4 ⊢
  have hne' : ∀ ub lb u l, (lt = some ub ∨ lte = some ub) → (gt = some lb ∨ gte = some lb) →
      numVal ub = some u → numVal lb = some l → u ≠ l := by
    intro ub lb u l hu hl h5 h6 he
    have := hne ub lb hu hl
    have h7 : ub.eq lb = true := (Num.eq_iff ub lb).2 ⟨u, h5, by rw [h6, he]⟩
    rw [h7] at this; cases this
  have hval : ∀ b, (lt = some b ∨ lte = some b ∨ gt = some b ∨ gte = some b) →
      ∃ y, numVal b = some y := by
    intro b hbb
    have := hb b hbb
    cases hv : numVal b with
    | none => exact absurd hv this
    | some y => exact ⟨y, rfl⟩
  unfold RangeOk numUpper numLower InvertedV BelowUpperV AboveLowerV
  simp only
  cases lt with
  | some ub =>
    have hl2 : lte = none := by rcases hlt with h | h <;> simp_all
    subst hl2
    obtain ⟨u, hu⟩ := hval ub (by simp)
    cases gt with
    | some lb =>
      have : gte = none := by rcases hgt with h | h <;> simp_all
      subst this
      obtain ⟨l, hl⟩ := hval lb (by simp)
      have := hne' ub lb u l (by simp) (by simp) hu hl
      simp [hu, hl, Bound.AsUpper, Bound.AsLower]
      constructor
      · intro hge; omega
      · intro hlt; omega
    | none =>
      cases gte with
      | some lb =>
        obtain ⟨l, hl⟩ := hval lb (by simp)
        have := hne' ub lb u l (by simp) (by simp) hu hl
        simp [hu, hl, Bound.AsUpper, Bound.AsLower]
        constructor
        · intro hge; omega
        · intro hlt; omega
      | none => simp [hu, Bound.AsUpper, Bound.AsLower]
  | none =>
    cases lte with
    | some ub =>
      obtain ⟨u, hu⟩ := hval ub (by simp)
      cases gt with
      | some lb =>
        have : gte = none := by rcases hgt with h | h <;> simp_all
        subst this
        obtain ⟨l, hl⟩ := hval lb (by simp)
        have := hne' ub lb u l (by simp) (by simp) hu hl
        simp [hu, hl, Bound.AsUpper, Bound.AsLower]
        constructor
        · intro hge; omega
        · intro hlt; omega
      | none =>
        cases gte with
        | some lb =>
          obtain ⟨l, hl⟩ := hval lb (by simp)
          have := hne' ub lb u l (by simp) (by simp) hu hl
          simp [hu, hl, Bound.AsUpper, Bound.AsLower]
          constructor
          · intro hge; omega
          · intro hlt; omega
        | none => simp [hu, Bound.AsUpper, Bound.AsLower]
    | none =>
      cases gt with
      | some lb =>
        have : gte = none := by rcases hgt with h | h <;> simp_all
        subst this
        obtain ⟨l, hl⟩ := hval lb (by simp)
        simp [hl, Bound.AsUpper, Bound.AsLower]
      | none =>
        cases gte with
        | some lb =>
          obtain ⟨l, hl⟩ := hval lb (by simp)
          simp [hl, Bound.AsUpper, Bound.AsLower]
        | none => simp

/-- **C10** Integer ranges. For every combination of `lt`/`lte`/`gt`/`gte` that the generator lets
through: unless the bounds are inverted, a value is accepted exactly when it respects all of them;
when they are inverted, exactly when it respects the upper or the lower one. -/
theorem C10_int_range (E : Env) (S : Schema) (typ : String) (f : FieldDesc) (h : OnlyField S typ f)
    (k : NumKind) (m : Option MessageRules) (r : NumRules) (hT : f.typ = .one (.scalar k))
    (hr : f.rules = .mk m (.num k r)) (hc : Checked f) (ho : RangeOnly r) (hb : IntBounds r)
    (x : Int) :
    (¬ Inverted r → (Accepts E S typ f (.sc (.num (.int x))) ↔ BelowUpper r x ∧ AboveLower r x)) ∧
    (Inverted r → (Accepts E S typ f (.sc (.num (.int x))) ↔ BelowUpper r x ∨ AboveLower r x)) := by
  have hnn : NoNaNBounds r := by
    intro b hbb
    obtain ⟨i, rfl⟩ := hb b hbb
    simp [numVal]
  have key := range_iff h hT hr hc ho hnn (E := E) (n := .int x) (x := x) rfl
  have hinv : InvertedV r ↔ Inverted r := by
    constructor
    · rintro ⟨ub, lb, u, l, hu, hl, h1, h2, h3⟩
      obtain ⟨i, rfl⟩ := hb ub (by rcases hu with h | h <;> simp [h])
      obtain ⟨j, rfl⟩ := hb lb (by rcases hl with h | h <;> simp [h])
      simp only [numVal, Option.some.injEq] at h1 h2
      subst h1 h2
      exact ⟨i, j, hu, hl, h3⟩
    · rintro ⟨u, l, hu, hl, h3⟩
      exact ⟨.int u, .int l, u, l, hu, hl, rfl, rfl, h3⟩
  have hbelow : BelowUpperV r x ↔ BelowUpper r x := by
    constructor
    · rintro ⟨h1, h2⟩
      exact ⟨fun b hb => h1 (.int b) hb b rfl, fun b hb => h2 (.int b) hb b rfl⟩
    · rintro ⟨h1, h2⟩
      constructor <;> intro b hby y hv
      · obtain ⟨i, rfl⟩ := hb b (by simp [hby])
        cases hv; exact h1 _ hby
      · obtain ⟨i, rfl⟩ := hb b (by simp [hby])
        cases hv; exact h2 _ hby
  have habove : AboveLowerV r x ↔ AboveLower r x := by
    constructor
    · rintro ⟨h1, h2⟩
      exact ⟨fun b hb => h1 (.int b) hb b rfl, fun b hb => h2 (.int b) hb b rfl⟩
    · rintro ⟨h1, h2⟩
      constructor <;> intro b hby y hv
      · obtain ⟨i, rfl⟩ := hb b (by simp [hby])
        cases hv; exact h1 _ hby
      · obtain ⟨i, rfl⟩ := hb b (by simp [hby])
        cases hv; exact h2 _ hby
  rw [hinv, hbelow, habove] at key
  exact key

/-- C10 applies to an inverted range: values outside `[10, 20]` excluded. -/
example : let r : NumRules := { lt := some (.int 10), gte := some (.int 20) }
    let f := Fixtures.fieldOf (.scalar .int64) (.num .int64 r)
    OnlyField (Fixtures.only f) "M" f ∧ Checked f ∧ RangeOnly r ∧ IntBounds r ∧ Inverted r := by
  refine ⟨Fixtures.only_field _, by unfold Checked; decide, ⟨rfl, rfl, rfl, by simp⟩, ?_,
    10, 20, .inl rfl, .inr rfl, by decide⟩
  rintro b (h | h | h | h) <;> simp_all <;> exact ⟨_, h.symm⟩

/-- **C11, negation** NaN is accepted by every float or double field whose rules are range rules,
although it satisfies no bound. -/
theorem C11_nan_accepted (E : Env) (S : Schema) (typ : String) (f : FieldDesc)
    (h : OnlyField S typ f) (k : NumKind) (m : Option MessageRules) (r : NumRules)
    (hT : f.typ = .one (.scalar k)) (hr : f.rules = .mk m (.num k r)) (ho : RangeOnly r)
    (n : Num) (hn : numVal n = none) : Accepts E S typ f (.sc (.num n)) := by
  have hty : f.rules.type = .num k r := by rw [hr]; rfl
  obtain ⟨h1, h2, h3, h4⟩ := ho
  rw [accepts_scalar h hT rfl _ (by rw [hty]; trivial), hty]
  simp [ScalarOk, NumOk, h1, h2, h3, h4, hn, ListOk]

/-- NaN exists: the canonical float32 NaN, accepted by a field that must lie in `(0, 1)`. -/
example : let r : NumRules := { gt := some (.f32 0x00000000#32), lt := some (.f32 0x3F800000#32) }
    let f := Fixtures.fieldOf (.scalar .float) (.num .float r)
    Checked f ∧ RangeOnly r ∧ numVal (.f32 0x7FC00000#32) = none ∧
    Accepts Fixtures.env (Fixtures.only f) "M" f (.sc (.num (.f32 0x7FC00000#32))) := by
  refine ⟨by unfold Checked; decide, ⟨rfl, rfl, rfl, by simp⟩, by decide, ?_⟩
  exact C11_nan_accepted _ _ _ _ (Fixtures.only_field _) _ _ _ rfl rfl ⟨rfl, rfl, rfl, by simp⟩ _
    (by decide)

/-- **C11, partial** What is missing from the full property is NaN, which is accepted
(`C11_nan_accepted`). Every other float or double value is accepted by range rules (without NaN
bounds) exactly when its exact value respects them, as for integers. -/
theorem C11_float_range_partial (E : Env) (S : Schema) (typ : String) (f : FieldDesc)
    (h : OnlyField S typ f) (k : NumKind) (m : Option MessageRules) (r : NumRules)
    (hT : f.typ = .one (.scalar k)) (hr : f.rules = .mk m (.num k r)) (hc : Checked f)
    (ho : RangeOnly r) (hb : NoNaNBounds r) (n : Num) (x : Int) (hx : numVal n = some x) :
    (¬ InvertedV r → (Accepts E S typ f (.sc (.num n)) ↔ BelowUpperV r x ∧ AboveLowerV r x)) ∧
    (InvertedV r → (Accepts E S typ f (.sc (.num n)) ↔ BelowUpperV r x ∨ AboveLowerV r x)) :=
  range_iff h hT hr hc ho hb hx

/-- The partial theorem applies to `0.5` in `(0, 1)`, and to `-0` and infinity. -/
example : let r : NumRules := { gt := some (.f32 0x00000000#32), lt := some (.f32 0x3F800000#32) }
    NoNaNBounds r ∧ ¬ InvertedV r ∧ (∃ x, numVal (.f32 0x3F000000#32) = some x ∧ BelowUpperV r x ∧
      AboveLowerV r x) ∧ (∃ x, numVal (.f32 0x80000000#32) = some x ∧ ¬ AboveLowerV r x) ∧
    (∃ x, numVal (.f32 0x7F800000#32) = some x ∧ ¬ BelowUpperV r x) := by
  have h0 : numVal (.f32 0x00000000#32) = some 0 := by decide
  have h1 : numVal (.f32 0x3F800000#32) = some (2 ^ 149) := by decide
  refine ⟨?_, ?_, ⟨2 ^ 148, by decide, ?_, ?_⟩, ⟨0, by decide, ?_⟩, ⟨2 ^ 277, by decide, ?_⟩⟩
  · rintro b (h | h | h | h) <;> simp_all <;> subst h <;> simp_all
  · rintro ⟨ub, lb, u, l, hu, hl, h2, h3, h4⟩
    simp at hu hl
    subst hu hl
    rw [h1] at h2; rw [h0] at h3
    simp at h2 h3
    omega
  · refine ⟨?_, by simp⟩
    intro b hb y hy; cases hb; rw [h1] at hy; cases hy; decide
  · refine ⟨?_, by simp⟩
    intro b hb y hy; cases hb; rw [h0] at hy; cases hy; decide
  · intro hh; have := hh.1 _ rfl _ h0; omega
  · intro hh; have := hh.1 _ rfl _ h1; revert this; decide

/-! ### C12 -/

/-- **C12** A numeric field with `const` accepts exactly that value. (The generator lets nothing
else stand beside `const`.) NaN is equal to nothing. -/
theorem C12_num_const (E : Env) (S : Schema) (typ : String) (f : FieldDesc) (h : OnlyField S typ f)
    (k : NumKind) (m : Option MessageRules) (r : NumRules) (hT : f.typ = .one (.scalar k))
    (hr : f.rules = .mk m (.num k r)) (hc : Checked f) (hi : r.ignoreEmpty ≠ some true) (c : Num)
    (hcst : r.const = some c) (n : Num) :
    Accepts E S typ f (.sc (.num n)) ↔ numSame n c := by
  have hty : f.rules.type = .num k r := by rw [hr]; rfl
  have hcheck := checked_num hc hty
  rw [checkNum, checkNums_iff] at hcheck
  obtain ⟨-, hx, -⟩ := hcheck
  obtain ⟨h1, h2, h3, h4, h5, h6⟩ := hx (by simp [hcst])
  rw [accepts_scalar h hT rfl _ (by rw [hty]; trivial), hty]
  simp only [List.length_eq_zero_iff] at h1 h2
  simp [ScalarOk, NumOk, hi, hcst, h1, h2, ListOk, numUpper, numLower, h3, h4, h5, h6, RangeOk]

/-- **C12** A numeric field with `in` accepts exactly the members of the list. -/
theorem C12_num_in (E : Env) (S : Schema) (typ : String) (f : FieldDesc) (h : OnlyField S typ f)
    (k : NumKind) (m : Option MessageRules) (r : NumRules) (hT : f.typ = .one (.scalar k))
    (hr : f.rules = .mk m (.num k r)) (hc : Checked f) (hi : r.ignoreEmpty ≠ some true)
    (hne : r.ins ≠ []) (n : Num) :
    Accepts E S typ f (.sc (.num n)) ↔ ∃ c ∈ r.ins, numSame n c := by
  have hty : f.rules.type = .num k r := by rw [hr]; rfl
  have hcheck := checked_num hc hty
  rw [checkNum, checkNums_iff] at hcheck
  obtain ⟨-, hx, hy, -⟩ := hcheck
  obtain ⟨h3, h4, h5, h6⟩ := hy (by simpa using hne)
  have hcst : r.const = none := by
    cases hcc : r.const with
    | none => rfl
    | some c => exact absurd (List.length_eq_zero_iff.1 (hx (by simp [hcc])).1) hne
  rw [accepts_scalar h hT rfl _ (by rw [hty]; trivial), hty]
  simp [ScalarOk, NumOk, hi, hcst, hne, ListOk, numUpper, numLower, h3, h4, h5, h6, RangeOk]

/-- **C12** A numeric field with `not_in` (and no range) accepts exactly the non-members. -/
theorem C12_num_not_in (E : Env) (S : Schema) (typ : String) (f : FieldDesc) (h : OnlyField S typ f)
    (k : NumKind) (m : Option MessageRules) (r : NumRules) (hT : f.typ = .one (.scalar k))
    (hr : f.rules = .mk m (.num k r)) (hc : Checked f) (hi : r.ignoreEmpty ≠ some true)
    (hne : r.notIns ≠ []) (hrange : r.lt = none ∧ r.lte = none ∧ r.gt = none ∧ r.gte = none)
    (n : Num) :
    Accepts E S typ f (.sc (.num n)) ↔ ∀ c ∈ r.notIns, ¬ numSame n c := by
  have hty : f.rules.type = .num k r := by rw [hr]; rfl
  have hcheck := checked_num hc hty
  rw [checkNum, checkNums_iff] at hcheck
  obtain ⟨hz, hx, -⟩ := hcheck
  obtain ⟨h3, h4, h5, h6⟩ := hrange
  have hins : r.ins = [] := by
    rcases hz with hz | hz
    · exact List.length_eq_zero_iff.1 hz
    · exact absurd (List.length_eq_zero_iff.1 hz) hne
  have hcst : r.const = none := by
    cases hcc : r.const with
    | none => rfl
    | some c => exact absurd (List.length_eq_zero_iff.1 (hx (by simp [hcc])).2.1) hne
  rw [accepts_scalar h hT rfl _ (by rw [hty]; trivial), hty]
  simp [ScalarOk, NumOk, hi, hcst, hins, ListOk, numUpper, numLower, h3, h4, h5, h6, RangeOk]

/-- **C12** bool: `const` accepts exactly that value. -/
theorem C12_bool_const (E : Env) (S : Schema) (typ : String) (f : FieldDesc) (h : OnlyField S typ f)
    (m : Option MessageRules) (r : BoolRules) (hT : f.typ = .one .bool)
    (hr : f.rules = .mk m (.bool r)) (c : Bool) (hcst : r.const = some c) (b : Bool) :
    Accepts E S typ f (.sc (.bool b)) ↔ b = c := by
  have hty : f.rules.type = .bool r := by rw [hr]; rfl
  rw [accepts_scalar h hT rfl _ (by rw [hty]; trivial), hty]
  simp [ScalarOk, hcst]

/-- **C12** string: whatever the other rules, an accepted string equals `const` when one is given,
is in `in` when that is given and not in `not_in` when that is given (the empty string excepted
under `ignore_empty`); and these rules on their own accept exactly those strings. -/
theorem C12_string (E : Env) (S : Schema) (typ : String) (f : FieldDesc) (h : OnlyField S typ f)
    (m : Option MessageRules) (r : StringRules) (hT : f.typ = .one .string)
    (hr : f.rules = .mk m (.string r)) (hc : Checked f) (s : Bytes) :
    (r.ignoreEmpty ≠ some true → Accepts E S typ f (.sc (.str s)) →
      (∀ c, r.const = some c → s = c) ∧ (r.ins ≠ [] → s ∈ r.ins) ∧ (s ∉ r.notIns)) ∧
    (∀ c, r = { const := some c } → (Accepts E S typ f (.sc (.str s)) ↔ s = c)) ∧
    (∀ l, l ≠ [] → r = { ins := l } → (Accepts E S typ f (.sc (.str s)) ↔ s ∈ l)) ∧
    (∀ l, r = { notIns := l } → (Accepts E S typ f (.sc (.str s)) ↔ s ∉ l)) := by
  have hty : f.rules.type = .string r := by rw [hr]; rfl
  rw [accepts_scalar h hT rfl _ (by rw [hty]; trivial), hty]
  refine ⟨?_, ?_, ?_, ?_⟩
  · intro hi
    simp only [ScalarOk, StringOk, hi, false_and, false_or, ListOk]
    rintro ⟨h1, ⟨h2, h3⟩, -⟩
    refine ⟨h1, fun hne => ?_, ?_⟩
    · obtain ⟨k, hk, rfl⟩ := h2 hne; exact hk
    · have hcheck := checked_string hc hty
      unfold checkString at hcheck
      split at hcheck
      · rename_i hh
        simp only [Bool.and_eq_true, checkIns_iff, List.length_eq_zero_iff] at hh
        rcases hh.2 with h4 | h4
        · exact fun hmem => h3 h4 s hmem rfl
        · simp [h4]
      · simp at hcheck
  · rintro c rfl
    simp [ScalarOk, StringOk, ListOk, LenOk, WellKnownOk]
  · rintro l hl rfl
    simp [ScalarOk, StringOk, ListOk, LenOk, WellKnownOk, hl]
  · rintro l rfl
    simp only [ScalarOk, StringOk, ListOk, LenOk, WellKnownOk]
    constructor
    · intro hh hmem
      simp only [reduceCtorEq, false_and, false_or] at hh
      exact hh.2.1.2 trivial s hmem rfl
    · intro hh
      refine .inr ⟨by simp, ⟨by simp, fun _ k hk he => hh (he ▸ hk)⟩, ?_⟩
      simp

/-- **C12, C20** Enums, whatever the rules: a number is accepted exactly when it equals `const` if
one is given, is in `in` if that is given, is not in `not_in`, and is declared if `defined_only`. -/
theorem C20_enum (E : Env) (S : Schema) (typ : String) (f : FieldDesc) (h : OnlyField S typ f)
    (declared : List Int) (m : Option MessageRules) (r : EnumRules)
    (hT : f.typ = .one (.enum declared)) (hr : f.rules = .mk m (.enum r)) (hc : Checked f) (i : Int) :
    Accepts E S typ f (.sc (.enum i)) ↔
      (∀ c, r.const = some c → i = c) ∧ (r.ins ≠ [] → i ∈ r.ins) ∧ i ∉ r.notIns ∧
      (r.definedOnly = some true → i ∈ declared) := by
  have hty : f.rules.type = .enum r := by rw [hr]; rfl
  have hcheck := checked_enum hc hty
  simp only [checkEnum, Bool.and_eq_true, checkIns_iff, List.length_eq_zero_iff] at hcheck
  rw [accepts_scalar h hT rfl _ (by rw [hty]; trivial), hty]
  simp only [ScalarOk, EnumOk, ListOk]
  constructor
  · rintro ⟨h1, ⟨h2, h3⟩, h4⟩
    refine ⟨h1, ?_, ?_, h4⟩
    · intro hne; obtain ⟨k, hk, rfl⟩ := h2 hne; exact hk
    · rcases hcheck.1 with h5 | h5
      · exact fun hmem => h3 h5 i hmem rfl
      · simp [h5]
  · rintro ⟨h1, h2, h3, h4⟩
    exact ⟨h1, ⟨fun hne => ⟨i, h2 hne, rfl⟩, fun _ k hk he => h3 (he ▸ hk)⟩, h4⟩

/-- The sizes of the `in` and `not_in` lists of a rule set, where there are such lists. -/
def listSizes : TypeRules → Nat × Nat
  | .num _ r => (r.ins.length, r.notIns.length)
  | .string r => (r.ins.length, r.notIns.length)
  | .bytes r => (r.ins.length, r.notIns.length)
  | .enum r => (r.ins.length, r.notIns.length)
  | .any r => (r.ins.length, r.notIns.length)
  | .duration r => (r.ins.length, r.notIns.length)
  | _ => (0, 0)

/-- **C12** The generator never accepts both `in` and `not_in`. -/
theorem C12_never_both (f : FieldDesc) (hc : Checked f) :
    (listSizes f.rules.type).1 = 0 ∨ (listSizes f.rules.type).2 = 0 := by
  cases hr : f.rules.type with
  | num k r =>
    have := checked_num hc hr
    rw [checkNum, checkNums_iff] at this
    exact this.1
  | string r =>
    have := checked_string hc hr
    unfold checkString at this
    split at this
    · rename_i hh
      simp only [Bool.and_eq_true, checkIns_iff] at hh
      exact hh.2
    · simp at this
  | bytes r =>
    have := checked_bytes hc hr
    simp only [checkBytes, Bool.and_eq_true, checkIns_iff] at this
    exact this.1.1.2
  | enum r =>
    have := checked_enum hc hr
    simp only [checkEnum, Bool.and_eq_true, checkIns_iff] at this
    exact this.1
  | any r => exact (checkIns_iff _ _).1 (checked_any hc hr)
  | duration r =>
    have := checked_duration hc hr
    simp only [checkDuration, Bool.and_eq_true, checkNums_iff] at this
    exact this.1.1.2.1
  | _ => exact .inl rfl

/-- C12's and C20's hypotheses are met. -/
example : Checked (Fixtures.fieldOf (.scalar .uint32) (.num .uint32 { const := some (.int 7) })) ∧
    Checked (Fixtures.fieldOf (.scalar .double) (.num .double { ins := [.f64 0#64, .f64 1#64] })) ∧
    Checked (Fixtures.fieldOf .string (.string { notIns := [asc "a", asc "b"] })) ∧
    Checked (Fixtures.fieldOf (.enum [0, 1, 2]) (.enum { definedOnly := some true, ins := [1, 2] })) ∧
    ¬ Checked (Fixtures.fieldOf (.scalar .int32) (.num .int32 { ins := [.int 1], notIns := [.int 2] })) := by
  unfold Checked; decide

end PGV.Props
