import Verif.Lemmas.Times
import Verif.Props.Collections
import Verif.Props.Numbers

/-!
C23-C27: Any, Duration, Timestamp and wrapper fields.
-/

set_option linter.unusedSimpArgs false

namespace PGV.Props
open PGV PGV.Go PGV.Spec PGV.Checker

/-! ### C23 -/

/-- **C23** An Any field is accepted, if set, exactly when its type URL is in `in` (if given) and
not in `not_in`; if unset, exactly when it is not required. -/
theorem C23_any (E : Env) (S : Schema) (typ : String) (f : FieldDesc) (h : OnlyField S typ f)
    (m : Option MessageRules) (r : AnyRules) (e : ElemT) (hT : f.typ = .one e)
    (hr : f.rules = .mk m (.any r)) (hc : Checked f) :
    (∀ url value, Accepts E S typ f (.any url value) ↔ (r.ins ≠ [] → url ∈ r.ins) ∧ url ∉ r.notIns) ∧
    (Accepts E S typ f .null ↔ r.required ≠ some true) := by
  have hins := checked_any hc (r := r) (by rw [hr]; rfl)
  rw [checkIns_iff, List.length_eq_zero_iff, List.length_eq_zero_iff] at hins
  constructor
  · intro url value
    rw [accepts_value h hT, hr]
    show AnyOk r (some url) ↔ _
    unfold AnyOk ListOk
    constructor
    · rintro ⟨h1, h2⟩
      refine ⟨fun hne => ?_, ?_⟩
      · obtain ⟨k, hk, rfl⟩ := h1 hne; exact hk
      · rcases hins with h4 | h4
        · exact fun hmem => h2 h4 url hmem rfl
        · simp [h4]
    · rintro ⟨h1, h2⟩
      exact ⟨fun hne => ⟨url, h1 hne, rfl⟩, fun _ k hk he => h2 (he ▸ hk)⟩
  · rw [accepts_value h hT, hr]
    exact Iff.rfl

/-- An Any field. -/
def anyField (r : AnyRules) : FieldDesc :=
  Fixtures.fieldOf (.embed "google.protobuf.Any" (some .any)) (.any r)

/-- C23's hypotheses are met. -/
example : Checked (anyField { ins := [asc "a/x", asc "a/y"], required := some true }) := by
  unfold Checked; decide

/-! ### C24 -/

/-- The limits of duration rules, as exact lengths. -/
def durLimits (r : DurationRules) : Limits where
  lt := r.lt.map length
  lte := r.lte.map length
  gt := r.gt.map length
  gte := r.gte.map length

/-- Every duration the rules mention is ordinary. -/
def OrdinaryRules (r : DurationRules) : Prop :=
  (∀ k, r.const = some k ∨ r.lt = some k ∨ r.lte = some k ∨ r.gt = some k ∨ r.gte = some k →
    Ordinary k) ∧ (∀ k ∈ r.ins, Ordinary k) ∧ (∀ k ∈ r.notIns, Ordinary k)

/-- **C24, partial** A set Duration field with rules on its length is accepted exactly when it is a
valid duration whose exact length satisfies the rules, even for durations far outside what a Go
`time.Duration` can hold. Excluded: rules that mention the extreme value of `time.Duration`, see
`C24_saturation`. (Rules beyond the extremes do not compile.) -/
theorem C24_duration_partial (E : Env) (S : Schema) (typ : String) (f : FieldDesc)
    (h : OnlyField S typ f) (m : Option MessageRules) (r : DurationRules) (e : ElemT)
    (hT : f.typ = .one e) (hr : f.rules = .mk m (.duration r)) (hc : Checked f)
    (hcon : DurConstrained r) (ho : OrdinaryRules r) (d : PDur) :
    Accepts E S typ f (.dur d) ↔
      ValidDuration d ∧ (∀ k, r.const = some k → length d = length k) ∧
      (durLimits r).Admits (length d) ∧
      (r.ins ≠ [] → ∃ k ∈ r.ins, length d = length k) ∧ (∀ k ∈ r.notIns, length d ≠ length k) := by
  have hck := checked_duration hc (r := r) (by rw [hr]; rfl)
  rw [accepts_value h hT, hr]
  show DurationOk r (some d) ↔ _
  simp only [DurationOk, hcon, forall_const, valid_iff]
  refine and_congr_right fun hd => ?_
  simp only [checkDuration, Bool.and_eq_true, checkNums_iff, List.all_eq_true, valid_iff,
    List.length_eq_zero_iff, Option.map_eq_none_iff, Option.map_eq_some_iff, decide_eq_false_iff_not,
    and_assoc] at hck
  obtain ⟨v1, v2, v3, v4, v5, n1, n2, n3, n4, n5, n6, vi, vn⟩ := hck
  have hv : ∀ k, r.const = some k ∨ r.lt = some k ∨ r.lte = some k ∨ r.gt = some k ∨ r.gte = some k →
      ValidDuration k := by
    intro k hk
    rcases hk with hk | hk | hk | hk | hk <;> rw [← valid_iff]
    · simpa [durOk, hk] using v1
    · simpa [durOk, hk] using v2
    · simpa [durOk, hk] using v3
    · simpa [durOk, hk] using v4
    · simpa [durOk, hk] using v5
  have hbase : ∀ k, r.const = some k ∨ r.lt = some k ∨ r.lte = some k ∨ r.gt = some k ∨ r.gte = some k →
      k.asDuration = length k := fun k hk => asDuration_ordinary (hv k hk) (ho.1 k hk)
  refine and_congr ?_ (and_congr ?_ ?_)
  · refine forall_congr' fun k => imp_congr_right fun hk => ?_
    have ok := ho.1 k (.inl hk)
    exact (asDuration_cmp hd ok.1 ok.2).2.2.2.2
  · rw [← rangeOk_admits (durLimits r)]
    · obtain ⟨rq, const, lt, lte, gt, gte, ins, notIns⟩ := r
      simp only at n4 n5 n6 hv hbase ho ⊢
      have cmp : ∀ k, lt = some k ∨ lte = some k ∨ gt = some k ∨ gte = some k →
          ∀ z, z = d → _ := fun k hk z _ =>
        have ok := ho.1 k (.inr hk)
        asDuration_cmp hd ok.1 ok.2
      have b : ∀ k, lt = some k ∨ lte = some k ∨ gt = some k ∨ gte = some k → k.asDuration = k.exact :=
        fun k hk => hbase k (.inr hk)
      unfold DurRangeOk RangeOk durUpper durLower upperOf lowerOf durLimits
      cases lt with
      | some u =>
        have : lte = none := by simpa using n4
        subst this
        have cu := cmp u (by simp) d rfl
        have bu := b u (by simp)
        cases gt with
        | some l =>
          have : gte = none := by simpa using n5
          subst this
          have cl := cmp l (by simp) d rfl
          have bl := b l (by simp)
          have hul : (l.asDuration < u.asDuration) ↔ length l < length u := by rw [bu, bl]; rfl
          simp only [hul, Option.map_some]
          simp [Bound.AsUpper, Bound.AsLower, show u.exact = length u from rfl,
            show l.exact = length l from rfl, cu, cl]
        | none =>
          cases gte with
          | some l =>
            have cl := cmp l (by simp) d rfl
            have bl := b l (by simp)
            have hul : (l.asDuration < u.asDuration) ↔ length l < length u := by rw [bu, bl]; rfl
            simp only [hul, Option.map_some, Option.map_none]
            simp [Bound.AsUpper, Bound.AsLower, show u.exact = length u from rfl,
              show l.exact = length l from rfl, cu, cl]
          | none => simp [Bound.AsUpper, Bound.AsLower, show u.exact = length u from rfl, cu]
      | none =>
        cases lte with
        | some u =>
          have cu := cmp u (by simp) d rfl
          have bu := b u (by simp)
          cases gt with
          | some l =>
            have : gte = none := by simpa using n5
            subst this
            have cl := cmp l (by simp) d rfl
            have bl := b l (by simp)
            have hul : (l.asDuration < u.asDuration) ↔ length l < length u := by rw [bu, bl]; rfl
            simp only [hul, Option.map_some, Option.map_none]
            simp [Bound.AsUpper, Bound.AsLower, show u.exact = length u from rfl,
              show l.exact = length l from rfl, cu, cl]
          | none =>
            cases gte with
            | some l =>
              have cl := cmp l (by simp) d rfl
              have bl := b l (by simp)
              have hul : (l.asDuration < u.asDuration) ↔ length l < length u := by rw [bu, bl]; rfl
              simp only [hul, Option.map_some, Option.map_none]
              simp [Bound.AsUpper, Bound.AsLower, show u.exact = length u from rfl,
                show l.exact = length l from rfl, cu, cl]
            | none => simp [Bound.AsUpper, Bound.AsLower, show u.exact = length u from rfl, cu]
        | none =>
          cases gt with
          | some l =>
            have cl := cmp l (by simp) d rfl
            simp [Bound.AsUpper, Bound.AsLower, show l.exact = length l from rfl, cl]
          | none =>
            cases gte with
            | some l =>
              have cl := cmp l (by simp) d rfl
              simp [Bound.AsUpper, Bound.AsLower, show l.exact = length l from rfl, cl]
            | none => simp
    · simpa [durLimits] using n4
    · simpa [durLimits] using n5
    · intro u l hu hl he
      simp only [durLimits, Option.map_eq_some_iff] at hu hl
      have hu' : ∃ k, (r.lt = some k ∨ r.lte = some k) ∧ length k = u := by
        rcases hu with ⟨k, h1, h2⟩ | ⟨k, h1, h2⟩
        · exact ⟨k, .inl h1, h2⟩
        · exact ⟨k, .inr h1, h2⟩
      have hl' : ∃ k, (r.gt = some k ∨ r.gte = some k) ∧ length k = l := by
        rcases hl with ⟨k, h1, h2⟩ | ⟨k, h1, h2⟩
        · exact ⟨k, .inl h1, h2⟩
        · exact ⟨k, .inr h1, h2⟩
      obtain ⟨ku, hku, rfl⟩ := hu'
      obtain ⟨kl, hkl, rfl⟩ := hl'
      refine n6 ku.asDuration kl.asDuration ?_ ?_ ?_
      · rcases hku with h | h
        · exact .inl ⟨ku, h, rfl⟩
        · exact .inr ⟨ku, h, rfl⟩
      · rcases hkl with h | h
        · exact .inl ⟨kl, h, rfl⟩
        · exact .inr ⟨kl, h, rfl⟩
      · rw [hbase ku, hbase kl]
        · exact he
        · rcases hkl with h | h
          · exact .inr (.inr (.inr (.inl h)))
          · exact .inr (.inr (.inr (.inr h)))
        · rcases hku with h | h
          · exact .inr (.inl h)
          · exact .inr (.inr (.inl h))
  · unfold ListOk
    have key : ∀ k, (k ∈ r.ins ∨ k ∈ r.notIns) → (d.asDuration = k.asDuration ↔ length d = length k) := by
      intro k hk
      have hkv : ValidDuration k := by
        rcases hk with hk | hk
        · exact vi k hk
        · exact vn k hk
      have hko : Ordinary k := by
        rcases hk with hk | hk
        · exact ho.2.1 k hk
        · exact ho.2.2 k hk
      rw [asDuration_ordinary hkv hko]
      exact (asDuration_cmp hd hko.1 hko.2).2.2.2.2
    have mapEx : ∀ (l : List PDur) (p : Int → Prop),
        (∃ x ∈ l.map PDur.asDuration, p x) ↔ ∃ k ∈ l, p k.asDuration := by
      intro l p
      constructor
      · rintro ⟨x, hx, hp⟩
        obtain ⟨k, hk, rfl⟩ := List.mem_map.1 hx
        exact ⟨k, hk, hp⟩
      · rintro ⟨k, hk, hp⟩
        exact ⟨_, List.mem_map_of_mem hk, hp⟩
    simp only [mapEx]
    simp only [ne_eq, List.map_eq_nil_iff, List.mem_map,
      forall_exists_index, and_imp, forall_apply_eq_imp_iff₂]
    constructor
    · rintro ⟨h1, h2⟩
      refine ⟨fun hne => ?_, fun k hk => ?_⟩
      · obtain ⟨k, hk, he⟩ := h1 hne
        exact ⟨k, hk, (key k (.inl hk)).1 he⟩
      · rcases n1 with h4 | h4
        · exact fun he => h2 h4 k hk ((key k (.inr hk)).2 he)
        · simp [h4] at hk
    · rintro ⟨h1, h2⟩
      refine ⟨fun hne => ?_, fun _ k hk he => h2 k hk ((key k (.inr hk)).1 he)⟩
      obtain ⟨k, hk, he⟩ := h1 hne
      exact ⟨k, hk, (key k (.inl hk)).2 he⟩

/-- **C24** An unset Duration field is accepted exactly when it is not required. -/
theorem C24_unset (E : Env) (S : Schema) (typ : String) (f : FieldDesc) (h : OnlyField S typ f)
    (m : Option MessageRules) (r : DurationRules) (e : ElemT) (hT : f.typ = .one e)
    (hr : f.rules = .mk m (.duration r)) : Accepts E S typ f .null ↔ r.required ≠ some true := by
  rw [accepts_value h hT, hr]
  exact Iff.rfl

/-- A Duration field. -/
def durField (r : DurationRules) : FieldDesc :=
  Fixtures.fieldOf (.embed "google.protobuf.Duration" (some .duration)) (.duration r)

/-- **C24, negation** With `lte` at the largest `time.Duration`, longer durations (here one
nanosecond longer) are accepted, because the conversion saturates. -/
theorem C24_saturation (E : Env) :
    let r : DurationRules := { lte := some ⟨9223372036, 854775807⟩ }
    let d : PDur := ⟨9223372036, 854775808⟩
    Checked (durField r) ∧ ValidDuration d ∧ length ⟨9223372036, 854775807⟩ < length d ∧
      Accepts E (Fixtures.only (durField r)) "M" (durField r) (.dur d) := by
  refine ⟨by unfold Checked; decide, by unfold ValidDuration; decide, by decide, ?_⟩
  rw [accepts_value (Fixtures.only_field _) rfl]
  show DurationOk _ (some _)
  intro _
  refine ⟨by decide, by simp, ?_, ?_⟩
  · show DurRangeOk (some (false, ⟨9223372036, 854775807⟩)) none _
    simp only [DurRangeOk, Bound.AsUpper]
    decide
  · simp [ListOk]

/-- C24's hypotheses are met, and durations outside int64 nanoseconds are covered. -/
example : let r : DurationRules := { gt := some ⟨5, 0⟩, lte := some ⟨1, 500000000⟩ }
    Checked (durField r) ∧ DurConstrained r ∧ OrdinaryRules r ∧ (durLimits r).Inverted ∧
    ValidDuration ⟨315576000000, 0⟩ ∧ ¬ Ordinary ⟨315576000000, 0⟩ := by
  refine ⟨by unfold Checked; decide, by simp [DurConstrained], ?_, ?_, by unfold ValidDuration; decide,
    by unfold Ordinary; decide⟩
  · simp only [OrdinaryRules]
    refine ⟨?_, by simp, by simp⟩
    intro k hk
    simp at hk
    rcases hk with rfl | rfl <;> (unfold Ordinary; decide)
  · exact ⟨1500000000, 5000000000, by simp [durLimits, length], by simp [durLimits, length], by decide⟩

/-! ### C25 -/

/-- The absolute limits of timestamp rules. -/
def tsLimits (r : TimestampRules) : Limits where
  lt := r.lt.map instant
  lte := r.lte.map instant
  gt := r.gt.map instant
  gte := r.gte.map instant

/-- **C25** A set Timestamp field with absolute rules is accepted exactly when it is a valid
timestamp whose exact instant satisfies them. -/
theorem C25_absolute (E : Env) (S : Schema) (typ : String) (f : FieldDesc)
    (h : OnlyField S typ f) (m : Option MessageRules) (r : TimestampRules) (e : ElemT)
    (hT : f.typ = .one e) (hr : f.rules = .mk m (.timestamp r)) (hc : Checked f)
    (habs : r.ltNow = none ∧ r.gtNow = none ∧ r.within = none)
    (hcon : r.const ≠ none ∨ r.lt ≠ none ∨ r.lte ≠ none ∨ r.gt ≠ none ∨ r.gte ≠ none) (t : PTime) :
    Accepts E S typ f (.ts t) ↔
      ValidTimestamp t ∧ (∀ k, r.const = some k → instant t = instant k) ∧
      (tsLimits r).Admits (instant t) := by
  have hck := checked_timestamp hc (r := r) (by rw [hr]; rfl)
  rw [accepts_value h hT, hr]
  show TimestampOk E.now r (some t) ↔ _
  have hcon' : TsConstrained r := by
    unfold TsConstrained
    rcases hcon with h | h | h | h | h <;> simp [h]
  simp only [TimestampOk, hcon', forall_const, tsValid_iff]
  have hnow : ∀ x, NowOk E.now r x := by
    intro x; unfold NowOk; rw [habs.1, habs.2.1, habs.2.2]; trivial
  simp only [hnow, implies_true, and_true]
  refine and_congr_right fun _ => and_congr_right fun _ => ?_
  simp only [checkTimestamp, Bool.and_eq_true, checkNums_iff, Option.map_eq_none_iff,
    Option.map_eq_some_iff, decide_eq_false_iff_not, and_assoc] at hck
  obtain ⟨-, -, -, -, -, -, -, -, n4, n5, n6, -⟩ := hck
  rw [← rangeOk_admits (tsLimits r)]
  · have e1 : tsUpper r = upperOf (tsLimits r) := by
      unfold tsUpper upperOf tsLimits
      cases r.lt <;> simp [Function.comp_def]
    have e2 : tsLower r = lowerOf (tsLimits r) := by
      unfold tsLower lowerOf tsLimits
      cases r.gt <;> simp [Function.comp_def]
    rw [e1, e2]
  · simpa [tsLimits] using n4
  · simpa [tsLimits] using n5
  · intro u l hu hl he
    simp only [tsLimits, Option.map_eq_some_iff] at hu hl
    have hu' : ∃ k, (r.lt = some k ∨ r.lte = some k) ∧ instant k = u := by
      rcases hu with ⟨k, h1, h2⟩ | ⟨k, h1, h2⟩
      · exact ⟨k, .inl h1, h2⟩
      · exact ⟨k, .inr h1, h2⟩
    have hl' : ∃ k, (r.gt = some k ∨ r.gte = some k) ∧ instant k = l := by
      rcases hl with ⟨k, h1, h2⟩ | ⟨k, h1, h2⟩
      · exact ⟨k, .inl h1, h2⟩
      · exact ⟨k, .inr h1, h2⟩
    obtain ⟨ku, hku, rfl⟩ := hu'
    obtain ⟨kl, hkl, rfl⟩ := hl'
    refine n6 (tsNano ku) (tsNano kl) ?_ ?_ ?_
    · rcases hku with h | h
      · exact .inl ⟨ku, h, rfl⟩
      · exact .inr ⟨ku, h, rfl⟩
    · rcases hkl with h | h
      · exact .inl ⟨kl, h, rfl⟩
      · exact .inr ⟨kl, h, rfl⟩
    · unfold tsNano
      rw [asTime_eq, asTime_eq, he]

/-- **C25** An unset Timestamp field is accepted exactly when it is not required. -/
theorem C25_unset (E : Env) (S : Schema) (typ : String) (f : FieldDesc) (h : OnlyField S typ f)
    (m : Option MessageRules) (r : TimestampRules) (e : ElemT) (hT : f.typ = .one e)
    (hr : f.rules = .mk m (.timestamp r)) : Accepts E S typ f .null ↔ r.required ≠ some true := by
  rw [accepts_value h hT, hr]
  exact Iff.rfl

/-- A Timestamp field. -/
def tsField (r : TimestampRules) : FieldDesc :=
  Fixtures.fieldOf (.embed "google.protobuf.Timestamp" (some .timestamp)) (.timestamp r)

/-- C25 covers limits and instants that are further apart than int64 nanoseconds can express. -/
example : let r : TimestampRules := { lt := some ⟨253402300799, 0⟩ }
    let t : PTime := ⟨-62135596800, 0⟩
    Checked (tsField r) ∧ ValidTimestamp t ∧ (tsLimits r).Admits (instant t) ∧
    9223372036854775807 < instant ⟨253402300799, 0⟩ - instant t := by
  refine ⟨by unfold Checked; decide, by unfold ValidTimestamp; decide, ?_, by decide⟩
  unfold Limits.Admits Limits.Inverted Limits.Below Limits.Above
  simp [tsLimits, instant]

/-! ### C26 -/

/-- **C26, partial** Relative rules (alone, as the generator demands): `lt_now: true` accepts the
valid timestamps before the clock reading, `gt_now: true` those after it, `within: w` those at a
distance less than `w`; combined, the one-sided windows, which include the far end. Excluded:
`lt_now: false` and `gt_now: false`, see `C26_false_enforced`. -/
theorem C26_relative_partial (E : Env) (S : Schema) (typ : String) (f : FieldDesc)
    (h : OnlyField S typ f) (m : Option MessageRules) (req lt gt : Option Bool) (w : Option PDur)
    (e : ElemT) (hT : f.typ = .one e)
    (hr : f.rules = .mk m (.timestamp { required := req, ltNow := lt, gtNow := gt, within := w }))
    (hc : Checked f) (hlt : lt ≠ some false) (hgt : gt ≠ some false)
    (hcon : lt = some true ∨ gt = some true ∨ w ≠ none) (t : PTime) :
    Accepts E S typ f (.ts t) ↔
      ValidTimestamp t ∧ (lt = some true → instant t < E.now) ∧ (gt = some true → E.now < instant t) ∧
      (∀ d, w = some d → if lt = some true ∨ gt = some true
        then E.now - length d ≤ instant t ∧ instant t ≤ E.now + length d
        else E.now - length d < instant t ∧ instant t < E.now + length d) := by
  have hck := checked_timestamp hc (r := { required := req, ltNow := lt, gtNow := gt, within := w })
    (by rw [hr]; rfl)
  rw [accepts_value h hT, hr]
  show TimestampOk E.now _ (some t) ↔ _
  simp only [checkTimestamp, Bool.and_eq_true, and_assoc] at hck
  obtain ⟨-, -, -, -, -, -, -, -, hone, hwv, hwp⟩ := hck
  have hlen : ∀ d : PDur, d.exact = length d := fun _ => rfl
  have hpos : ∀ d, w = some d → 0 < length d := by
    intro d hd
    subst hd
    simp only [durOk, valid_iff] at hwv
    have := (asDuration_cmp hwv (y := 0) (by decide) (by decide)).2.2.1
    rw [← this]
    simpa using hwp
  have hcon' : TsConstrained { required := req, ltNow := lt, gtNow := gt, within := w } := by
    unfold TsConstrained
    rcases hcon with h | h | h <;> simp [h]
  simp only [TimestampOk, hcon', forall_const, tsValid_iff, tsUpper, tsLower, RangeOk, NowOk]
  refine and_congr_right fun _ => ?_
  cases lt with
  | some b =>
    cases b with
    | false => exact absurd rfl hlt
    | true =>
      have hg : gt = none := by simpa using hone
      subst hg
      cases w with
      | none => simp
      | some d =>
        have := hpos d rfl
        simp [hlen]
        omega
  | none =>
    cases gt with
    | some b =>
      cases b with
      | false => exact absurd rfl hgt
      | true =>
        cases w with
        | none => simp
        | some d =>
          have := hpos d rfl
          simp [hlen]
          exact fun h1 _ => Int.le_trans (Int.sub_le_self _ (Int.le_of_lt this)) (Int.le_of_lt h1)
    | none =>
      cases w with
      | none => simp
      | some d => simp [hlen]

/-- **C26, negation** `lt_now: false` is enforced like `lt_now: true`: an instant after the clock
reading is rejected. -/
theorem C26_false_enforced (E : Env) (t : PTime) (_ht : ValidTimestamp t) (hn : E.now < instant t) :
    let f := tsField { ltNow := some false }
    Checked f ∧ ¬ Accepts E (Fixtures.only f) "M" f (.ts t) := by
  refine ⟨by unfold Checked; decide, ?_⟩
  rw [accepts_value (Fixtures.only_field _) rfl]
  show ¬ TimestampOk E.now _ (some t)
  intro h
  have := (h (by simp [TsConstrained])).2.2.2 rfl rfl
  simp only [NowOk] at this
  exact Int.not_lt.2 (Int.le_of_lt hn) this

/-- C26's hypotheses are met. -/
example : Checked (tsField { gtNow := some true, within := some ⟨60, 0⟩ }) ∧
    Checked (tsField { within := some ⟨0, 1⟩ }) ∧
    ValidTimestamp ⟨1600000001, 0⟩ ∧ Fixtures.env.now < instant ⟨1600000001, 0⟩ :=
  ⟨by unfold Checked; decide, by unfold Checked; decide, by unfold ValidTimestamp; decide, by decide⟩

/-! ### C27 -/

/-- **C27** A wrapper field with rules on the wrapped value is accepted, if set, exactly when a
scalar field `fs` with the same rules would accept that value; if unset, exactly when it is not
required. -/
theorem C27_wrapper (E : Env) (S : Schema) (tw ts : String) (fw fs : FieldDesc)
    (hw : OnlyField S tw fw) (hs : OnlyField S ts fs) (m m' : Option MessageRules) (rules : TypeRules)
    (n : String) (k : WKT) (e : ElemT) (he : e.isEmbed = false)
    (hTw : fw.typ = .one (.embed n (some k))) (hTs : fs.typ = .one e) (hk : WrapperKind rules)
    (hrw : fw.rules = .mk m rules) (hrs : fs.rules = .mk m' rules) (s : Scalar) :
    (Accepts E S tw fw (.wrapper s) ↔ Accepts E S ts fs (.sc s)) ∧
    (Accepts E S tw fw .null ↔ msgRequired m = false) := by
  rw [accepts_value hw hTw, accepts_value hw hTw, accepts_value hs hTs, hrw, hrs, valueOk_sc he]
  unfold ValueOk
  simp only [FieldRules.type, FieldRules.message]
  constructor
  · cases rules <;> simp [ElemT.isEmbed, WrapperKind] at hk ⊢
    all_goals first | simp [hk] | skip
    all_goals unfold ScalarOk
    all_goals cases s <;> simp
  · cases rules <;> simp [ElemT.isEmbed, WrapperKind] at hk ⊢
    · simp [hk]

/-- **C27** The errors are the same too, if message and field have the same names. -/
theorem C27_errors (E : Env) (S : Schema) (tw ts : String) (dw ds : MsgDesc) (fw fs : FieldDesc)
    (hSw : S tw = .generated dw) (hSs : S ts = .generated ds) (hn : dw.name = ds.name)
    (hdw : dw.disabled = false) (hds : ds.disabled = false) (hfw : dw.fields = [fw])
    (hfs : ds.fields = [fs]) (how : dw.oneofs = []) (hos : ds.oneofs = []) (hfn : fw.name = fs.name)
    (m m' : Option MessageRules) (rules : TypeRules)
    (n : String) (k : WKT) (e : ElemT) (he : e.isEmbed = false)
    (hTw : fw.typ = .one (.embed n (some k))) (hTs : fs.typ = .one e) (hk : WrapperKind rules)
    (hrw : fw.rules = .mk m rules) (hrs : fs.rules = .mk m' rules) (s : Scalar) :
    errorsFor E S tw fw (.wrapper s) = errorsFor E S ts fs (.sc s) := by
  rw [errorsFor_eq hSw hdw hfw how, errorsFor_eq hSs hds hfs hos]
  congr 1
  funext all
  unfold renderField elemTpl
  simp only [hTw, hTs, hrw, hrs, hn, hfn, FieldRules.type, FieldRules.message]
  cases e <;> simp [ElemT.isEmbed] at he <;> cases rules <;> simp [WrapperKind] at hk
  all_goals try (rcases hk with rfl | rfl | rfl | rfl | rfl | rfl)
  all_goals cases s <;> rfl

/-- A wrapper field of the kind C27 is about. -/
example : Checked (Fixtures.fieldOf (.embed "google.protobuf.Int32Value" (some .int32Value))
      (.num .int32 { gt := some (.int 0) })) ∧ WrapperKind (.num .int32 { gt := some (.int 0) }) ∧
    Checked (Fixtures.fieldOf (.scalar .int32) (.num .int32 { gt := some (.int 0) })) :=
  ⟨by unfold Checked; decide, by simp [WrapperKind], by unfold Checked; decide⟩

end PGV.Props
