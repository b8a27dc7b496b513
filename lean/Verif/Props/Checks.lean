import Verif.Props.Checker

/-!
C34-C36: timestamp, enum, message, repeated and map checks; satisfiable ranges.
-/

set_option linter.unusedSimpArgs false

namespace PGV.Props
open PGV PGV.Go PGV.Spec PGV.Checker

/-! ### C34 -/

/-- Two timestamps denote the same instant. -/
def SameInstant (a b : PTime) : Prop := instant a = instant b

theorem tsOk_iff (o : Option PTime) : tsOk o = true ↔ ∀ t, o = some t → ValidTimestamp t := by
  cases o <;> simp [tsOk, tsValid_iff]

theorem durOk_iff (o : Option PDur) : durOk o = true ↔ ∀ t, o = some t → ValidDuration t := by
  cases o <;> simp [durOk, valid_iff]

/-- The timestamp check as a proposition, with the equality the checker uses. -/
theorem checkTimestamp_iff (r : TimestampRules) : checkTimestamp r = true ↔
    TsConsistent (fun a b => tsNano a = tsNano b) r := by
  unfold checkTimestamp
  simp only [Bool.and_eq_true, checkNums_iff, tsOk_iff, durOk_iff, Option.map_eq_none_iff,
    Option.map_eq_some_iff, decide_eq_false_iff_not, Bool.or_eq_true, Option.isNone_iff_eq_none, and_assoc,
    ne_eq, not_true_eq_false, true_and, true_or, false_implies]
  constructor
  · rintro ⟨v1, v2, v3, v4, v5, n1, n4, n5, n6, p1, p2, p3, p4, p5⟩
    refine ⟨?_, ⟨.inl rfl, ?_, by simp, n4, n5, ?_⟩, ?_, ?_, p3, ?_⟩
    · rintro t (h | h | h | h | h)
      · exact v1 t h
      · exact v2 t h
      · exact v3 t h
      · exact v4 t h
      · exact v5 t h
    · intro hc; have := n1 hc; exact ⟨rfl, rfl, this⟩
    · intro u l hu hl he
      refine n6 (tsNano u) (tsNano l) ?_ ?_ he
      · rcases hu with h | h
        · exact .inl ⟨u, h, rfl⟩
        · exact .inr ⟨u, h, rfl⟩
      · rcases hl with h | h
        · exact .inl ⟨l, h, rfl⟩
        · exact .inr ⟨l, h, rfl⟩
    · intro h
      rcases p1 with ⟨a, b⟩ | p1
      · rcases h with h | h
        · exact absurd a h
        · exact absurd b h
      · exact p1
    · intro h
      rcases p2 with a | p2
      · exact absurd a h
      · exact p2
    · intro d hd
      have hv := p4 d hd
      refine ⟨hv, ?_⟩
      rw [← (asDuration_cmp hv (y := 0) (by decide) (by decide)).2.2.1]
      simpa [hd] using p5
  · rintro ⟨v, ⟨-, c2, -, c4, c5, c6⟩, n1, n2, n3, n4⟩
    refine ⟨fun t h => v t (.inl h), fun t h => v t (.inr (.inl h)), fun t h => v t (.inr (.inr (.inl h))),
      fun t h => v t (.inr (.inr (.inr (.inl h)))), fun t h => v t (.inr (.inr (.inr (.inr h)))), ?_, c4, c5,
      ?_, ?_, ?_, n3, fun d hd => (n4 d hd).1, ?_⟩
    · intro hc; exact (c2 hc).2.2
    · rintro u l hu hl rfl
      have hu' : ∃ k, (r.lt = some k ∨ r.lte = some k) ∧ tsNano k = u := by
        rcases hu with ⟨k, h1, h2⟩ | ⟨k, h1, h2⟩
        · exact ⟨k, .inl h1, h2⟩
        · exact ⟨k, .inr h1, h2⟩
      have hl' : ∃ k, (r.gt = some k ∨ r.gte = some k) ∧ tsNano k = u := by
        rcases hl with ⟨k, h1, h2⟩ | ⟨k, h1, h2⟩
        · exact ⟨k, .inl h1, h2⟩
        · exact ⟨k, .inr h1, h2⟩
      obtain ⟨ku, hku, rfl⟩ := hu'
      obtain ⟨kl, hkl, he⟩ := hl'
      exact c6 ku kl hku hkl he.symm
    · by_cases h : r.ltNow = none ∧ r.gtNow = none
      · exact .inl h
      · refine .inr (n1 ?_)
        by_cases h1 : r.ltNow = none
        · exact .inr fun h2 => h ⟨h1, h2⟩
        · exact .inl h1
    · by_cases h : r.within = none
      · exact .inl h
      · exact .inr (n2 h)
    · cases hd : r.within with
      | none => rfl
      | some d =>
        obtain ⟨hv, hp⟩ := n4 d hd
        rw [← (asDuration_cmp hv (y := 0) (by decide) (by decide)).2.2.1] at hp
        simpa using hp

theorem tsNano_eq (t : PTime) : tsNano t = wrap64 (instant t) := by
  unfold tsNano
  rw [asTime_eq]
  rfl

/-- **C34** Accepted timestamp rules, at any depth, are consistent. -/
theorem C34_sound (compiles : Bytes → Bool) (d : MsgDesc) (ha : AcceptedMsg compiles d)
    (hd : d.disabled = false) (f : FieldDesc) (hf : FieldOf d f) (t : FieldT)
    (m : Option MessageRules) (r : TimestampRules) (h : RuleAt f t (.mk m (.timestamp r))) :
    TsConsistent SameInstant r := by
  obtain ⟨y, -, hc⟩ := ruleAt_type (accepted_of_msg ha hd hf) h
  simp only [checkTypeRules] at hc
  have hck : checkTimestamp r = true := by split at hc <;> simp_all
  rw [checkTimestamp_iff] at hck
  obtain ⟨v, ⟨c1, c2, c3, c4, c5, c6⟩, n1, n2, n3, n4⟩ := hck
  exact ⟨v, ⟨c1, c2, c3, c4, c5, fun u l hu hl hs => c6 u l hu hl (by
    simp only [tsNano_eq]; rw [show instant u = instant l from hs])⟩, n1, n2, n3, n4⟩

/-- **C34, partial** When the bounds lie within int64 nanoseconds, timestamp rules on a field are
accepted exactly when they are consistent. Missing: bounds outside, see
`C34_distinct_considered_equal`. -/
theorem C34_exact_partial (compiles : Bytes → Bool) (f : FieldDesc) (r : TimestampRules)
    (hr : f.rules = .mk none (.timestamp r))
    (hin : ∀ t, r.lt = some t ∨ r.lte = some t ∨ r.gt = some t ∨ r.gte = some t → InInt64 (instant t)) :
    Accepted compiles f ↔ TsConsistent SameInstant r := by
  rw [accepted_iff hr]
  have : checkTypeRules compiles (.field f.typ) (.timestamp r) ≠ none ↔ checkTimestamp r = true := by
    simp [checkTypeRules]
  rw [this, checkTimestamp_iff]
  have heq : ∀ u l, (r.lt = some u ∨ r.lte = some u) → (r.gt = some l ∨ r.gte = some l) →
      (tsNano u = tsNano l ↔ SameInstant u l) := by
    intro u l hu hl
    have h1 : InInt64 (instant u) := hin u (by rcases hu with h | h <;> simp [h])
    have h2 : InInt64 (instant l) := hin l (by rcases hl with h | h <;> simp [h])
    rw [tsNano_eq, tsNano_eq, wrap64_of_range h1.1 h1.2, wrap64_of_range h2.1 h2.2]
    exact Iff.rfl
  constructor
  · rintro ⟨v, ⟨c1, c2, c3, c4, c5, c6⟩, n1, n2, n3, n4⟩
    exact ⟨v, ⟨c1, c2, c3, c4, c5, fun u l hu hl hs => c6 u l hu hl ((heq u l hu hl).2 hs)⟩, n1, n2, n3, n4⟩
  · rintro ⟨v, ⟨c1, c2, c3, c4, c5, c6⟩, n1, n2, n3, n4⟩
    exact ⟨v, ⟨c1, c2, c3, c4, c5, fun u l hu hl hs => c6 u l hu hl ((heq u l hu hl).1 hs)⟩, n1, n2, n3, n4⟩

/-- **C34, negation** Two distinct instants, 2^64 nanoseconds (about 584 years) apart, are considered
equal: consistent rules are refused. -/
theorem C34_distinct_considered_equal (compiles : Bytes → Bool) :
    let u : PTime := ⟨18446744073, 709551616⟩
    let l : PTime := ⟨0, 0⟩
    let r : TimestampRules := { lt := some u, gt := some l }
    instant l < instant u ∧ TsConsistent SameInstant r ∧ ¬ Accepted compiles (tsField r) := by
  refine ⟨by decide, ⟨?_, ⟨.inl rfl, by simp, by simp, by simp, by simp, ?_⟩, by simp, by simp, by simp, by simp⟩, ?_⟩
  · rintro t (h | h | h | h | h) <;> simp at h <;> subst h <;> (unfold ValidTimestamp; decide)
  · intro a b ha hb
    simp at ha hb
    subst ha hb
    unfold SameInstant
    decide
  · rw [accepted_iff rfl]
    have : checkTimestamp { lt := some ⟨18446744073, 709551616⟩, gt := some ⟨0, 0⟩ } = false := by
      decide +kernel
    simp [checkTypeRules, this]

/-- C34's hypotheses are met. -/
example : Accepted (fun _ => true) (tsField { gtNow := some true, within := some ⟨1, 0⟩ }) ∧
    ¬ Accepted (fun _ => true) (tsField { gtNow := some true, ltNow := some true }) :=
  ⟨by unfold Accepted; decide, by unfold Accepted; decide⟩

/-! ### C35 -/

/-- **C35** With `defined_only`, accepted enum rules list only declared numbers in `in`. -/
theorem C35_enum (compiles : Bytes → Bool) (d : MsgDesc) (ha : AcceptedMsg compiles d)
    (hd : d.disabled = false) (f : FieldDesc) (hf : FieldOf d f) (vs : List Int)
    (m : Option MessageRules) (r : EnumRules) (h : RuleAt f (.one (.enum vs)) (.mk m (.enum r)))
    (hdef : r.definedOnly = some true) : ∀ i ∈ r.ins, i ∈ vs := by
  obtain ⟨y, hy, hc⟩ := ruleAt_type (accepted_of_msg ha hd hf) h
  simp only [checkTypeRules] at hc
  have hck : checkEnum y r = true := by cases hn : checkEnum y r <;> simp_all
  have hvs : y.enumValues = vs := by
    rcases hy with rfl | ⟨e, he, rfl⟩
    · rfl
    · cases he; rfl
  intro i hi
  have hlen : 0 < r.ins.length := List.length_pos_of_mem hi
  simp only [checkEnum, Bool.and_eq_true, hdef, optB, Option.getD_some, Bool.true_and, decide_eq_true_eq,
    gt_iff_lt, hlen, if_true, List.all_eq_true, hvs] at hck
  simpa using hck.2 i hi

/-- **C35** Accepted message rules are on singular message fields other than Any, Duration and
Timestamp, and `skip` is not combined with rules on a wrapped value. -/
theorem C35_message (compiles : Bytes → Bool) (d : MsgDesc) (ha : AcceptedMsg compiles d)
    (hd : d.disabled = false) (f : FieldDesc) (hf : FieldOf d f) (m : MessageRules) (tr : TypeRules)
    (hr : f.rules = .mk (some m) tr) :
    (∃ n w, f.typ = .one (.embed n w) ∧ w ≠ some .any ∧ w ≠ some .duration ∧ w ≠ some .timestamp) ∧
    (m.skip = some true → tr = .unset) := by
  have hc := accepted_of_msg ha hd hf
  unfold Accepted checkField at hc
  simp only [hr, FieldRules.message, Option.isSome_some, Bool.true_and] at hc
  split at hc
  · exact absurd rfl hc
  · rename_i hh
    simp only [Bool.not_eq_true', Bool.not_eq_false, Bool.and_eq_true, checkMessage] at hh
    obtain ⟨-, ⟨h1, h2⟩, h3⟩ := hh
    constructor
    · cases ht : f.typ with
      | one e =>
        rw [ht] at h1 h2
        cases e with
        | embed n w =>
          refine ⟨n, w, rfl, ?_, ?_, ?_⟩ <;> (rintro rfl; simp [Ty.embed] at h2)
        | _ => simp [Ty.isEmbed, ElemT.isEmbed] at h1
      | rep e => rw [ht] at h1; simp [Ty.isEmbed] at h1
      | map k v => rw [ht] at h1; simp [Ty.isEmbed] at h1
    · intro hs
      simp only [hs, FieldRules.type, FieldRules.message, msgSkip, optB, Option.getD_some, Bool.and_true] at h3
      cases tr <;> simp at h3 ⊢

/-- **C35** Accepted `unique` is on lists of non-messages, accepted `no_sparse` on maps with message
values, and repeated and map rules never appear inside item, key or value rules. -/
theorem C35_collections (compiles : Bytes → Bool) (d : MsgDesc) (ha : AcceptedMsg compiles d)
    (hd : d.disabled = false) (f : FieldDesc) (hf : FieldOf d f) (t : FieldT) (m : Option MessageRules) :
    (∀ r items, RuleAt f t (.mk m (.repeated r items)) →
      (∃ e, f.typ = .rep e ∧ t = .rep e ∧ (r.unique = some true → ∀ n w, e ≠ .embed n w)) ∧
      f.rules = .mk m (.repeated r items)) ∧
    (∀ r keys values, RuleAt f t (.mk m (.map r keys values)) →
      (∃ k v, f.typ = .map k v ∧ t = .map k v ∧ (r.noSparse = some true → ∃ n w, v = .embed n w)) ∧
      f.rules = .mk m (.map r keys values)) := by
  have hacc := accepted_of_msg ha hd hf
  constructor
  · intro r items h
    obtain ⟨y, hy, hc⟩ := ruleAt_type hacc h
    have hy' : y = .field t := by
      rcases hy with rfl | ⟨e, rfl, rfl⟩
      · rfl
      · simp [checkTypeRules] at hc
    subst hy'
    have htop : t = f.typ ∧ FieldRules.mk m (.repeated r items) = f.rules := by
      generalize hg : FieldRules.mk m (.repeated r items) = rr at h
      cases h with
      | top => exact ⟨rfl, rfl⟩
      | item _ | key _ | value _ => simp [checkTypeRules] at hc
    obtain ⟨h1, h2⟩ := htop
    refine ⟨?_, h2.symm⟩
    cases t with
    | rep e =>
      refine ⟨e, h1.symm, rfl, ?_⟩
      rintro hu n w rfl
      simp [checkTypeRules, hu, optB, ElemT.isEmbed] at hc
    | one e => simp [checkTypeRules] at hc
    | map k v => simp [checkTypeRules] at hc
  · intro r keys values h
    obtain ⟨y, hy, hc⟩ := ruleAt_type hacc h
    have hy' : y = .field t := by
      rcases hy with rfl | ⟨e, rfl, rfl⟩
      · rfl
      · simp [checkTypeRules] at hc
    subst hy'
    have htop : t = f.typ ∧ FieldRules.mk m (.map r keys values) = f.rules := by
      generalize hg : FieldRules.mk m (.map r keys values) = rr at h
      cases h with
      | top => exact ⟨rfl, rfl⟩
      | item _ | key _ | value _ => simp [checkTypeRules] at hc
    obtain ⟨h1, h2⟩ := htop
    refine ⟨?_, h2.symm⟩
    cases t with
    | map k v =>
      refine ⟨k, v, h1.symm, rfl, ?_⟩
      intro hu
      cases v with
      | embed n w => exact ⟨n, w, rfl⟩
      | _ => simp [checkTypeRules, hu, optB, ElemT.isEmbed] at hc
    | one e => simp [checkTypeRules] at hc
    | rep e => simp [checkTypeRules] at hc

/-- C35's hypotheses are met. -/
example :
    AcceptedMsg (fun _ => true) { name := "T", fields :=
      [{ name := "L", typ := .rep (.enum [0, 1, 4]),
         rules := .mk none (.repeated { unique := some true }
           (.mk none (.enum { definedOnly := some true, ins := [1, 4] }))) },
       { name := "N", typ := .one (.embed "T" none), rules := .mk (some { required := some true }) .unset }] } := by
  unfold AcceptedMsg; decide

/-! ### C36 -/

/-- The range rules that no value of a kind with the range from `lo` to `hi` satisfies: nothing is
below the smallest value, nothing above the largest, and nothing between neighbours. -/
inductive NothingIn (lo hi : Int) : (lt lte gt gte : Option Int) → Prop where
  | below : NothingIn lo hi (some lo) none none none
  | above : NothingIn lo hi none none (some hi) none
  | outside : NothingIn lo hi (some lo) none (some hi) none
  | between (a : Int) : NothingIn lo hi (some (a + 1)) none (some a) none

/-- **C36, partial** Accepted range rules on an integer field, with bounds that the kind can hold,
admit a value of the kind, except in the four cases of `NothingIn`, where they admit none. Missing:
those cases, which are accepted too, see `C36_empty_range` and `C36_nothing_below`. -/
theorem C36_satisfiable_partial (E : Env) (S : Schema) (typ : String) (f : FieldDesc)
    (h : OnlyField S typ f) (k : NumKind) (lt lte gt gte : Option Int)
    (hT : f.typ = .one (.scalar k)) (hr : f.rules = .mk none (.num k
      { lt := lt.map .int, lte := lte.map .int, gt := gt.map .int, gte := gte.map .int }))
    (hc : Checked f)
    (hin : ∀ b, lt = some b ∨ lte = some b ∨ gt = some b ∨ gte = some b →
      (kindRange k).1 ≤ b ∧ b ≤ (kindRange k).2) :
    (∃ x : Int, (kindRange k).1 ≤ x ∧ x ≤ (kindRange k).2 ∧ Accepts E S typ f (.sc (.num (.int x)))) ↔
      ¬ NothingIn (kindRange k).1 (kindRange k).2 lt lte gt gte := by
  have hlo : (kindRange k).1 ≤ (kindRange k).2 := by cases k <;> decide
  have hck := checked_num hc (k := k) (by rw [hr]; rfl)
  rw [checkNum_iff] at hck
  generalize hrr : ({ lt := lt.map .int, lte := lte.map .int, gt := gt.map .int, gte := gte.map .int } :
    NumRules) = r at hr hck
  have e1 : r.lt = lt.map .int := by rw [← hrr]
  have e2 : r.lte = lte.map .int := by rw [← hrr]
  have e3 : r.gt = gt.map .int := by rw [← hrr]
  have e4 : r.gte = gte.map .int := by rw [← hrr]
  have ho : RangeOnly r := by rw [← hrr]; exact ⟨rfl, rfl, rfl, by simp⟩
  have hb : IntBounds r := by
    intro b hb
    rw [e1, e2, e3, e4] at hb
    simp only [Option.map_eq_some_iff] at hb
    rcases hb with ⟨i, -, rfl⟩ | ⟨i, -, rfl⟩ | ⟨i, -, rfl⟩ | ⟨i, -, rfl⟩ <;> exact ⟨i, rfl⟩
  have hex : ∀ x : Int, Accepts E S typ f (.sc (.num (.int x))) ↔
      (¬ Inverted r → BelowUpper r x ∧ AboveLower r x) ∧ (Inverted r → BelowUpper r x ∨ AboveLower r x) := by
    intro x
    have := C10_int_range E S typ f h k none r hT hr hc ho hb x
    by_cases hi : Inverted r
    · rw [this.2 hi]; simp [hi]
    · rw [this.1 hi]; simp [hi]
  simp only [hex]
  have hup := hck.oneUpper
  have hlow := hck.oneLower
  have hap := hck.apart
  rw [e1, e2] at hup
  rw [e3, e4] at hlow
  have hbl : ∀ x, BelowUpper r x ↔ (∀ b, lt = some b → x < b) ∧ (∀ b, lte = some b → x ≤ b) := by
    intro x; unfold BelowUpper; rw [e1, e2]; simp
  have hab : ∀ x, AboveLower r x ↔ (∀ b, gt = some b → b < x) ∧ (∀ b, gte = some b → b ≤ x) := by
    intro x; unfold AboveLower; rw [e3, e4]; simp
  have hinv : Inverted r ↔ ∃ u l, (lt = some u ∨ lte = some u) ∧ (gt = some l ∨ gte = some l) ∧ u < l := by
    unfold Inverted; rw [e1, e2, e3, e4]; simp
  have hap' : ∀ u l : Int, (lt = some u ∨ lte = some u) → (gt = some l ∨ gte = some l) → u ≠ l := by
    rintro u l hu hl rfl
    exact hap (.int u) (.int u) (by rw [e1, e2]; simpa using hu) (by rw [e3, e4]; simpa using hl) ⟨u, rfl, rfl⟩
  simp only [hbl, hab, hinv]
  generalize kindRange k = K at *
  obtain ⟨lo, hi⟩ := K
  simp only at *
  clear hap hinv hab hbl hb ho e1 e2 e3 e4 hrr hck hr hT hc h hex
  have wit : ∀ {P : Int → Prop} {N : Prop}, (¬ N → ∃ x, P x) → (N → ∀ x, ¬ P x) → ((∃ x, P x) ↔ ¬ N) :=
    fun h1 h2 => ⟨fun ⟨x, hx⟩ hn => h2 hn x hx, h1⟩
  apply wit
  · intro hn
    cases lt with
    | some u =>
      have : lte = none := by simpa using hup
      subst this
      have := hin u (by simp)
      cases gt with
      | some l =>
        have : gte = none := by simpa using hlow
        subst this
        have := hin l (by simp)
        have := hap' u l (by simp) (by simp)
        have hb' : u ≠ l + 1 := fun e => hn (by rw [e]; exact .between l)
        have ho' : ¬ (u = lo ∧ l = hi) := by rintro ⟨rfl, rfl⟩; exact hn .outside
        by_cases hul : u < l
        · by_cases hu : u = lo
          · exact ⟨hi, by omega, by omega, by simp; omega, by simp; omega⟩
          · exact ⟨lo, by omega, by omega, by simp; omega, by simp; omega⟩
        · exact ⟨l + 1, by omega, by omega, by simp; omega, by simp; omega⟩
      | none =>
        cases gte with
        | some l =>
          have := hin l (by simp)
          have := hap' u l (by simp) (by simp)
          exact ⟨l, by omega, by omega, by simp <;> omega, by simp <;> omega⟩
        | none =>
          have : u ≠ lo := by rintro rfl; exact hn .below
          exact ⟨lo, by omega, by omega, by simp; omega, by simp⟩
    | none =>
      cases lte with
      | some u =>
        have := hin u (by simp)
        cases gt with
        | some l =>
          have : gte = none := by simpa using hlow
          subst this
          have := hin l (by simp)
          have := hap' u l (by simp) (by simp)
          exact ⟨u, by omega, by omega, by simp <;> omega, by simp <;> omega⟩
        | none =>
          cases gte with
          | some l =>
            have := hin l (by simp)
            have := hap' u l (by simp) (by simp)
            exact ⟨u, by omega, by omega, by simp <;> omega, by simp <;> omega⟩
          | none => exact ⟨lo, by omega, by omega, by simp; omega, by simp⟩
      | none =>
        cases gt with
        | some l =>
          have : gte = none := by simpa using hlow
          subst this
          have := hin l (by simp)
          have : l ≠ hi := by rintro rfl; exact hn .above
          exact ⟨hi, by omega, by omega, by simp; omega, by simp⟩
        | none =>
          cases gte with
          | some l =>
            have := hin l (by simp)
            exact ⟨hi, by omega, by omega, by simp; omega, by simp⟩
          | none => exact ⟨lo, by omega, by omega, by simp, by simp⟩
  · rintro (_ | _ | _ | _) x ⟨hx1, hx2, hx3, hx4⟩ <;> simp at hx3 hx4 <;> omega

/-- An integer field with range rules. -/
def rangeField (k : NumKind) (r : NumRules) : FieldDesc := Fixtures.fieldOf (.scalar k) (.num k r)

/-- **C36, negation** `gt: 5, lt: 6` is accepted and admits no value. -/
theorem C36_empty_range (E : Env) (k : NumKind) :
    let f := rangeField k { gt := some (.int 5), lt := some (.int 6) }
    Checked f ∧ ∀ x : Int, ¬ Accepts E (Fixtures.only f) "M" f (.sc (.num (.int x))) := by
  have hc : Checked (rangeField k { gt := some (.int 5), lt := some (.int 6) }) := by
    unfold Checked; cases k <;> decide
  refine ⟨hc, fun x => ?_⟩
  have hb : IntBounds { gt := some (.int 5), lt := some (.int 6) } := by
    rintro b (h | h | h | h) <;> simp_all <;> exact ⟨_, h.symm⟩
  have := (C10_int_range E _ "M" _ (Fixtures.only_field _) k none _ rfl rfl hc ⟨rfl, rfl, rfl, by simp⟩ hb x).1
    (by rintro ⟨u, l, hu, hl, hul⟩; simp at hu hl; omega)
  rw [rangeField] at *
  rw [this]
  simp [BelowUpper, AboveLower]
  omega

/-- **C36, negation** `lt: 0` on an unsigned field is accepted and admits no unsigned value. -/
theorem C36_nothing_below (E : Env) (k : NumKind) (_hk : k ∈ [NumKind.uint32, .uint64, .fixed32, .fixed64]) :
    let f := rangeField k { lt := some (.int 0) }
    Checked f ∧ ∀ x : Int, 0 ≤ x → ¬ Accepts E (Fixtures.only f) "M" f (.sc (.num (.int x))) := by
  have hc : Checked (rangeField k { lt := some (.int 0) }) := by
    unfold Checked; cases k <;> decide
  refine ⟨hc, fun x hx => ?_⟩
  have hb : IntBounds { lt := some (.int 0) } := by
    rintro b (h | h | h | h) <;> simp_all <;> exact ⟨_, h.symm⟩
  have := (C10_int_range E _ "M" _ (Fixtures.only_field _) k none _ rfl rfl hc ⟨rfl, rfl, rfl, by simp⟩ hb x).1
    (by rintro ⟨u, l, hu, hl, hul⟩; simp at hu hl)
  rw [rangeField] at *
  rw [this]
  simp [BelowUpper, AboveLower]
  omega

/-- C36's hypotheses are met. -/
example : Checked (rangeField .int32 { gt := some (.int 5), lt := some (.int 7) }) :=
  by unfold Checked; decide

end PGV.Props
