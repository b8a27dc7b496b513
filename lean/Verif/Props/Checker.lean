import Verif.Lemmas.Position
import Verif.Lemmas.Times
import Verif.Props.WellKnown
import Verif.Props.Strings

/-!
C30-C36: the rule checks of the generator.
-/

set_option linter.unusedSimpArgs false

namespace PGV.Props
open PGV PGV.Go PGV.Spec PGV.Checker

/-- Acceptance of a field without message rules is acceptance of its rules. -/
theorem accepted_iff {c : Bytes → Bool} {f : FieldDesc} {tr : TypeRules} (hr : f.rules = .mk none tr) :
    Accepted c f ↔ checkTypeRules c (.field f.typ) tr ≠ none := by
  unfold Accepted checkField
  simp [hr, FieldRules.message, checkFieldRules]

/-! ### C30 -/

/-- **C30** On a field (or wrapper field) of the right numeric kind, numeric rules are accepted
exactly when they are consistent. -/
theorem C30_numeric (compiles : Bytes → Bool) (f : FieldDesc) (k : NumKind) (r : NumRules)
    (hr : f.rules = .mk none (.num k r)) (hT : Suits f.typ (.num k r)) :
    Accepted compiles f ↔ NumConsistent r := by
  rw [accepted_iff hr, ← checkNum_iff]
  simp only [checkTypeRules]
  rw [(mustType_num (.inl rfl) k).2 hT]
  cases checkNum r <;> simp

/-- **C30** Inside accepted rules, at any depth, numeric rules are consistent. -/
theorem C30_nested (compiles : Bytes → Bool) (d : MsgDesc) (ha : AcceptedMsg compiles d)
    (hd : d.disabled = false) (f : FieldDesc) (hf : FieldOf d f) (t : FieldT)
    (m : Option MessageRules) (k : NumKind) (r : NumRules) (h : RuleAt f t (.mk m (.num k r))) :
    NumConsistent r := by
  obtain ⟨y, -, hc⟩ := ruleAt_type (accepted_of_msg ha hd hf) h
  rw [← checkNum_iff]
  simp only [checkTypeRules] at hc
  cases hn : checkNum r <;> simp_all

/-- A map field with rules on keys and on values. -/
def mapField : FieldDesc :=
  { name := "M", typ := .map .string (.scalar .int32),
    rules := .mk none (.map { minPairs := some 1 } (.mk none (.string { minLen := some 2, maxLen := some 4 }))
      (.mk none (.num .int32 { gte := some (.int 1), lt := some (.int 9) }))) }

/-- C30_nested applies to the values of a map. -/
example : AcceptedMsg (fun _ => true) { name := "T", fields := [mapField] } ∧
    RuleAt mapField (.one (.scalar .int32))
      (.mk none (.num .int32 { gte := some (.int 1), lt := some (.int 9) })) :=
  ⟨by unfold AcceptedMsg; decide, .value .top⟩

/-- C30 distinguishes: with equal bounds of different strictness the rules are refused. -/
example : ¬ NumConsistent { gt := some (.int 5), lte := some (.int 5) } := fun h =>
  h.apart (.int 5) (.int 5) (by simp) (by simp) ⟨5, rfl, rfl⟩

/-! ### C31 -/

/-- The rule kinds whose type the generator does not look at. -/
def Unchecked : TypeRules → Prop
  | .any _ | .duration _ | .timestamp _ => True
  | _ => False

/-- **C31, partial** If the generator accepts a message then, at every depth, rules other than Any,
Duration and Timestamp rules are on values of the right type. Missing: those three, see
`C31_wrong_type_accepted`. -/
theorem C31_types_partial (compiles : Bytes → Bool) (d : MsgDesc) (ha : AcceptedMsg compiles d)
    (hd : d.disabled = false) (f : FieldDesc) (hf : FieldOf d f) (t : FieldT)
    (m : Option MessageRules) (tr : TypeRules) (h : RuleAt f t (.mk m tr)) (hk : ¬ Unchecked tr) :
    Suits t tr := by
  obtain ⟨y, hy, hc⟩ := ruleAt_type (accepted_of_msg ha hd hf) h
  cases tr with
  | unset => trivial
  | num k r =>
    refine (mustType_num hy k).1 ?_
    simp only [checkTypeRules] at hc
    cases hn : mustType y (.num k) (wrapperOf k) <;> simp_all
  | bool r =>
    refine (mustType_bool hy).1 ?_
    simp only [checkTypeRules] at hc
    split at hc <;> simp_all
  | string r =>
    refine (mustType_string hy).1 ?_
    simp only [checkTypeRules] at hc
    split at hc <;> simp_all
  | bytes r =>
    refine (mustType_bytes hy).1 ?_
    simp only [checkTypeRules] at hc
    cases hn : mustType y .bytes (some .bytesValue) <;> simp_all
  | enum r =>
    refine (mustType_enum hy).1 ?_
    simp only [checkTypeRules] at hc
    cases hn : mustType y .enum none <;> simp_all
  | repeated r items =>
    rcases hy with rfl | ⟨e, rfl, rfl⟩
    · cases t <;> simp [checkTypeRules] at hc
      exact ⟨_, rfl⟩
    · simp [checkTypeRules] at hc
  | map r keys values =>
    rcases hy with rfl | ⟨e, rfl, rfl⟩
    · cases t <;> simp [checkTypeRules] at hc
      exact ⟨_, _, rfl⟩
    · simp [checkTypeRules] at hc
  | any r => exact absurd trivial hk
  | duration r => exact absurd trivial hk
  | timestamp r => exact absurd trivial hk

/-- **C31, negation** Any, Duration and Timestamp rules are accepted on fields of every type. -/
theorem C31_wrong_type_accepted (compiles : Bytes → Bool) (t : FieldT) :
    (∀ r : AnyRules, r.notIns = [] →
      Accepted compiles { name := "F", typ := t, rules := .mk none (.any r) }) ∧
    (∀ lt : PDur, ValidDuration lt →
      Accepted compiles { name := "F", typ := t, rules := .mk none (.duration { lt := some lt }) }) ∧
    (∀ lt : PTime, ValidTimestamp lt →
      Accepted compiles { name := "F", typ := t, rules := .mk none (.timestamp { lt := some lt }) }) := by
  refine ⟨fun r hr => ?_, fun lt hv => ?_, fun lt hv => ?_⟩
  · rw [accepted_iff rfl]
    simp [checkTypeRules, checkIns, hr]
  · rw [accepted_iff rfl]
    rw [← valid_iff] at hv
    simp [checkTypeRules, checkDuration, checkNums, checkIns, durOk, hv]
  · rw [accepted_iff rfl]
    rw [← tsValid_iff] at hv
    simp [checkTypeRules, checkTimestamp, checkNums, checkIns, durOk, tsOk, hv]

/-- C31 covers item rules; and wrong types do occur in its negation. -/
example : ¬ Suits (.one .string) (.any { required := some true }) ∧
    RuleAt mapField (.one .string) (.mk none (.string { minLen := some 2, maxLen := some 4 })) :=
  ⟨by simp [Suits], .key .top⟩

/-! ### C32 -/

theorem checkMinMax_iff (a b : Option Nat) : checkMinMax a b = true ↔ Ordered a b := by
  cases a <;> cases b <;> simp [checkMinMax, Ordered]

theorem checkLen_iff (l a b : Option Nat) : checkLen l a b = true ↔ Exclusive l a b := by
  cases l <;> simp [checkLen, Exclusive]

theorem toInt_le (m : Nat) : toInt m ≤ m := by
  unfold toInt wrap64
  rw [Int.bmod_def]
  omega

theorem toInt_small {m : Nat} (h : m < 9223372036854775808) : toInt m = m := by
  unfold toInt wrap64
  rw [Int.bmod_def]
  omega

theorem charsAtMost {p : Bytes} {m : Nat} (h : (runeCount p : Int) ≤ toInt m) : CharsAtMost p m := by
  intro cs hcs hp
  have h1 := toInt_le m
  rw [hp, show runeCount (utf8 cs) = cs.length from by
    unfold runeCount utf8; rw [runes_encode cs hcs]] at h
  omega

/-- **C32** Accepted string rules, at any depth: minima do not exceed maxima, exact lengths are not
combined with limits, and prefix, suffix and `contains` are no longer than the maxima. -/
theorem C32_string (compiles : Bytes → Bool) (d : MsgDesc) (ha : AcceptedMsg compiles d)
    (hd : d.disabled = false) (f : FieldDesc) (hf : FieldOf d f) (t : FieldT)
    (m : Option MessageRules) (r : StringRules) (h : RuleAt f t (.mk m (.string r))) :
    Ordered r.minLen r.maxLen ∧ Ordered r.minBytes r.maxBytes ∧
    Exclusive r.len r.minLen r.maxLen ∧ Exclusive r.lenBytes r.minBytes r.maxBytes ∧
    (∀ p, r.pfx = some p ∨ r.sfx = some p ∨ r.contains = some p →
      (∀ k, r.maxLen = some k → CharsAtMost p k) ∧ (∀ k, r.maxBytes = some k → p.length ≤ k)) := by
  obtain ⟨y, -, hc⟩ := ruleAt_type (accepted_of_msg ha hd hf) h
  simp only [checkTypeRules] at hc
  split at hc
  · have hc : checkString compiles r ≠ none := fun hn => by simp [hn] at hc
    unfold checkString at hc
    split at hc
    · rename_i hh
      simp only [Bool.and_eq_true, checkLen_iff, checkMinMax_iff] at hh
      obtain ⟨⟨⟨⟨h1, h2⟩, h3⟩, h4⟩, -⟩ := hh
      refine ⟨h3, h4, h1, h2, ?_⟩
      have hsame : ∀ r', checkWellKnownRegex r = some r' → r'.maxLen = r.maxLen ∧ r'.maxBytes = r.maxBytes ∧
          r'.pfx = r.pfx ∧ r'.sfx = r.sfx ∧ r'.contains = r.contains := by
        intro r' hr'
        unfold checkWellKnownRegex at hr'
        split at hr'
        · cases hr'; simp
        · split at hr'
          · cases hr'
          · simp only at hr'
            split at hr' <;> (cases hr'; simp)
      cases hr' : checkWellKnownRegex r with
      | none => simp [hr'] at hc
      | some r' =>
        obtain ⟨e1, e2, e3, e4, e5⟩ := hsame r' hr'
        simp only [hr', ne_eq, ite_eq_right_iff, reduceCtorEq, imp_false, Classical.not_not] at hc
        simp only [Bool.and_eq_true, e1, e2, e3, e4, e5] at hc
        obtain ⟨⟨-, hl⟩, hb⟩ := hc
        intro p hp
        constructor
        · intro k hk
          simp only [hk, Bool.and_eq_true, decide_eq_true_eq] at hl
          apply charsAtMost
          rcases hp with hp | hp | hp <;> simp only [hp, optS, Option.getD_some] at hl
          · exact hl.1.1.1
          · exact hl.1.1.2
          · exact hl.1.2
        · intro k hk
          have h1 := toInt_le k
          simp only [hk, Bool.and_eq_true, decide_eq_true_eq] at hb
          rcases hp with hp | hp | hp <;> simp only [hp, optS, Option.getD_some] at hb <;> omega
    · exact absurd rfl hc
  · exact absurd rfl hc

/-- **C32, partial** Accepted bytes rules. Missing: an exact length may be combined with limits, see
`C32_bytes_len_not_exclusive`. -/
theorem C32_bytes_partial (compiles : Bytes → Bool) (d : MsgDesc) (ha : AcceptedMsg compiles d)
    (hd : d.disabled = false) (f : FieldDesc) (hf : FieldOf d f) (t : FieldT)
    (m : Option MessageRules) (r : BytesRules) (h : RuleAt f t (.mk m (.bytes r))) :
    Ordered r.minLen r.maxLen ∧
    (∀ p, r.pfx = some p ∨ r.sfx = some p ∨ r.contains = some p →
      ∀ k, r.maxLen = some k → p.length ≤ k) := by
  obtain ⟨y, -, hc⟩ := ruleAt_type (accepted_of_msg ha hd hf) h
  simp only [checkTypeRules] at hc
  have hb : checkBytes compiles r = true := by
    cases hn : checkBytes compiles r <;> simp_all
  simp only [checkBytes, Bool.and_eq_true, checkMinMax_iff] at hb
  refine ⟨hb.1.1.1, ?_⟩
  intro p hp k hk
  have hb := hb.2
  have h1 := toInt_le k
  simp only [hk, Bool.and_eq_true, decide_eq_true_eq] at hb
  rcases hp with hp | hp | hp <;> simp only [hp, optS, Option.getD_some] at hb <;> omega

/-- **C32, negation** Bytes rules with an exact length and a contradicting minimum are accepted. -/
theorem C32_bytes_len_not_exclusive (compiles : Bytes → Bool) :
    let f := Fixtures.fieldOf .bytes (.bytes { len := some 4, minLen := some 9 })
    Accepted compiles f ∧ ¬ Exclusive (some 4) (some 9) none := by
  refine ⟨?_, by simp [Exclusive]⟩
  rw [accepted_iff rfl]
  show checkTypeRules compiles (.field (.one .bytes)) _ ≠ none
  simp [checkTypeRules, checkBytes, checkMinMax, checkIns, checkPattern, mustType, Ty.embed, Ty.isRepeated,
    Ty.protoType, ElemT.protoType]

/-- **C32** Accepted repeated and map rules: the minimum does not exceed the maximum. -/
theorem C32_counts (compiles : Bytes → Bool) (d : MsgDesc) (ha : AcceptedMsg compiles d)
    (hd : d.disabled = false) (f : FieldDesc) (hf : FieldOf d f) (t : FieldT)
    (m : Option MessageRules) :
    (∀ r items, RuleAt f t (.mk m (.repeated r items)) → Ordered r.minItems r.maxItems) ∧
    (∀ r keys values, RuleAt f t (.mk m (.map r keys values)) → Ordered r.minPairs r.maxPairs) := by
  constructor
  · intro r items h
    obtain ⟨y, hy, hc⟩ := ruleAt_type (accepted_of_msg ha hd hf) h
    simp only [checkTypeRules] at hc
    rw [← checkMinMax_iff]
    split at hc
    · cases hn : checkMinMax r.minItems r.maxItems <;> simp_all
    · exact absurd rfl hc
  · intro r keys values h
    obtain ⟨y, hy, hc⟩ := ruleAt_type (accepted_of_msg ha hd hf) h
    simp only [checkTypeRules] at hc
    rw [← checkMinMax_iff]
    split at hc
    · cases hn : checkMinMax r.minPairs r.maxPairs <;> simp_all
    · exact absurd rfl hc

/-- **C32** Conversely, on a string field, rules on lengths and affixes only, with limits that fit
an int64 and `max_len` not above `max_bytes`, are accepted when they satisfy these conditions. -/
theorem C32_string_complete (compiles : Bytes → Bool) (f : FieldDesc) (r : StringRules)
    (hr : f.rules = .mk none (.string r)) (hT : Suits f.typ (.string r))
    (hp : r.pattern = none) (hw : r.wellKnown = none) (hi : r.ins = [])
    (h1 : Ordered r.minLen r.maxLen) (h2 : Ordered r.minBytes r.maxBytes)
    (h3 : Exclusive r.len r.minLen r.maxLen) (h4 : Exclusive r.lenBytes r.minBytes r.maxBytes)
    (h5 : ∀ p, r.pfx = some p ∨ r.sfx = some p ∨ r.contains = some p →
      (∀ k, r.maxLen = some k → runeCount p ≤ k) ∧ (∀ k, r.maxBytes = some k → p.length ≤ k))
    (h6 : ∀ k, r.maxLen = some k ∨ r.maxBytes = some k → k < 9223372036854775808)
    (h7 : Ordered r.maxLen r.maxBytes) : Accepted compiles f := by
  rw [accepted_iff hr]
  simp only [checkTypeRules]
  rw [(mustType_string (.inl rfl)).2 hT]
  simp only [if_true]
  have hwk : checkWellKnownRegex r = some r := by
    simp [checkWellKnownRegex, StringRules.getRegex, hw]
  have aff : ∀ o : Option Bytes, (o = r.pfx ∨ o = r.sfx ∨ o = r.contains) →
      (∀ k, r.maxLen = some k → (runeCount (optS o) : Int) ≤ toInt k) ∧
      (∀ k, r.maxBytes = some k → ((optS o).length : Int) ≤ toInt k) := by
    intro o ho
    cases o with
    | none =>
      constructor
      · intro k hk; rw [toInt_small (h6 k (.inl hk))]; simp [optS, runeCount, runes_nil]
      · intro k hk; rw [toInt_small (h6 k (.inr hk))]; simp [optS]
    | some p =>
      have hp := h5 p (by rcases ho with h | h | h <;> simp [← h])
      constructor
      · intro k hk; rw [toInt_small (h6 k (.inl hk))]; have := hp.1 k hk; simp only [optS, Option.getD_some]; omega
      · intro k hk; rw [toInt_small (h6 k (.inr hk))]; have := hp.2 k hk; simp only [optS, Option.getD_some]; omega
  have a1 := aff r.pfx (.inl rfl)
  have a2 := aff r.sfx (.inr (.inl rfl))
  have a3 := aff r.contains (.inr (.inr rfl))
  have e1 : (checkLen r.len r.minLen r.maxLen && checkLen r.lenBytes r.minBytes r.maxBytes &&
      checkMinMax r.minLen r.maxLen && checkMinMax r.minBytes r.maxBytes &&
      checkIns r.ins.length r.notIns.length) = true := by
    simp only [Bool.and_eq_true, checkLen_iff, checkMinMax_iff]
    exact ⟨⟨⟨⟨h3, h4⟩, h1⟩, h2⟩, by simp [checkIns, hi]⟩
  have : checkString compiles r = some r := by
    unfold checkString
    rw [if_pos e1, hwk]
    simp only
    rw [if_pos]
    simp only [checkPattern, hp, Bool.true_and, Bool.and_eq_true]
    constructor
    · cases hm : r.maxLen with
      | none => rfl
      | some k =>
        simp only [Bool.and_eq_true, decide_eq_true_eq]
        refine ⟨⟨⟨a1.1 k hm, a2.1 k hm⟩, a3.1 k hm⟩, ?_⟩
        cases hb : r.maxBytes with
        | none => rfl
        | some b => simpa using h7 k b hm hb
    · cases hm : r.maxBytes with
      | none => rfl
      | some k =>
        simp only [Bool.and_eq_true, decide_eq_true_eq]
        exact ⟨⟨a1.2 k hm, a2.2 k hm⟩, a3.2 k hm⟩
  simp [this]

/-- **C32** A maximum of 2^63 or more is refused, even without prefix, suffix or `contains`: the
conversion to `int` makes it negative. -/
theorem C32_huge_refused (compiles : Bytes → Bool) (f : FieldDesc) (r : StringRules) (k : Nat)
    (hr : f.rules = .mk none (.string r)) (hk : 9223372036854775808 ≤ k)
    (hk' : k < 18446744073709551616) (hm : r.maxLen = some k) : ¬ Accepted compiles f := by
  rw [accepted_iff hr]
  have hneg : toInt k < 0 := by
    unfold toInt wrap64; rw [Int.bmod_def]; omega
  have : checkString compiles r = none := by
    unfold checkString
    split
    · split
      · rfl
      · rename_i r' hr'
        have e1 : r'.maxLen = r.maxLen := by
          unfold checkWellKnownRegex at hr'
          split at hr'
          · cases hr'; rfl
          · split at hr'
            · cases hr'
            · simp only at hr'
              split at hr' <;> (cases hr'; rfl)
        rw [if_neg]
        simp only [e1, hm, Bool.and_eq_true, decide_eq_true_eq]
        omega
    · rfl
  simp [checkTypeRules, this]

/-- The hypotheses of C32_string are met. -/
example : AcceptedMsg (fun _ => true) { name := "T", fields := [Fixtures.fieldOf .string (.string
    { minLen := some 2, maxLen := some 5, pfx := some (asc "ab"), maxBytes := some 9 })] } := by
  unfold AcceptedMsg; decide

end PGV.Props
