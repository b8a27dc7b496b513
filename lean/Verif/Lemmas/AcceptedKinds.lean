import Verif.Spec.Accepted
import Verif.Lemmas.StaticTables
import Verif.Props.Checks

/-!
Lemmas for the exact description of what the generator accepts: one per kind of rules.
-/

set_option linter.unusedSimpArgs false

namespace PGV.Props
open PGV PGV.Go PGV.Spec PGV.Checker

theorem toInt_le_iff {n m : Nat} (hm : m < 18446744073709551616) :
    ((n : Int) ≤ toInt m) ↔ m < 9223372036854775808 ∧ n ≤ m := by
  unfold toInt wrap64
  rw [Int.bmod_def]
  constructor <;> intro h <;> omega

theorem runeCount_le_iff {p : Bytes} (hp : ∃ cs : List Nat, (∀ c ∈ cs, CodePoint c) ∧ p = utf8 cs) (m : Nat) :
    runeCount p ≤ m ↔ CharsAtMost p m := by
  have hr : ∀ cs : List Nat, (∀ c ∈ cs, CodePoint c) → runeCount (utf8 cs) = cs.length := fun cs hcs => by
    unfold runeCount utf8; rw [runes_encode cs hcs]
  constructor
  · rintro h cs hcs rfl
    rw [hr cs hcs] at h; exact h
  · obtain ⟨cs, hcs, rfl⟩ := hp
    intro h
    rw [hr cs hcs]; exact h cs hcs rfl

theorem optS_le {p : Option Bytes} {m : Nat} : (optS p).length ≤ m ↔ ∀ x, p = some x → x.length ≤ m := by
  cases p <;> simp [optS]

theorem optS_runes {p : Option Bytes} {m : Nat} : runeCount (optS p) ≤ m ↔ ∀ x, p = some x → runeCount x ≤ m := by
  cases p <;> simp [optS, runeCount, runes_nil]

theorem affix_all {P : Bytes → Prop} {a b c : Option Bytes} :
    (∀ p, Affix p a b c → P p) ↔
      (∀ p, a = some p → P p) ∧ (∀ p, b = some p → P p) ∧ (∀ p, c = some p → P p) := by
  unfold Affix
  constructor
  · intro h; exact ⟨fun p hp => h p (.inl hp), fun p hp => h p (.inr (.inl hp)), fun p hp => h p (.inr (.inr hp))⟩
  · rintro ⟨h1, h2, h3⟩ p (h | h | h)
    · exact h1 p h
    · exact h2 p h
    · exact h3 p h

/-- The pattern after the well-known one has been written in. -/
theorem checkWellKnownRegex_iff (c : Bytes → Bool)
    (hc : ∀ p, p = httpHeaderName ∨ p = httpHeaderValue ∨ p = headerString → c p = true) (r : StringRules) :
    (∃ r', checkWellKnownRegex r = some r' ∧ checkPattern c r'.pattern r'.ins.length = true) ↔
      (∀ p, r.pattern = some p → c p = true ∧ r.ins = [] ∧ ¬ NamesRegex r) ∧ (NamesHeader r → r.ins = []) := by
  have h1 := hc _ (.inl rfl)
  have h2 := hc _ (.inr (.inl rfl))
  have h3 := hc _ (.inr (.inr rfl))
  unfold checkWellKnownRegex NamesRegex NamesHeader StringRules.getRegex
  have unk : ((∃ r', some r = some r' ∧ checkPattern c r'.pattern r'.ins.length = true) ↔
      (∀ p, r.pattern = some p → c p = true ∧ r.ins = [])) := by
    cases hp : r.pattern <;> simp [checkPattern, hp, List.length_eq_zero_iff, and_comm]
  cases hw : r.wellKnown with
  | none => simpa using unk
  | some w =>
    cases w with
    | regex k =>
      cases k with
      | unknown => simpa using unk
      | headerName =>
        cases hp : r.pattern with
        | some p => simp
        | none => by_cases hs : r.strict = some false <;> simp [hs, checkPattern, regexMap, h1, h2, h3]
      | headerValue =>
        cases hp : r.pattern with
        | some p => simp
        | none => by_cases hs : r.strict = some false <;> simp [hs, checkPattern, regexMap, h1, h2, h3]
      | other n =>
        cases hp : r.pattern with
        | some p => simp
        | none => simp [checkPattern, regexMap]
    | _ => simpa using unk

theorem checkWellKnownRegex_same {r r' : StringRules} (hr' : checkWellKnownRegex r = some r') :
    r'.maxLen = r.maxLen ∧ r'.maxBytes = r.maxBytes ∧ r'.pfx = r.pfx ∧ r'.sfx = r.sfx ∧ r'.contains = r.contains := by
  unfold checkWellKnownRegex at hr'
  split at hr'
  · cases hr'; simp
  · split at hr'
    · cases hr'
    · simp only at hr'
      split at hr' <;> (cases hr'; simp)

theorem checkString_iff (c : Bytes → Bool)
    (hc : ∀ p, p = httpHeaderName ∨ p = httpHeaderValue ∨ p = headerString → c p = true) (r : StringRules)
    (hp : ParsedRules (.string r)) : checkString c r ≠ none ↔ StringRulesOk c r := by
  have hwk := checkWellKnownRegex_iff c hc r
  obtain ⟨hu, ht⟩ := hp
  have split : checkString c r ≠ none ↔
      (checkLen r.len r.minLen r.maxLen && checkLen r.lenBytes r.minBytes r.maxBytes &&
      checkMinMax r.minLen r.maxLen && checkMinMax r.minBytes r.maxBytes &&
      checkIns r.ins.length r.notIns.length) = true ∧
      (∃ r', checkWellKnownRegex r = some r' ∧ checkPattern c r'.pattern r'.ins.length = true) ∧
      (∀ m, r.maxLen = some m → (runeCount (optS r.pfx) : Int) ≤ toInt m ∧
        (runeCount (optS r.sfx) : Int) ≤ toInt m ∧ (runeCount (optS r.contains) : Int) ≤ toInt m) ∧
      Ordered r.maxLen r.maxBytes ∧
      (∀ m, r.maxBytes = some m → ((optS r.pfx).length : Int) ≤ toInt m ∧
        ((optS r.sfx).length : Int) ≤ toInt m ∧ ((optS r.contains).length : Int) ≤ toInt m) := by
    unfold checkString
    generalize (checkLen r.len r.minLen r.maxLen && checkLen r.lenBytes r.minBytes r.maxBytes &&
      checkMinMax r.minLen r.maxLen && checkMinMax r.minBytes r.maxBytes &&
      checkIns r.ins.length r.notIns.length) = b
    cases b with
    | false => simp
    | true =>
      cases hr' : checkWellKnownRegex r with
      | none => simp
      | some r' =>
        obtain ⟨e1, e2, e3, e4, e5⟩ := checkWellKnownRegex_same hr'
        simp only [e1, e2, e3, e4, e5, if_true, true_and, Option.some.injEq, exists_eq_left']
        unfold Ordered
        cases r.maxLen <;> cases r.maxBytes <;> simp [and_assoc]
  rw [split, hwk]
  simp only [Bool.and_eq_true, checkLen_iff, checkMinMax_iff, checkIns_iff, List.length_eq_zero_iff]
  have mx : (∀ m, r.maxLen = some m → (runeCount (optS r.pfx) : Int) ≤ toInt m ∧
        (runeCount (optS r.sfx) : Int) ≤ toInt m ∧ (runeCount (optS r.contains) : Int) ≤ toInt m) ↔
      (∀ k, r.maxLen = some k → k < 9223372036854775808) ∧
      (∀ p, Affix p r.pfx r.sfx r.contains → ∀ k, r.maxLen = some k → CharsAtMost p k) := by
    have hrc : ∀ k, (∀ p, Affix p r.pfx r.sfx r.contains → runeCount p ≤ k) ↔
        (∀ p, Affix p r.pfx r.sfx r.contains → CharsAtMost p k) :=
      fun k => forall_congr' fun p => forall_congr' fun hp => runeCount_le_iff (ht p hp) k
    constructor
    · intro h
      refine ⟨fun k hk => ((toInt_le_iff (hu k (.inl hk))).1 (h k hk).1).1, fun p hp k hk => ?_⟩
      refine (hrc k).1 (affix_all.2 ?_) p hp
      have := h k hk
      simp only [toInt_le_iff (hu k (.inl hk)), optS_runes] at this
      exact ⟨this.1.2, this.2.1.2, this.2.2.2⟩
    · rintro ⟨h1, h2⟩ k hk
      have := affix_all.1 ((hrc k).2 fun p hp => h2 p hp k hk)
      simp only [toInt_le_iff (hu k (.inl hk)), optS_runes]
      exact ⟨⟨h1 k hk, this.1⟩, ⟨h1 k hk, this.2.1⟩, ⟨h1 k hk, this.2.2⟩⟩
  have mb : (∀ m, r.maxBytes = some m → ((optS r.pfx).length : Int) ≤ toInt m ∧
        ((optS r.sfx).length : Int) ≤ toInt m ∧ ((optS r.contains).length : Int) ≤ toInt m) ↔
      (∀ k, r.maxBytes = some k → k < 9223372036854775808) ∧
      (∀ p, Affix p r.pfx r.sfx r.contains → ∀ k, r.maxBytes = some k → p.length ≤ k) := by
    constructor
    · intro h
      refine ⟨fun k hk => ((toInt_le_iff (hu k (.inr hk))).1 (h k hk).1).1, fun p hp k hk => ?_⟩
      have := h k hk
      simp only [toInt_le_iff (hu k (.inr hk)), optS_le] at this
      exact (affix_all (P := fun p => p.length ≤ k)).2 ⟨this.1.2, this.2.1.2, this.2.2.2⟩ p hp
    · rintro ⟨h1, h2⟩ k hk
      have := affix_all.1 fun p hp => h2 p hp k hk
      simp only [toInt_le_iff (hu k (.inr hk)), optS_le]
      exact ⟨⟨h1 k hk, this.1⟩, ⟨h1 k hk, this.2.1⟩, ⟨h1 k hk, this.2.2⟩⟩
  rw [mx, mb]
  constructor
  · rintro ⟨⟨⟨⟨⟨h1, h2⟩, h3⟩, h4⟩, h5⟩, ⟨h6, h7⟩, ⟨h8, h9⟩, h10, h11, h12⟩
    exact ⟨h5, ⟨h3, h1⟩, ⟨h4, h2⟩, h10, fun k hk => hk.elim (h8 k) (h11 k),
      fun p hp => ⟨h9 p hp, h12 p hp⟩, h6, h7⟩
  · rintro ⟨h5, ⟨h3, h1⟩, ⟨h4, h2⟩, h10, h8, h9, h6, h7⟩
    exact ⟨⟨⟨⟨⟨h1, h2⟩, h3⟩, h4⟩, h5⟩, ⟨h6, h7⟩, ⟨fun k hk => h8 k (.inl hk), fun p hp => (h9 p hp).1⟩, h10,
      fun k hk => h8 k (.inr hk), fun p hp => (h9 p hp).2⟩

theorem checkBytes_iff (c : Bytes → Bool) (r : BytesRules) (hp : ParsedRules (.bytes r)) :
    checkBytes c r = true ↔ BytesRulesOk c r := by
  have mb : (match r.maxLen with
   | none => true
   | some m =>
     decide (((optS r.pfx).length : Int) ≤ toInt m) &&
     decide (((optS r.sfx).length : Int) ≤ toInt m) &&
     decide (((optS r.contains).length : Int) ≤ toInt m)) = true ↔
      (∀ k, r.maxLen = some k → k < 9223372036854775808) ∧
      (∀ p, Affix p r.pfx r.sfx r.contains → ∀ k, r.maxLen = some k → p.length ≤ k) := by
    cases hm : r.maxLen with
    | none => simp
    | some k =>
      have hk := hp k hm
      simp only [Bool.and_eq_true, decide_eq_true_eq, toInt_le_iff hk, optS_le, Option.some.injEq, forall_eq',
        affix_all (P := fun p => p.length ≤ k)]
      constructor
      · rintro ⟨⟨⟨h1, h2⟩, -, h3⟩, -, h4⟩; exact ⟨h1, h2, h3, h4⟩
      · rintro ⟨h1, h2, h3, h4⟩; exact ⟨⟨⟨h1, h2⟩, h1, h3⟩, h1, h4⟩
  have pt : checkPattern c r.pattern r.ins.length = true ↔ ∀ p, r.pattern = some p → c p = true ∧ r.ins = [] := by
    cases hq : r.pattern <;> simp [checkPattern, List.length_eq_zero_iff, and_comm]
  unfold checkBytes
  rw [Bool.and_eq_true]
  refine Iff.trans (and_congr Iff.rfl mb) ?_
  simp only [Bool.and_eq_true, checkMinMax_iff, checkIns_iff, List.length_eq_zero_iff, pt]
  constructor
  · rintro ⟨⟨⟨h1, h2⟩, h3⟩, h4, h5⟩; exact ⟨h2, h1, h4, h5, h3⟩
  · rintro ⟨h2, h1, h4, h5, h3⟩; exact ⟨⟨⟨h1, h2⟩, h3⟩, h4, h5⟩

theorem some_of_map {α β : Type} {f : α → β} {a b : Option α} {y : β}
    (h : a.map f = some y ∨ b.map f = some y) : ∃ x, (a = some x ∨ b = some x) ∧ f x = y := by
  simp only [Option.map_eq_some_iff] at h
  rcases h with ⟨x, h1, h2⟩ | ⟨x, h1, h2⟩
  · exact ⟨x, .inl h1, h2⟩
  · exact ⟨x, .inr h1, h2⟩

theorem checkDuration_iff (r : DurationRules) :
    checkDuration r = true ↔ DurationRulesOk (fun a b => heldLength a = heldLength b) r := by
  unfold checkDuration
  simp only [Bool.and_eq_true, checkNums_iff, durOk_iff, List.all_eq_true, valid_iff, Option.map_eq_none_iff,
    List.length_eq_zero_iff, ne_eq, and_assoc, decide_eq_false_iff_not]
  constructor
  · rintro ⟨v1, v2, v3, v4, v5, n1, n2, n3, n4, n5, n6, v6, v7⟩
    have hv : ∀ d, r.const = some d ∨ r.lt = some d ∨ r.lte = some d ∨ r.gt = some d ∨ r.gte = some d ∨
        d ∈ r.ins ∨ d ∈ r.notIns → ValidDuration d := by
      rintro d (h | h | h | h | h | h | h)
      · exact v1 d h
      · exact v2 d h
      · exact v3 d h
      · exact v4 d h
      · exact v5 d h
      · exact v6 d h
      · exact v7 d h
    refine ⟨hv, n1, n2, n3, n4, n5, fun u l hu hl he => ?_⟩
    have hvu : ValidDuration u := hv u (by rcases hu with h | h <;> simp [h])
    have hvl : ValidDuration l := hv l (by rcases hl with h | h <;> simp [h])
    refine n6 u.asDuration l.asDuration ?_ ?_ (by rw [asDuration_held hvu, asDuration_held hvl]; exact he)
    · rcases hu with h | h <;> simp [h]
    · rcases hl with h | h <;> simp [h]
  · rintro ⟨hv, n1, n2, n3, n4, n5, n6⟩
    refine ⟨fun d h => hv d (by simp [h]), fun d h => hv d (by simp [h]), fun d h => hv d (by simp [h]),
      fun d h => hv d (by simp [h]), fun d h => hv d (by simp [h]), n1, n2, n3, n4, n5, ?_,
      fun d h => hv d (by simp [h]), fun d h => hv d (by simp [h])⟩
    intro u l hu hl he
    obtain ⟨du, hdu, rfl⟩ := some_of_map hu
    obtain ⟨dl, hdl, rfl⟩ := some_of_map hl
    have hvu : ValidDuration du := hv du (by rcases hdu with h | h <;> simp [h])
    have hvl : ValidDuration dl := hv dl (by rcases hdl with h | h <;> simp [h])
    rw [asDuration_held hvu, asDuration_held hvl] at he
    exact n6 du dl hdu hdl he

theorem wrap64_eq_iff (a b : Int) : wrap64 a = wrap64 b ↔ (18446744073709551616 : Int) ∣ a - b := by
  unfold wrap64
  rw [Int.bmod_def, Int.bmod_def]
  constructor <;> intro h
  · omega
  · have : a % 18446744073709551616 = b % 18446744073709551616 := by omega
    rw [show ((18446744073709551616 : Nat) : Int) = 18446744073709551616 from rfl, this]

theorem checkTimestamp_mod (r : TimestampRules) : checkTimestamp r = true ↔
    TsConsistent (fun a b => (18446744073709551616 : Int) ∣ instant a - instant b) r := by
  rw [checkTimestamp_iff]
  have : (fun a b => tsNano a = tsNano b) =
      (fun a b : PTime => (18446744073709551616 : Int) ∣ instant a - instant b) := by
    funext a b
    rw [tsNano_eq, tsNano_eq]
    exact propext (wrap64_eq_iff _ _)
  rw [this]

end PGV.Props
