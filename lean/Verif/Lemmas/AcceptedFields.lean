import Verif.Lemmas.AcceptedKinds

/-!
Lemmas for C89: from the rules of a value to those of a field and a message.
-/

set_option linter.unusedSimpArgs false

namespace PGV.Props
open PGV PGV.Go PGV.Spec PGV.Checker

theorem isEmbed_iff (e : ElemT) : e.isEmbed = true ↔ ∃ n w, e = .embed n w := by
  cases e <;> simp [ElemT.isEmbed]

/-- Rules at a position that is a single value. -/
theorem checkType_iff {c : Bytes → Bool} (hc : HeadersCompile c) {t : FieldT} {y : Checker.Ty} (hy : AtTy t y)
    {tr : TypeRules} (hp : ParsedRules tr) (h1 : ∀ r i, tr ≠ .repeated r i) (h2 : ∀ r k v, tr ≠ .map r k v) :
    checkTypeRules c y tr ≠ none ↔ RulesOk c t tr := by
  have ite : ∀ (b : Bool) (x : TypeRules), (if b = true then some x else none) ≠ none ↔ b = true := by
    intro b x; cases b <;> simp
  cases tr with
  | unset => simp [checkTypeRules, RulesOk]
  | num k r =>
    simp only [checkTypeRules, ite, Bool.and_eq_true, mustType_num hy, checkNum_iff]
    exact Iff.rfl
  | bool r =>
    simp only [checkTypeRules, ite, mustType_bool hy]
    exact Iff.rfl
  | string r =>
    simp only [checkTypeRules]
    have : (if mustType y .string (some .stringValue) = true then
        (checkString c r).map TypeRules.string else none) ≠ none ↔
        mustType y .string (some .stringValue) = true ∧ checkString c r ≠ none := by
      split <;> simp_all
    rw [this, mustType_string hy, checkString_iff c hc r hp]
    exact Iff.rfl
  | bytes r =>
    simp only [checkTypeRules, ite, Bool.and_eq_true, mustType_bytes hy, checkBytes_iff c r hp]
    exact Iff.rfl
  | enum r =>
    simp only [checkTypeRules, ite, Bool.and_eq_true, mustType_enum hy]
    constructor
    · rintro ⟨⟨vs, rfl⟩, h⟩
      have hvs : y.enumValues = vs := by
        rcases hy with rfl | ⟨e, he, rfl⟩
        · rfl
        · cases he; rfl
      simp only [checkEnum, hvs, Bool.and_eq_true, checkIns_iff, List.length_eq_zero_iff] at h
      refine ⟨vs, rfl, h.1, fun hd i hi => ?_⟩
      have hlen : 0 < r.ins.length := List.length_pos_of_mem hi
      have h := h.2
      simp only [hd, optB, Option.getD_some, Bool.true_and, decide_eq_true_eq,
        gt_iff_lt, hlen, and_self, if_true, List.all_eq_true] at h
      simpa using h i hi
    · rintro ⟨vs, rfl, hl, hd⟩
      have hvs : y.enumValues = vs := by
        rcases hy with rfl | ⟨e, he, rfl⟩
        · rfl
        · cases he; rfl
      refine ⟨⟨vs, rfl⟩, ?_⟩
      simp only [checkEnum, hvs, Bool.and_eq_true, checkIns_iff, List.length_eq_zero_iff]
      refine ⟨hl, ?_⟩
      split
      · rename_i hh
        have hdo : r.definedOnly = some true := by
          cases hq : r.definedOnly with
          | none => simp [hq, optB] at hh
          | some b => cases b <;> simp [hq, optB] at hh ⊢
        simpa using hd hdo
      · rfl
  | repeated r i => exact absurd rfl (h1 r i)
  | map r k v => exact absurd rfl (h2 r k v)
  | any r =>
    simp only [checkTypeRules]
    rw [ite, checkIns_iff, List.length_eq_zero_iff, List.length_eq_zero_iff]
    exact Iff.rfl
  | duration r =>
    simp only [checkTypeRules, ite, checkDuration_iff]
    exact Iff.rfl
  | timestamp r =>
    simp only [checkTypeRules, ite, checkTimestamp_mod]
    exact Iff.rfl

theorem optB_true {o : Option Bool} : optB o = true ↔ o = some true := by
  cases o with
  | none => simp [optB]
  | some b => cases b <;> simp [optB]

theorem checkType_rep {c : Bytes → Bool} {y : Checker.Ty} {r : RepeatedRules} {items : FieldRules} :
    checkTypeRules c y (.repeated r items) ≠ none ↔
      ∃ e, y = .field (.rep e) ∧ Ordered r.minItems r.maxItems ∧
        (r.unique = some true → ∀ n w, e ≠ .embed n w) ∧ checkFieldRules c (.elem e) items ≠ none := by
  simp only [checkTypeRules]
  split
  · rename_i e
    have he : (!(optB r.unique && e.isEmbed)) = true ↔ (r.unique = some true → ∀ n w, e ≠ .embed n w) := by
      rw [← optB_true]
      cases optB r.unique <;> simp
      have := isEmbed_iff e
      cases hh : e.isEmbed <;> simp_all
    have hs : (if (checkMinMax r.minItems r.maxItems && !(optB r.unique && e.isEmbed)) = true then
        (checkFieldRules c (.elem e) items).map (TypeRules.repeated r) else none) ≠ none ↔
        checkMinMax r.minItems r.maxItems = true ∧ (!(optB r.unique && e.isEmbed)) = true ∧
          checkFieldRules c (.elem e) items ≠ none := by
      generalize (!(optB r.unique && e.isEmbed)) = b
      generalize checkMinMax r.minItems r.maxItems = b'
      cases b <;> cases b' <;> simp
    rw [hs, checkMinMax_iff, he]
    simp
  · rename_i hh
    simp only [ne_eq, not_true_eq_false, false_iff]
    rintro ⟨e, rfl, -⟩
    exact hh e rfl

theorem checkType_map {c : Bytes → Bool} {y : Checker.Ty} {r : MapRules} {keys values : FieldRules} :
    checkTypeRules c y (.map r keys values) ≠ none ↔
      ∃ k v, y = .field (.map k v) ∧ Ordered r.minPairs r.maxPairs ∧
        (r.noSparse = some true → ∃ n w, v = .embed n w) ∧ checkFieldRules c (.elem k) keys ≠ none ∧
        checkFieldRules c (.elem v) values ≠ none := by
  simp only [checkTypeRules]
  split
  · rename_i k v
    have he : (!optB r.noSparse || v.isEmbed) = true ↔ (r.noSparse = some true → ∃ n w, v = .embed n w) := by
      rw [← optB_true, ← isEmbed_iff]
      cases optB r.noSparse <;> simp
    have hs : (if (checkMinMax r.minPairs r.maxPairs && (!optB r.noSparse || v.isEmbed)) = true then
        match checkFieldRules c (.elem k) keys with
        | none => none
        | some keys' => (checkFieldRules c (.elem v) values).map (TypeRules.map r keys')
        else none) ≠ none ↔
        checkMinMax r.minPairs r.maxPairs = true ∧ (!optB r.noSparse || v.isEmbed) = true ∧
          checkFieldRules c (.elem k) keys ≠ none ∧ checkFieldRules c (.elem v) values ≠ none := by
      cases checkFieldRules c (.elem k) keys <;> cases checkFieldRules c (.elem v) values <;>
        split <;> simp_all
    refine Iff.trans hs ?_
    rw [checkMinMax_iff, he]
    constructor
    · intro h; exact ⟨k, v, rfl, h⟩
    · rintro ⟨k', v', hkv, h⟩; cases hkv; exact h
  · rename_i hh
    simp only [ne_eq, not_true_eq_false, false_iff]
    rintro ⟨k, v, rfl, -⟩
    exact hh k v rfl

theorem checkFieldRules_ne {c : Bytes → Bool} {y : Checker.Ty} {r : FieldRules} :
    checkFieldRules c y r ≠ none ↔ checkTypeRules c y r.type ≠ none := by
  cases r with
  | absent => simp [checkFieldRules, FieldRules.type, checkTypeRules]
  | mk m tr => simp [checkFieldRules, FieldRules.type]

/-- Rules for items, keys and values: never rules for lists and maps. -/
theorem checkElem_iff {c : Bytes → Bool} (hc : HeadersCompile c) {e : ElemT} {r : FieldRules}
    (hp : ParsedRules r.type) : checkFieldRules c (.elem e) r ≠ none ↔ RulesOk c (.one e) r.type := by
  rw [checkFieldRules_ne]
  cases htr : r.type with
  | repeated rr i => rw [checkType_rep]; simp [RulesOk]
  | map rr k v => rw [checkType_map]; simp [RulesOk]
  | _ => exact checkType_iff hc (.inr ⟨e, rfl, rfl⟩) (htr ▸ hp) (by simp) (by simp)

/-- The rules of a field. -/
theorem checkFieldRules_iff {c : Bytes → Bool} (hc : HeadersCompile c) {f : FieldDesc}
    (hp : ∀ t r, RuleAt f t r → ParsedRules r.type) :
    checkFieldRules c (.field f.typ) f.rules ≠ none ↔ ∀ t r, RuleAt f t r → RulesOk c t r.type := by
  have htop := hp _ _ .top
  have top : ∀ r, r = f.rules →
      (checkFieldRules c (.field f.typ) r ≠ none ↔ ∀ t r, RuleAt f t r → RulesOk c t r.type) := by
    intro r0 hr0
    have plain : (∀ r i, f.rules.type ≠ .repeated r i) → (∀ r k v, f.rules.type ≠ .map r k v) →
        (checkFieldRules c (.field f.typ) f.rules ≠ none ↔ ∀ t r, RuleAt f t r → RulesOk c t r.type) := by
      intro h1 h2
      rw [checkFieldRules_ne, checkType_iff hc (.inl rfl) htop h1 h2]
      constructor
      · intro h t r hr
        have : t = f.typ ∧ r = f.rules := by
          induction hr with
          | top => exact ⟨rfl, rfl⟩
          | item hr ih => exact absurd (congrArg FieldRules.type ih.2).symm (h1 _ _)
          | key hr ih => exact absurd (congrArg FieldRules.type ih.2).symm (h2 _ _ _)
          | value hr ih => exact absurd (congrArg FieldRules.type ih.2).symm (h2 _ _ _)
        obtain ⟨rfl, rfl⟩ := this
        exact h
      · intro h; exact h _ _ .top
    cases r0 with
    | absent => rw [hr0]; exact plain (by rw [← hr0]; simp [FieldRules.type]) (by rw [← hr0]; simp [FieldRules.type])
    | mk m tr =>
      cases tr with
      | repeated rr items =>
        rw [checkFieldRules_ne]
        show checkTypeRules c (.field f.typ) (.repeated rr items) ≠ none ↔ _
        rw [checkType_rep]
        constructor
        · rintro ⟨e, he, ho, hu, hi⟩
          cases he' : f.typ with
          | rep e' =>
            rw [he'] at he
            cases he
            have hit : RuleAt f (.one e) items := .item (m := m) (r := rr) (by rw [hr0, ← he']; exact .top)
            rw [checkElem_iff hc (hp _ _ hit)] at hi
            have key : ∀ t r, RuleAt f t r → (t = .rep e ∧ r = .mk m (.repeated rr items)) ∨ (t = .one e ∧ r = items) := by
              intro t r hr
              induction hr with
              | top => exact .inl ⟨he', hr0.symm⟩
              | item hr ih =>
                rcases ih with ⟨h1, h2⟩ | ⟨h1, h2⟩
                · cases h1; cases h2; exact .inr ⟨rfl, rfl⟩
                · cases h1
              | key hr ih => rcases ih with ⟨h1, -⟩ | ⟨h1, -⟩ <;> cases h1
              | value hr ih => rcases ih with ⟨h1, -⟩ | ⟨h1, -⟩ <;> cases h1
            intro t r hr
            rcases key t r hr with ⟨rfl, rfl⟩ | ⟨rfl, rfl⟩
            · exact ⟨e, rfl, ho, hu⟩
            · exact hi
          | one e' => rw [he'] at he; cases he
          | map k v => rw [he'] at he; cases he
        · intro h
          have h0 := h _ _ .top
          rw [← hr0] at h0
          obtain ⟨e, he, ho, hu⟩ := h0
          have hit : RuleAt f (.one e) items := .item (m := m) (r := rr) (by rw [hr0, ← he]; exact .top)
          exact ⟨e, by rw [he], ho, hu, (checkElem_iff hc (hp _ _ hit)).2 (h _ _ hit)⟩
      | map rr keys values =>
        rw [checkFieldRules_ne]
        show checkTypeRules c (.field f.typ) (.map rr keys values) ≠ none ↔ _
        rw [checkType_map]
        constructor
        · rintro ⟨k, v, he, ho, hu, hk, hv⟩
          cases he' : f.typ with
          | map k' v' =>
            rw [he'] at he
            cases he
            have hkt : RuleAt f (.one k) keys := .key (m := m) (r := rr) (v := v) (values := values) (by rw [hr0, ← he']; exact .top)
            have hvt : RuleAt f (.one v) values := .value (m := m) (r := rr) (k := k) (keys := keys) (by rw [hr0, ← he']; exact .top)
            rw [checkElem_iff hc (hp _ _ hkt)] at hk
            rw [checkElem_iff hc (hp _ _ hvt)] at hv
            have key : ∀ t r, RuleAt f t r → (t = .map k v ∧ r = .mk m (.map rr keys values)) ∨
                (t = .one k ∧ r = keys) ∨ (t = .one v ∧ r = values) := by
              intro t r hr
              induction hr with
              | top => exact .inl ⟨he', hr0.symm⟩
              | item hr ih => rcases ih with ⟨h1, -⟩ | ⟨h1, -⟩ | ⟨h1, -⟩ <;> cases h1
              | key hr ih =>
                rcases ih with ⟨h1, h2⟩ | ⟨h1, h2⟩ | ⟨h1, -⟩
                · cases h1; cases h2; exact .inr (.inl ⟨rfl, rfl⟩)
                · cases h1
                · cases h1
              | value hr ih =>
                rcases ih with ⟨h1, h2⟩ | ⟨h1, h2⟩ | ⟨h1, -⟩
                · cases h1; cases h2; exact .inr (.inr ⟨rfl, rfl⟩)
                · cases h1
                · cases h1
            intro t r hr
            rcases key t r hr with ⟨rfl, rfl⟩ | ⟨rfl, rfl⟩ | ⟨rfl, rfl⟩
            · exact ⟨k, v, rfl, ho, hu⟩
            · exact hk
            · exact hv
          | one e' => rw [he'] at he; cases he
          | rep e' => rw [he'] at he; cases he
        · intro h
          have h0 := h _ _ .top
          rw [← hr0] at h0
          obtain ⟨k, v, he, ho, hu⟩ := h0
          have hkt : RuleAt f (.one k) keys := .key (m := m) (r := rr) (v := v) (values := values) (by rw [hr0, ← he]; exact .top)
          have hvt : RuleAt f (.one v) values := .value (m := m) (r := rr) (k := k) (keys := keys) (by rw [hr0, ← he]; exact .top)
          exact ⟨k, v, by rw [he], ho, hu, (checkElem_iff hc (hp _ _ hkt)).2 (h _ _ hkt),
            (checkElem_iff hc (hp _ _ hvt)).2 (h _ _ hvt)⟩
      | _ => rw [hr0]; exact plain (by rw [← hr0]; simp [FieldRules.type]) (by rw [← hr0]; simp [FieldRules.type])
  exact top _ rfl

theorem typ_embed {n : String} {w : Option WKT} {P : Option WKT → Prop} :
    (∃ n' w', FieldT.one (.embed n w) = .one (.embed n' w') ∧ P w') ↔ P w := by
  constructor
  · rintro ⟨n', w', h, hp⟩; cases h; exact hp
  · intro h; exact ⟨n, w, rfl, h⟩

theorem messageRules_iff (f : FieldDesc) :
    (f.rules.message.isSome &&
      !(mustType (.field f.typ) .message none && checkMessage (.field f.typ) f.rules)) = false ↔
    MessageRulesOk f := by
  unfold MessageRulesOk
  cases hr : f.rules with
  | absent => simp [FieldRules.message]
  | mk mo tr =>
    cases mo with
    | none => simp [FieldRules.message]
    | some m =>
      have hskip : ∀ tr : TypeRules, (!((match tr with | .unset => false | _ => true) && optB m.skip)) = true ↔
          (m.skip = some true → tr = .unset) := by
        intro tr
        rw [← optB_true]
        cases optB m.skip <;> cases tr <;> simp
      have goal : (mustType (.field f.typ) .message none && checkMessage (.field f.typ) (.mk (some m) tr)) = true ↔
          (∃ n w, f.typ = .one (.embed n w) ∧ w ≠ some .any ∧ w ≠ some .duration ∧ w ≠ some .timestamp) ∧
          (m.skip = some true → tr = .unset) := by
        unfold checkMessage
        rw [Bool.and_eq_true, Bool.and_eq_true, Bool.and_eq_true]
        refine Iff.trans (and_congr Iff.rfl (and_congr Iff.rfl (hskip tr))) ?_
        cases ht : f.typ with
        | one e =>
          cases e with
          | embed n w =>
            cases w with
            | none =>
              rw [typ_embed]
              simp [mustType, Ty.embed, Ty.isRepeated, Ty.protoType, ElemT.protoType, Ty.isEmbed, ElemT.isEmbed]
            | some w =>
              rw [typ_embed]
              cases w <;> simp [mustType, Ty.embed, Ty.isRepeated, Ty.protoType, ElemT.protoType, Ty.isEmbed, ElemT.isEmbed]
          | _ => simp [Ty.isEmbed, ElemT.isEmbed]
        | rep e => simp [Ty.isEmbed]
        | map k v => simp [Ty.isEmbed]
      simp only [FieldRules.message, Option.isSome_some, Bool.true_and, Bool.not_eq_false']
      rw [goal]
      constructor
      · rintro h m' tr' he; cases he; exact h
      · intro h; exact h m tr rfl

/-- A field. -/
theorem accepted_field_iff {c : Bytes → Bool} (hc : HeadersCompile c) {f : FieldDesc}
    (hp : ∀ t r, RuleAt f t r → ParsedRules r.type) :
    Accepted c f ↔ MessageRulesOk f ∧ ∀ t r, RuleAt f t r → RulesOk c t r.type := by
  unfold Accepted checkField
  rw [← messageRules_iff, ← checkFieldRules_iff hc hp]
  generalize (f.rules.message.isSome &&
    !(mustType (.field f.typ) .message none && checkMessage (.field f.typ) f.rules)) = b
  cases b <;> simp

theorem checkFields_iff {c : Bytes → Bool} (fs : List FieldDesc) :
    checkFields c fs ≠ none ↔ ∀ f ∈ fs, Accepted c f := by
  constructor
  · exact fun h => checkFields_mem h
  · induction fs with
    | nil => simp [checkFields]
    | cons f fs ih =>
      intro h
      have h1 := h f (by simp)
      have h2 := ih fun g hg => h g (by simp [hg])
      unfold Accepted at h1
      unfold checkFields
      cases hf : checkField c f with
      | none => exact absurd hf h1
      | some f' =>
        cases hfs : checkFields c fs with
        | none => exact absurd hfs h2
        | some fs' => simp

theorem checkOneofs_iff {c : Bytes → Bool} (os : List OneofDesc) :
    checkOneofs c os ≠ none ↔ ∀ o ∈ os, ∀ f ∈ o.fields, Accepted c f := by
  constructor
  · exact fun h => checkOneofs_mem h
  · induction os with
    | nil => simp [checkOneofs]
    | cons o os ih =>
      intro h
      have h1 := (checkFields_iff o.fields).2 (h o (by simp))
      have h2 := ih fun g hg => h g (by simp [hg])
      unfold checkOneofs
      cases hf : checkFields c o.fields with
      | none => exact absurd hf h1
      | some f' =>
        cases hfs : checkOneofs c os with
        | none => exact absurd hfs h2
        | some fs' => simp

end PGV.Props
