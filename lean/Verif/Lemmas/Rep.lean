import Verif.Lemmas.Single

/-!
The errors of repeated and map fields, element by element.
-/

set_option linter.unusedSimpArgs false

namespace PGV.Go
open PGV Exec PGV.Spec

theorem Raises.allErrs {Q : Err → Prop} {x : Bool → Exec} (h : Raises Q (x true)) :
    ∀ e ∈ allErrs x, Q e := by
  intro e he
  have := h []
  unfold Go.allErrs at he
  cases hx : x true [] with
  | error e' => simp only [hx, List.mem_singleton] at he this; rw [he]; exact this
  | ok es =>
    simp only [hx, List.nil_append] at he this
    obtain ⟨l, rfl, hl⟩ := this
    exact hl e he

theorem Own.from {c : Ctx} {e : Err} (h : Own c e) : From c e := by
  obtain ⟨r, x, -, rfl⟩ := h; exact ⟨r, x, rfl⟩

/-- Unless the value is inside a wrapper message, an element's errors carry its index. -/
theorem elem_from (E : Env) (S : Schema) (all : Bool) (rec : Rec) (c : Ctx) (e : ElemT)
    (rules : FieldRules) (v : Val) (hw : ¬ (e.isEmbed = true ∧ WrapperKind rules.type)) :
    Raises (From c) (elemTpl E S all rec c e rules v) := by
  have plain : ∀ t : TypeRules, Raises (From c)
      (match t, v with
        | .any r, .any url _ => anyTpl all c r (some url)
        | .any r, .null => anyTpl all c r none
        | .duration r, .dur d => durationTpl all c r (some d)
        | .duration r, .null => durationTpl all c r none
        | .timestamp r, .ts t => timestampTpl E.now all c r (some t)
        | .timestamp r, .null => timestampTpl E.now all c r none
        | t, .sc s => scalarTpl E all c e t s
        | _, _ => skip) := by
    intro t
    refine Raises.mono (Q := Own c) ?_ (fun _ h => h.from)
    split
    all_goals first
      | exact any_own _ _ _ _
      | exact duration_own _ _ _ _
      | exact timestamp_own _ _ _ _ _
      | exact scalar_own _ _ _ _ _ _
      | exact Raises.skip
  unfold elemTpl
  cases ht : rules.type with
  | unset =>
    cases he : e.isEmbed with
    | true =>
      simp only [resolve, ht, he, if_true]
      exact (message_raises E S all rec c rules.message v).mono fun x h => by
        rcases h with h | ⟨h1, x, -, rfl⟩
        · exact h.from
        · exact ⟨_, _, rfl⟩
    | false =>
      simp only [resolve, ht, he]
      exact Raises.skip
  | num k r =>
    cases he : e.isEmbed <;> cases k <;> simp only [resolve, ht, he, if_true, Bool.false_eq_true, if_false] <;>
      first
        | exact plain _
        | (exfalso; apply hw; rw [ht]; simp [he, WrapperKind])
  | bool r =>
    cases he : e.isEmbed <;> simp only [resolve, ht, he, if_true, Bool.false_eq_true, if_false] <;>
      first
        | exact plain _
        | (exfalso; apply hw; rw [ht]; simp [he, WrapperKind])
  | string r =>
    cases he : e.isEmbed <;> simp only [resolve, ht, he, if_true, Bool.false_eq_true, if_false] <;>
      first
        | exact plain _
        | (exfalso; apply hw; rw [ht]; simp [he, WrapperKind])
  | bytes r =>
    cases he : e.isEmbed <;> simp only [resolve, ht, he, if_true, Bool.false_eq_true, if_false] <;>
      first
        | exact plain _
        | (exfalso; apply hw; rw [ht]; simp [he, WrapperKind])
  | _ =>
    simp only [resolve, ht]
    exact plain _

theorem sameItem_trans {a b c : Val} (h1 : SameItem a b) (h2 : SameItem b c) : SameItem a c := by
  cases a <;> cases b <;> cases c <;> simp_all [SameItem]
  rename_i a b c
  cases a <;> cases b <;> cases c <;> simp_all [SameItem]
  obtain ⟨x, hx, hy⟩ := h1
  obtain ⟨y, hy', hz⟩ := h2
  rw [hy] at hy'; cases hy'
  exact ⟨x, hx, hz⟩

theorem check_all (b : Bool) (e : Err) :
    allErrs (fun all => Exec.when b (Exec.report all e)) = if b then [e] else [] := by
  cases b <;> rfl

/-- The errors of the loop over a list. -/
theorem repLoop_mem (unique : Bool) (c : Ctx) (item : Nat → Val → Bool → Exec)
    (P : Val → Prop) (vs : List Val) (hi : ∀ i, ∀ v ∈ vs, Ok (fun _ => True) (item i v) (P v))
    (idx : Nat) (seen : List Val) (x : Err) :
    x ∈ allErrs (fun all => repLoop all unique c (fun i v => item i v all) idx seen vs) ↔
      ∃ i v, vs[i]? = some v ∧
        ((unique = true ∧ (∃ w, (w ∈ seen ∨ ∃ j, j < i ∧ vs[j]? = some w) ∧ SameItem w v) ∧
          x = errIdx c (.pos (idx + i)) [.s "repeated value must contain unique items"]) ∨
         x ∈ allErrs (item (idx + i) v)) := by
  induction vs generalizing idx seen with
  | nil => simp [repLoop, Ok.skip_eq]
  | cons v vs ih =>
    let dup := unique && seen.any (fun w => keyEq w v)
    let seen' := if unique && !dup then v :: seen else seen
    have hdup : dup = true ↔ unique = true ∧ ∃ w ∈ seen, SameItem w v := by
      simp [dup, List.any_eq_true, keyEq_iff]
    have hrest := repLoop_ok (W := fun _ => True) unique c item P (fun _ => trivial) vs
      (fun i w hw => hi i w (by simp [hw])) (idx + 1) seen'
    have e1 := Ok.seq_all (hi idx v (by simp)) hrest
    have e2 := Ok.seq_all (Ok.check (W := fun _ => True) (b := dup)
      (e := errIdx c (.pos idx) [.s "repeated value must contain unique items"]) trivial)
      (Ok.seq (hi idx v (by simp)) hrest)
    have e3 : allErrs (fun all => repLoop all unique c (fun i v => item i v all) idx seen (v :: vs)) =
        (if dup then [errIdx c (.pos idx) [.s "repeated value must contain unique items"]] else []) ++
        (allErrs (item idx v) ++
          allErrs (fun all => repLoop all unique c (fun i v => item i v all) (idx + 1) seen' vs)) := by
      rw [← check_all, ← e1, ← e2]
      rfl
    rw [e3, List.mem_append, List.mem_append, ih (fun i w hw => hi i w (by simp [hw]))]
    have hseen : unique = true → ∀ u, (∃ w ∈ seen', SameItem w u) ↔
        (∃ w, (w ∈ seen ∨ w = v) ∧ SameItem w u) := by
      intro hu u
      cases hd : dup with
      | false =>
        have : seen' = v :: seen := by simp [seen', hd, hu]
        rw [this]
        simp only [List.mem_cons]
        constructor
        · rintro ⟨w, h | h, hs⟩
          · exact ⟨w, .inr h, hs⟩
          · exact ⟨w, .inl h, hs⟩
        · rintro ⟨w, h | h, hs⟩
          · exact ⟨w, .inr h, hs⟩
          · exact ⟨w, .inl h, hs⟩
      | true =>
        have : seen' = seen := by simp [seen', hd]
        rw [this]
        obtain ⟨-, w0, hw0, hs0⟩ := hdup.1 hd
        constructor
        · rintro ⟨w, h, hs⟩; exact ⟨w, .inl h, hs⟩
        · rintro ⟨w, h | rfl, hs⟩
          · exact ⟨w, h, hs⟩
          · exact ⟨w0, hw0, sameItem_trans hs0 hs⟩
    constructor
    · rintro (h | h | ⟨i, u, hu, h⟩)
      · refine ⟨0, v, rfl, .inl ?_⟩
        cases hd : dup with
        | false => simp [hd] at h
        | true =>
          simp [hd] at h
          obtain ⟨h1, w, hw, hs⟩ := hdup.1 hd
          exact ⟨h1, ⟨w, .inl hw, hs⟩, h⟩
      · exact ⟨0, v, rfl, .inr h⟩
      · refine ⟨i + 1, u, by simpa using hu, ?_⟩
        rw [show idx + (i + 1) = idx + 1 + i by omega]
        rcases h with ⟨h1, ⟨w, hw, hs⟩, h2⟩ | h
        · refine .inl ⟨h1, ?_, h2⟩
          rcases hw with hw | ⟨j, hj, hw⟩
          · obtain ⟨w', hw', hs'⟩ := (hseen h1 u).1 ⟨w, hw, hs⟩
            rcases hw' with hw' | rfl
            · exact ⟨w', .inl hw', hs'⟩
            · exact ⟨w', .inr ⟨0, by omega, rfl⟩, hs'⟩
          · exact ⟨w, .inr ⟨j + 1, by omega, by simpa using hw⟩, hs⟩
        · exact .inr h
    · rintro ⟨i, u, hu, h⟩
      cases i with
      | zero =>
        simp only [List.getElem?_cons_zero, Option.some.injEq] at hu
        subst hu
        rcases h with ⟨h1, ⟨w, hw, hs⟩, h2⟩ | h
        · refine .inl ?_
          rcases hw with hw | ⟨j, hj, -⟩
          · have hd : dup = true := hdup.2 ⟨h1, w, hw, hs⟩
            rw [hd]; simpa using h2
          · omega
        · exact .inr (.inl h)
      | succ i =>
        refine .inr (.inr ⟨i, u, by simpa using hu, ?_⟩)
        rw [show idx + 1 + i = idx + (i + 1) by omega]
        rcases h with ⟨h1, ⟨w, hw, hs⟩, h2⟩ | h
        · refine .inl ⟨h1, ?_, h2⟩
          rcases hw with hw | ⟨j, hj, hw⟩
          · obtain ⟨w', hw', hs'⟩ := (hseen h1 u).2 ⟨w, .inl hw, hs⟩
            exact ⟨w', .inl hw', hs'⟩
          · cases j with
            | zero =>
              simp only [List.getElem?_cons_zero, Option.some.injEq] at hw
              obtain ⟨w', hw', hs'⟩ := (hseen h1 u).2 ⟨w, .inr hw.symm, hs⟩
              exact ⟨w', .inl hw', hs'⟩
            | succ j => exact ⟨w, .inr ⟨j, by omega, by simpa using hw⟩, hs⟩
        · exact .inr h

theorem repLen_ok (c : Ctx) (r : RepeatedRules) (n : Nat) :
    Ok (From c) (fun all => repLenTpl all c r n) (CountOk r.minItems r.maxItems n) :=
  count_ok r.minItems r.maxItems n _ _ _ _ (from_err c _) (from_err c _) (from_err c _) (from_err c _)

theorem mapLen_ok (c : Ctx) (r : MapRules) (n : Nat) :
    Ok (From c) (fun all => mapLenTpl all c r n) (CountOk r.minPairs r.maxPairs n) :=
  count_ok r.minPairs r.maxPairs n _ _ _ _ (from_err c _) (from_err c _) (from_err c _) (from_err c _)

theorem Ok.any {W : Err → Prop} {x : Bool → Exec} {P : Prop} (h : Ok W x P) :
    Ok (fun _ => True) x P := h.mono fun _ _ => trivial

/-- The errors of a repeated field that is not skipped by `ignore_empty`. -/
theorem rep_mem (E : Env) (S : Schema) (rec : Rec) (hr : RecOk rec) (c : Ctx) (e : ElemT)
    (r : RepeatedRules) (items : FieldRules) (vs : List Val)
    (hne : r.ignoreEmpty ≠ some true ∨ vs ≠ []) (x : Err) :
    x ∈ allErrs (fun all => repTpl E S all rec c e r items vs) ↔
      x ∈ allErrs (fun all => repLenTpl all c r vs.length) ∨
      ∃ i v, vs[i]? = some v ∧
        ((r.unique = some true ∧ (∃ j w, j < i ∧ vs[j]? = some w ∧ SameItem w v) ∧
          x = errIdx c (.pos i) [.s "repeated value must contain unique items"]) ∨
         x ∈ allErrs (fun all => elemTpl E S all rec { c with index := some (.pos i) } e items v)) := by
  let loop : Bool → Exec := fun all => repLoop all (optB r.unique) c
        (fun idx v => elemTpl E S all rec { c with index := some (.pos idx) } e items v) 0 [] vs
  have hitem : ∀ i, ∀ v ∈ vs, Ok (fun _ => True)
      (fun all => elemTpl E S all rec { c with index := some (.pos i) } e items v) _ :=
    fun i v _ => (elem_ok E S rec hr { c with index := some (.pos i) } e items v).any
  have hloop := repLoop_ok (W := fun _ => True) (optB r.unique) c
    (fun idx v all => elemTpl E S all rec { c with index := some (.pos idx) } e items v) _
    (fun _ => trivial) vs hitem 0 []
  have hmem := repLoop_mem (optB r.unique) c
    (fun idx v all => elemTpl E S all rec { c with index := some (.pos idx) } e items v) _
    vs hitem 0 [] x
  have hcond : allErrs (fun all => if optB r.unique || elemTypNotNone e items then loop all else skip) =
      allErrs loop := by
    cases hc : optB r.unique || elemTypNotNone e items with
    | true => rfl
    | false =>
      simp only [Bool.or_eq_false_iff] at hc
      obtain ⟨ht, he⟩ := elemTypNotNone_false hc.2
      refine Eq.trans (Ok.skip_eq) (hloop.specAll.2 ⟨by simp [hc.1], ?_⟩).symm
      intro v _
      unfold ValueOk; rw [ht]; simp [he]
  have hok2 : Ok (fun _ => True)
      (fun all => if optB r.unique || elemTypNotNone e items then loop all else skip) _ :=
    Ok.ite hloop Ok.skip
  have hseq := Ok.seq_all (repLen_ok c r vs.length).any hok2
  have hbody : allErrs (fun all => repTpl E S all rec c e r items vs) =
      allErrs (fun all => Exec.seq (repLenTpl all c r vs.length)
        (if optB r.unique || elemTypNotNone e items then loop all else skip)) := by
    by_cases hi : r.ignoreEmpty = some true
    · have hv : vs ≠ [] := by rcases hne with h | h; exact absurd hi h; exact h
      have : decide (vs.length > 0) = true := by
        cases vs <;> simp_all
      unfold repTpl
      simp only [hi, optB, Option.getD_some, if_true, this, Exec.when]
      rfl
    · have : optB r.ignoreEmpty = false := (optB_false_iff _).2 hi
      unfold repTpl
      simp only [this, Bool.false_eq_true, if_false]
      rfl
  rw [hbody, hseq, hcond, List.mem_append, hmem]
  refine or_congr_right ?_
  simp only [Nat.zero_add, optB_iff, List.not_mem_nil, false_or]
  constructor
  · rintro ⟨i, v, hv, ⟨h1, ⟨w, ⟨j, hj, hw⟩, hs⟩, h2⟩ | h⟩
    · exact ⟨i, v, hv, .inl ⟨h1, ⟨j, w, hj, hw, hs⟩, h2⟩⟩
    · exact ⟨i, v, hv, .inr h⟩
  · rintro ⟨i, v, hv, ⟨h1, ⟨j, w, hj, hw, hs⟩, h2⟩ | h⟩
    · exact ⟨i, v, hv, .inl ⟨h1, ⟨w, ⟨j, hj, hw⟩, hs⟩, h2⟩⟩
    · exact ⟨i, v, hv, .inr h⟩

end PGV.Go
