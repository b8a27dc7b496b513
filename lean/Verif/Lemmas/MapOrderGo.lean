import Verif.Lemmas.MapOrder

/-!
Go verdicts do not depend on the order of the entries of maps.
-/

set_option linter.unusedSimpArgs false

namespace PGV.MapOrder.Go
open PGV PGV.Spec PGV.MapOrder PGV.Go

variable {E : Env} {S : Schema} {ok : Val → Prop}

theorem big_ne {u : Val} (h : Big u) : u ≠ .null := by
  rintro rfl
  exact h

theorem value_big {e : ElemT} {rules : FieldRules} {u u' : Val} (h : Big u) (h' : Big u')
    (hk : EmbeddedOk E S ok u ↔ EmbeddedOk E S ok u') : ValueOk E S ok e rules u ↔ ValueOk E S ok e rules u' := by
  unfold ValueOk
  cases rules.type with
  | unset => simp only [hk, ne_eq, big_ne h, big_ne h', not_false_eq_true]
  | _ =>
    rcases big_cases h with ⟨_, _, _, rfl⟩ | ⟨_, rfl⟩ | ⟨_, rfl⟩ <;>
    rcases big_cases h' with ⟨_, _, _, rfl⟩ | ⟨_, rfl⟩ | ⟨_, rfl⟩ <;> exact Iff.rfl

theorem same_big {u w : Val} (h : Big u) : ¬ SameItem u w ∧ ¬ SameItem w u := by
  rcases big_cases h with ⟨_, _, _, rfl⟩ | ⟨_, rfl⟩ | ⟨_, rfl⟩ <;> (constructor <;> (unfold SameItem; split <;> simp_all))

theorem pairwise_big {u u' : Val} (h : Big u) (h' : Big u') {l r : List Val} :
    (l ++ u :: r).Pairwise (fun a b => ¬ SameItem a b) ↔ (l ++ u' :: r).Pairwise (fun a b => ¬ SameItem a b) := by
  simp only [List.pairwise_append, List.pairwise_cons, List.mem_cons, forall_eq_or_imp, (same_big h).1, (same_big h).2,
    (same_big h').1, (same_big h').2, not_false_eq_true, implies_true, true_and]

theorem compositional (E : Env) (S : Schema) (hE : Respects fun v => E.legacy v = none) :
    Compositional (fun (_ : Unit) f v => FieldOk E S (fun w => validate E S false w = none) f v)
      (EmbeddedOk E S (fun w => validate E S false w = none)) where
  plain i f u u' hs hs' h h' hk := by
    unfold FieldOk
    cases ht : f.typ with
    | one e => exact value_big h h' hk
    | rep e =>
      rcases big_cases h with ⟨_, _, _, rfl⟩ | ⟨_, rfl⟩ | ⟨_, rfl⟩ <;>
      rcases big_cases h' with ⟨_, _, _, rfl⟩ | ⟨_, rfl⟩ | ⟨_, rfl⟩ <;> simp_all [Sorted]
    | map kt vt =>
      rcases big_cases h with ⟨_, _, _, rfl⟩ | ⟨_, rfl⟩ | ⟨_, rfl⟩ <;>
      rcases big_cases h' with ⟨_, _, _, rfl⟩ | ⟨_, rfl⟩ | ⟨_, rfl⟩ <;> simp_all [Sorted]
  perm i f kt vt kvs kvs' ht hp := by
    unfold FieldOk
    simp only [ht]
    split
    · have he : kvs = [] ↔ kvs' = [] := by
        rw [← List.length_eq_zero_iff, hp.length_eq, List.length_eq_zero_iff]
      simp only [MapOk, he, hp.length_eq, hp.mem_iff]
    · simp only [hp.mem_iff]
    · rfl
  entry i f kt vt l k u u' r ht hr hk := by
    obtain ⟨h, h'⟩ := reorder_big hr
    unfold FieldOk
    simp only [ht]
    split
    · have hl : (l ++ (k, u) :: r).length = (l ++ (k, u') :: r).length := by simp
      simp only [MapOk, hl, List.append_eq_nil_iff, List.cons_ne_nil, and_false]
      rw [forall_mem_subst]
      simp only [value_big h h' hk, ne_eq, big_ne h, big_ne h']
    · exact forall_mem_subst (by simp only [hk])
    · rfl
  item i f e l u u' r ht hr hk := by
    obtain ⟨h, h'⟩ := reorder_big hr
    unfold FieldOk
    simp only [ht]
    split
    · have hl : (l ++ u :: r).length = (l ++ u' :: r).length := by simp
      simp only [RepeatedOk, hl, List.append_eq_nil_iff, List.cons_ne_nil, and_false, pairwise_big h h']
      rw [forall_mem_subst]
      exact value_big h h' hk
    · exact forall_mem_subst (by simp only [hk])
    · rfl
  field typ l n u u' r os hr hf := by
    unfold EmbeddedOk
    dsimp only
    cases hS : S typ with
    | legacy => exact hE _ _ (.field hr)
    | foreign => rfl
    | generated d =>
      refine imp_congr Iff.rfl ?_
      rw [validate_spec, validate_spec]
      simp only [MessageOk, hS]
      refine imp_congr Iff.rfl (and_congr ?_ Iff.rfl)
      refine forall_congr' fun f => imp_congr Iff.rfl ?_
      rcases getField_subst (l := l) (n := n) (u := u) (u' := u') (r := r) (f := f) with he | ⟨h1, h2⟩
      · rw [he]
      · rw [h1, h2]; exact hf () _
  member typ fs l n m u u' r hr hf := by
    unfold EmbeddedOk
    dsimp only
    cases hS : S typ with
    | legacy => exact hE _ _ (.member hr)
    | foreign => rfl
    | generated d =>
      refine imp_congr Iff.rfl ?_
      rw [validate_spec, validate_spec]
      simp only [MessageOk, hS]
      refine imp_congr Iff.rfl (and_congr Iff.rfl ?_)
      refine forall_congr' fun o => imp_congr Iff.rfl ?_
      rcases lookup_subst (l := l) (n := n) (u := (m, u)) (u' := (m, u')) (r := r) (x := o.name) with he | ⟨h1, h2⟩
      · rw [he]
      · rw [h1, h2]
        exact forall_congr' fun f => imp_congr Iff.rfl (hf () _)
  other u u' hr hn := by
    have hn' := reorder_not_msg hr hn
    have e1 : EmbeddedOk E S (fun w => validate E S false w = none) u := by
      cases u <;> first | trivial | exact absurd rfl (hn _ _ _)
    have e2 : EmbeddedOk E S (fun w => validate E S false w = none) u' := by
      cases u' <;> first | trivial | exact absurd rfl (hn' _ _ _)
    simp only [e1, e2]

/-- Types whose validator the generator wrote also count when `ignored`: `Validate` is called all the same. -/
theorem verdict (E : Env) (S : Schema) (hE : Respects fun v => E.legacy v = none) {v w : Val} (h : Reorder v w) :
    validate E S false v = none ↔ validate E S false w = none := by
  have step : ∀ {u u' : Val}, Reorder u u' → (validate E S false u = none ↔ validate E S false u' = none) := by
    intro u u' h
    induction h with
    | trans _ _ h1 h2 => exact h1.trans h2
    | @field typ l n u u' r os hu =>
      have hf := ((compositional E S hE).verdict hu).1
      rw [validate_spec, validate_spec]
      unfold MessageOk
      dsimp only
      cases S typ with
      | generated d =>
        refine imp_congr Iff.rfl (and_congr ?_ Iff.rfl)
        refine forall_congr' fun f => imp_congr Iff.rfl ?_
        rcases getField_subst (l := l) (n := n) (u := u) (u' := u') (r := r) (f := f) with he | ⟨h1, h2⟩
        · rw [he]
        · rw [h1, h2]; exact hf () _
      | _ => exact Iff.rfl
    | @member typ fs l n m u u' r hu =>
      have hf := ((compositional E S hE).verdict hu).1
      rw [validate_spec, validate_spec]
      unfold MessageOk
      dsimp only
      cases S typ with
      | generated d =>
        refine imp_congr Iff.rfl (and_congr Iff.rfl ?_)
        refine forall_congr' fun o => imp_congr Iff.rfl ?_
        rcases lookup_subst (l := l) (n := n) (u := (m, u)) (u' := (m, u')) (r := r) (x := o.name) with he | ⟨h1, h2⟩
        · rw [he]
        · rw [h1, h2]
          exact forall_congr' fun f => imp_congr Iff.rfl (hf () _)
      | _ => exact Iff.rfl
    | _ => rw [validate_spec, validate_spec]; exact Iff.rfl
  exact step h

end PGV.MapOrder.Go
