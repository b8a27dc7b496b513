import Verif.Spec.Index

/-! Lemmas about the Java indexes. -/

set_option linter.unusedSimpArgs false
set_option autoImplicit false

namespace PGV.Java
open PGV PGV.Spec

variable {K V M : Type} [DecidableEq K]

theorem get_put_self (t : Table K V) (k : K) (v : V) : (t.put k v).get k = some v := by
  simp [Table.put, Table.get]

theorem get_put_ne (t : Table K V) {k k' : K} (v : V) (h : k ≠ k') : (t.put k v).get k' = t.get k' := by
  simp only [Table.put, Table.get, List.find?_cons, h, decide_false]
  congr 1
  induction t with
  | nil => rfl
  | cons e t ih =>
    by_cases he : e.1 = k
    · have : e.1 ≠ k' := fun h' => h (he.symm.trans h')
      simp only [List.filter_cons, he, List.find?_cons, ne_eq, not_true_eq_false, decide_false,
        Bool.false_eq_true, if_false, this]
      rw [← he]
      simpa [he, this, h] using ih
    · simp only [List.filter_cons, he, List.find?_cons, ne_eq, not_false_eq_true, decide_true, if_true]
      split <;> simp_all

theorem lookup_impls (s : Explicit K M) (k : K) : (s.validatorFor k).1.impls = s.impls := by
  unfold Explicit.validatorFor
  split <;> rfl

/-- The closure stored for a class captures that class. -/
def Faithful (s : Explicit K M) : Prop := ∀ k c, s.validators.get k = some c → c = k

theorem faithful_step {s : Explicit K M} (h : Faithful s) (o : ExplicitOp K M) : Faithful (s.step o) := by
  cases o with
  | add k i => exact h
  | lookup k =>
    show Faithful (s.validatorFor k).1
    unfold Explicit.validatorFor
    cases e : s.validators.get k with
    | some c => exact h
    | none =>
      intro k' c hc
      simp only at hc
      by_cases hk : k = k'
      · subst hk
        simp only [get_put_self, Option.some.injEq] at hc
        exact hc.symm
      · simp only [get_put_ne _ _ hk] at hc
        exact h _ _ hc

theorem faithful_steps {s : Explicit K M} (h : Faithful s) (l : List (ExplicitOp K M)) :
    Faithful (s.steps l) := by
  induction l generalizing s with
  | nil => exact h
  | cons o l ih => exact ih (faithful_step h o)

theorem faithful_lookup {s : Explicit K M} (h : Faithful s) (k : K) : (s.validatorFor k).2 = k := by
  unfold Explicit.validatorFor
  cases e : s.validators.get k with
  | some c => exact h _ _ e
  | none => rfl

theorem steps_impls (s : Explicit K M) (l : List (ExplicitOp K M)) (k : K) :
    (s.steps l).impls.get k = (lastAdded k l).or (s.impls.get k) := by
  induction l generalizing s with
  | nil => simp [Explicit.steps, lastAdded]
  | cons o l ih =>
    have : (s.steps (o :: l)) = (s.step o).steps l := rfl
    rw [this, ih]
    unfold lastAdded
    cases o with
    | lookup k' => simp [Explicit.step, lookup_impls]
    | add k' i =>
      by_cases hk : k' = k
      · subst hk
        simp only [Explicit.step, Explicit.add, get_put_self, List.filterMap_cons, if_true]
        rw [List.getLast?_cons]
        cases hl : (List.filterMap _ l).getLast? <;> simp
      · simp [Explicit.step, Explicit.add, get_put_ne _ _ hk, hk]

/-! ### The reflective index -/

/-- The invariant of a reflective index: with a loader that never gives `null`, the recorded classes
are those consulted, each once. -/
structure Sound (L : Loader K V) (s : Reflective K V) : Prop where
  recorded : ∀ k, (∃ v, s.index.get k = some v) ↔ k ∈ s.reflected
  once : s.reflected.Nodup
  asked : s.asked.Nodup
  sub : ∀ k, k ∈ s.asked → k ∈ s.reflected

theorem sound_empty (L : Loader K V) : Sound L ({} : Reflective K V) :=
  ⟨by simp [Table.get], by simp, by simp, by simp⟩

theorem sound_step {L : Loader K V} (hL : ∀ n k, load L n k ≠ none) {s : Reflective K V}
    (h : Sound L s) (k : K) : Sound L (s.validatorFor L k).1 := by
  unfold Reflective.validatorFor
  cases e : s.index.get k with
  | some v => exact h
  | none =>
    have hk : k ∉ s.reflected := by
      rw [← h.recorded, e]
      simp
    cases el : load L s.reflected.length k with
    | none => exact absurd el (hL _ _)
    | some v =>
      simp only [el]
      refine ⟨?_, ?_, ?_, ?_⟩
      · intro k'
        by_cases hk' : k = k'
        · subst hk'
          simp [get_put_self]
        · simp only [get_put_ne _ _ hk', h.recorded, List.mem_cons]
          constructor
          · exact .inr
          · rintro (rfl | h')
            · exact absurd rfl hk'
            · exact h'
      · exact List.nodup_cons.2 ⟨hk, h.once⟩
      · dsimp only
        split
        · exact List.nodup_cons.2 ⟨fun h' => hk (h.sub _ h'), h.asked⟩
        · exact h.asked
      · intro k' hk'
        dsimp only at hk'
        split at hk'
        · rcases List.mem_cons.1 hk' with rfl | h'
          · exact List.mem_cons_self
          · exact List.mem_cons_of_mem _ (h.sub _ h')
        · exact List.mem_cons_of_mem _ (h.sub _ hk')

/-- A lookup returns what is recorded, and leaves it recorded. -/
theorem get_after (L : Loader K V) (s : Reflective K V) (k k' : K) {v : V}
    (h : s.index.get k' = some v) : (s.validatorFor L k).1.index.get k' = some v := by
  unfold Reflective.validatorFor
  cases e : s.index.get k with
  | some w => exact h
  | none =>
    cases el : load L s.reflected.length k with
    | none => simpa only [el] using h
    | some w =>
      have : k ≠ k' := by rintro rfl; rw [e] at h; cases h
      simpa only [el, get_put_ne _ _ this] using h

theorem get_result (L : Loader K V) (s : Reflective K V) (k : K) {v : V}
    (h : (s.validatorFor L k).2 = some v) : (s.validatorFor L k).1.index.get k = some v := by
  unfold Reflective.validatorFor at *
  cases e : s.index.get k with
  | some w =>
    simp only [e] at h ⊢
    exact h
  | none =>
    cases el : load L s.reflected.length k with
    | none => simp [e, el] at h
    | some w =>
      simp only [e, el] at h ⊢
      rw [get_put_self]
      exact h

theorem get_hit (L : Loader K V) (s : Reflective K V) (k : K) {v : V} (h : s.index.get k = some v) :
    s.validatorFor L k = (s, some v) := by
  unfold Reflective.validatorFor
  rw [h]

theorem get_all (L : Loader K V) (s : Reflective K V) (ks : List K) (k' : K) {v : V}
    (h : s.index.get k' = some v) :
    ∀ i : Nat, ks[i]? = some k' → (s.lookups L ks).2[i]? = some (some v) := by
  induction ks generalizing s with
  | nil => simp
  | cons k ks ih =>
    intro i hi
    cases i with
    | zero =>
      simp only [List.getElem?_cons_zero, Option.some.injEq] at hi
      subst hi
      simp [Reflective.lookups, get_hit L s k h]
    | succ i => exact ih _ (get_after L s k k' h) i hi

theorem same_results (L : Loader K V) (hL : ∀ n k, load L n k ≠ none) (s : Reflective K V) (ks : List K) :
    ∀ i j : Nat, i ≤ j → ∀ k : K, ks[i]? = some k → ks[j]? = some k →
      (s.lookups L ks).2[i]? = (s.lookups L ks).2[j]? := by
  induction ks generalizing s with
  | nil => simp
  | cons k' ks ih =>
    intro i j hij k hi hj
    cases i with
    | succ i =>
      cases j with
      | zero => omega
      | succ j => exact ih _ i j (by omega) k hi hj
    | zero =>
      simp only [List.getElem?_cons_zero, Option.some.injEq] at hi
      subst hi
      cases j with
      | zero => rfl
      | succ j =>
        have hv : ∃ v, (s.validatorFor L k').2 = some v := by
          unfold Reflective.validatorFor
          cases e : s.index.get k' with
          | some w => exact ⟨w, rfl⟩
          | none =>
            cases el : load L s.reflected.length k' with
            | none => exact absurd el (hL _ _)
            | some w => exact ⟨w, by simp [el]⟩
        obtain ⟨v, hv⟩ := hv
        have h2 := get_all L (s.validatorFor L k').1 ks k' (get_result L s k' hv) j hj
        simpa [Reflective.lookups, hv] using h2.symm

theorem sound_lookups {L : Loader K V} (hL : ∀ n k, load L n k ≠ none) {s : Reflective K V}
    (h : Sound L s) (ks : List K) :
    Sound L (s.lookups L ks).1 ∧
      ∀ k, k ∈ (s.lookups L ks).1.reflected ↔ k ∈ s.reflected ∨ k ∈ ks := by
  induction ks generalizing s with
  | nil => exact ⟨h, by simp [Reflective.lookups]⟩
  | cons k' ks ih =>
    obtain ⟨h1, h2⟩ := ih (sound_step hL h k')
    refine ⟨h1, fun k => ?_⟩
    show k ∈ ((s.validatorFor L k').1.lookups L ks).1.reflected ↔ _
    rw [h2 k]
    have : k ∈ (s.validatorFor L k').1.reflected ↔ k = k' ∨ k ∈ s.reflected := by
      unfold Reflective.validatorFor
      cases e : s.index.get k' with
      | some w =>
        have hk' : k' ∈ s.reflected := (h.recorded k').1 ⟨w, e⟩
        constructor
        · exact .inr
        · rintro (rfl | h')
          · exact hk'
          · exact h'
      | none =>
        cases el : load L s.reflected.length k' with
        | none => exact absurd el (hL _ _)
        | some w => simp [el]
    rw [this, List.mem_cons]
    constructor
    · rintro ((h' | h') | h')
      · exact .inr (.inl h')
      · exact .inl h'
      · exact .inr (.inr h')
    · rintro (h' | h' | h')
      · exact .inl (.inr h')
      · exact .inl (.inl h')
      · exact .inr h'

/-- Everything recorded is what loading gives. -/
theorem transparent {L : Loader K V} (f : K → Option V) (hf : ∀ n k, load L n k = f k)
    (s : Reflective K V) (h : ∀ k v, s.index.get k = some v → f k = some v) (ks : List K) :
    (s.lookups L ks).2 = ks.map f := by
  induction ks generalizing s with
  | nil => rfl
  | cons k ks ih =>
    have key : (s.validatorFor L k).2 = f k ∧
        ∀ k' v, (s.validatorFor L k).1.index.get k' = some v → f k' = some v := by
      unfold Reflective.validatorFor
      cases e : s.index.get k with
      | some w => exact ⟨(h _ _ e).symm, h⟩
      | none =>
        cases el : load L s.reflected.length k with
        | none =>
          simp only [el]
          exact ⟨(el.symm.trans (hf _ _)), h⟩
        | some w =>
          simp only [el]
          refine ⟨(el.symm.trans (hf _ _)), fun k' v hv => ?_⟩
          by_cases hk : k = k'
          · subst hk
            rw [get_put_self] at hv
            rw [← hf s.reflected.length, el, hv]
          · rw [get_put_ne _ _ hk] at hv
            exact h _ _ hv
    show (s.validatorFor L k).2 :: ((s.validatorFor L k).1.lookups L ks).2 = _
    rw [key.1, ih _ key.2]
    rfl

/-! ### Emitted validators -/

theorem outermost_eq (n : Nat) (c : JClass) (h : c.inner.length ≤ n) :
    outermost n c = { c with inner := [] } := by
  induction n generalizing c with
  | zero =>
    have : c.inner = [] := List.eq_nil_of_length_eq_zero (by omega)
    cases c
    simp_all [outermost]
  | succ n ih =>
    unfold outermost JClass.enclosing
    by_cases hc : c.inner = []
    · cases c
      simp_all
    · simp only [hc, if_false]
      rw [ih]
      simp
      omega

theorem mem_allOf {p : List String} {ms : List JMsg} (h : Within p ms) :
    ∀ path, (path ++ p, false) ∈ allOf path ms := by
  induction h with
  | top hm =>
    rename_i n ns ms
    intro path
    induction ms with
    | nil => cases hm
    | cons m ms ih =>
      rcases List.mem_cons.1 hm with rfl | hm
      · simp [allOf, JMsg.name, JMsg.ignored]
      · simp only [allOf, List.mem_cons, List.mem_append]
        exact .inr (.inr (ih hm))
  | nested hm _ ih =>
    rename_i n i ns ms q _
    intro path
    induction ms with
    | nil => cases hm
    | cons m ms ihm =>
      simp only [allOf, List.mem_cons, List.mem_append]
      rcases List.mem_cons.1 hm with rfl | hm
      · have := ih (path ++ [n])
        simp only [allNested, JMsg.name, List.append_assoc, List.singleton_append] at this ⊢
        exact .inr (.inl this)
      · exact .inr (.inr (ihm hm))

mutual
theorem allNested_ne (path : List String) :
    ∀ m : JMsg, ∀ x ∈ allNested path m, ∃ n q, x.1 = path ++ n :: q
  | .mk _ _ ns => by
    unfold allNested
    exact allOf_ne path ns
theorem allOf_ne (path : List String) :
    ∀ ms : List JMsg, ∀ x ∈ allOf path ms, ∃ n q, x.1 = path ++ n :: q
  | [] => by simp [allOf]
  | m :: ms => by
    intro x hx
    simp only [allOf, List.mem_cons, List.mem_append] at hx
    rcases hx with rfl | hx | hx
    · exact ⟨m.name, [], rfl⟩
    · obtain ⟨n, q, h⟩ := allNested_ne (path ++ [m.name]) m x hx
      exact ⟨m.name, n :: q, by simpa using h⟩
    · exact allOf_ne path ms x hx
end

theorem classOf_inj (f : JFile) {p q : List String} (hp : p ≠ []) (hq : q ≠ [])
    (h : f.classOf p = f.classOf q) : p = q := by
  unfold JFile.classOf at h
  split at h
  · simp only [JClass.mk.injEq, true_and] at h
    cases p with
    | nil => exact absurd rfl hp
    | cons a p =>
      cases q with
      | nil => exact absurd rfl hq
      | cons b q => simpa using h
  · simpa using h

theorem dispatch_found (f : JFile) {ms : List (List String × Bool)} {p : List String} (hp : p ≠ [])
    (hm : (p, false) ∈ ms) (hn : ∀ m ∈ ms, m.1 ≠ []) : dispatch f ms (f.classOf p) = some p := by
  unfold dispatch
  cases e : ms.find? (fun m => !m.2 && f.classOf p == f.classOf m.1) with
  | none =>
    rw [List.find?_eq_none] at e
    have := e _ hm
    simp at this
  | some m =>
    have h1 := List.find?_some e
    have h2 := List.mem_of_find?_eq_some e
    simp only [Bool.and_eq_true, Bool.not_eq_true', beq_iff_eq] at h1
    simp [classOf_inj f hp (hn m h2) h1.2]

end PGV.Java
