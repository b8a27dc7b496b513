import Verif.Spec.CppRegistry

/-!
The registry of C++ validators.
-/

set_option linter.unusedSimpArgs false
set_option autoImplicit false

namespace PGV.Cpp
open PGV

variable {M : Type}

theorem Registry.lookup_set (r : Registry M) (t u : String) (f : Option (M → Run)) :
    (r.set t f).lookup u = if u = t then some f else r.lookup u := by
  have cons : ∀ (a : String) (g : Option (M → Run)) (l : Registry M),
      List.lookup u ((a, g) :: l) = if u = a then some g else List.lookup u l := by
    intro a g l
    simp only [List.lookup_cons]
    by_cases h : u = a
    · simp [h]
    · simp [h, beq_eq_false_iff_ne.2 h]
  induction r with
  | nil => simp only [Registry.set, cons]
  | cons p r ih =>
    obtain ⟨v, g⟩ := p
    simp only [Registry.set]
    by_cases h : t = v
    · subst h
      simp only [if_true, cons]
      by_cases hu : u = t <;> simp [hu]
    · simp only [h, if_false, cons, ih]
      by_cases hv : u = v
      · subst hv
        have : ¬ u = t := fun h' => h h'.symm
        simp [this]
      · simp [hv]

/-- The validator a call finds. -/
def Registry.find (r : Registry M) (t : String) : Option (M → Run) := (r.lookup t).getD none

theorem Registry.index_find (r : Registry M) (t : String) :
    (r.index t).1 = r.find t ∧ ∀ u, (r.index t).2.find u = r.find u := by
  unfold Registry.index Registry.find
  cases h : r.lookup t with
  | some f => simp
  | none =>
    refine ⟨rfl, fun u => ?_⟩
    simp only [Registry.lookup_set]
    by_cases hu : u = t
    · subst hu; simp [h]
    · simp [hu]

/-- What a step does to what later calls find. -/
theorem Registry.step_find (r : Registry M) (e : Event M) (t : String) :
    (r.step e).1.find t = match e with
      | .construct u f => if t = u then some f else r.find t
      | .check _ _ => r.find t := by
  cases e with
  | construct u f =>
    simp only [Registry.step, Registry.find, Registry.lookup_set]
    by_cases h : t = u <;> simp [h]
  | check u m =>
    have h := (Registry.index_find r u).2 t
    rcases hi : r.index u with ⟨_ | f, r'⟩ <;> rw [hi] at h <;> simp only [Registry.step, hi] <;> exact h

theorem Registry.step_check (r : Registry M) (t : String) (m : M) :
    (r.step (.check t m)).2 = some (Spec.Cpp.verdict (r.find t) m) := by
  have h := (Registry.index_find r t).1
  rcases hi : r.index t with ⟨_ | f, r'⟩ <;> rw [hi] at h <;> simp only at h <;>
    simp only [Registry.step, hi] <;> rw [← h] <;> rfl

open PGV.Spec.Cpp in
/-- The result of one more call. -/
theorem Registry.run_check (es : List (Event M)) (r : Registry M) (t : String) (m : M) :
    Registry.run r (es ++ [.check t m]) = Registry.run r es ++
      [verdict ((latest t es).or (r.find t)) m] := by
  induction es generalizing r with
  | nil =>
    simp only [List.nil_append, Registry.run, Registry.step_check, latest, constructed,
      List.filterMap_nil, List.getLast?_nil, Option.none_or, Option.toList, List.append_nil]
  | cons e es ih =>
    simp only [List.cons_append, Registry.run, ih, List.append_assoc]
    congr 3
    rw [Registry.step_find]
    cases e with
    | check u m' => simp [latest, constructed]
    | construct u f =>
      by_cases h : t = u
      · subst h
        have : latest t (.construct t f :: es) = (latest t es).or (some f) := by
          unfold latest constructed
          simp only [List.filterMap_cons, if_true, List.getLast?_cons]
          cases (List.filterMap _ es).getLast? <;> rfl
        rw [this]
        simp
      · have : latest t (.construct u f :: es) = latest t es := by
          unfold latest constructed
          simp [List.filterMap_cons, Ne.symm h]
        rw [this]
        simp [h]

end PGV.Cpp
