import Verif.Lemmas.Index

/-!
Properties of the Java validator indexes (C44, C45, C64).
-/

set_option linter.unusedSimpArgs false

namespace PGV.Props
open PGV PGV.Java PGV.Spec

/-! ### C44 -/

/-- **C44** A validator looked up for a class applies the implementation registered last for that
class, whenever it was registered: before the lookup or after it, up to the moment of use. -/
theorem C44_last_registered {K M : Type} [DecidableEq K] (fallback : Fallback K M)
    (before : List (ExplicitOp K M)) (k : K) (after : List (ExplicitOp K M)) (i : Impl M)
    (hi : lastAdded k (before ++ after) = some i) (m : M) :
    explicitOutcome fallback before k after m = i m := by
  have hf : Faithful (({} : Explicit K M).steps before) :=
    faithful_steps (by intro k c h; simp [Table.get] at h) before
  simp only [explicitOutcome, Explicit.run]
  rw [faithful_lookup hf, steps_impls, lookup_impls, steps_impls]
  have : lastAdded k (before ++ after) = (lastAdded k after).or (lastAdded k before) := by
    unfold lastAdded
    rw [List.filterMap_append, List.getLast?_append]
  rw [this] at hi
  cases h1 : lastAdded k after with
  | some j => simp_all
  | none => simp_all [Table.get]

/-- **C44, negation** When no implementation is registered for a class, every message of the class is
accepted, whatever the fallback index says: its validator is fetched and never run. -/
theorem C44_fallback_ignored {K M : Type} [DecidableEq K] (fallback : Fallback K M)
    (before : List (ExplicitOp K M)) (k : K) (after : List (ExplicitOp K M))
    (hi : lastAdded k (before ++ after) = none) (m : M) :
    explicitOutcome fallback before k after m = .ok () := by
  have hf : Faithful (({} : Explicit K M).steps before) :=
    faithful_steps (by intro k c h; simp [Table.get] at h) before
  simp only [explicitOutcome, Explicit.run]
  rw [faithful_lookup hf, steps_impls, lookup_impls, steps_impls]
  have : lastAdded k (before ++ after) = (lastAdded k after).or (lastAdded k before) := by
    unfold lastAdded
    rw [List.filterMap_append, List.getLast?_append]
  rw [this] at hi
  cases h1 : lastAdded k after with
  | some j => simp_all
  | none => simp_all [Table.get]

/-- C44, negation: `ValidatorIndex.ALWAYS_INVALID` as a fallback (ValidatorIndex.java:33-39) should
reject, and the index accepts. -/
theorem C44_always_invalid_accepts (m : Unit) :
    let reject : Fallback String Unit := fun _ _ => .error (.validation "UNKNOWN" "Explicitly invalid")
    explicitOutcome reject [] "Foo" [] m = .ok () ∧
      documented reject "Foo" m (lastAdded "Foo" []) ≠ .ok () := by
  intro reject
  exact ⟨C44_fallback_ignored reject [] "Foo" [] rfl m, by simp [documented, lastAdded, reject]⟩

/-- **C44, partial** Missing: classes without an implementation when the fallback index rejects
something (`C44_always_invalid_accepts`). With the default fallback, which accepts everything, the
index does what it documents, for every history. -/
theorem C44_explicit_partial {K M : Type} [DecidableEq K] (fallback : Fallback K M)
    (before : List (ExplicitOp K M)) (k : K) (after : List (ExplicitOp K M)) (m : M)
    (h : lastAdded k (before ++ after) = none → fallback k m = .ok ()) :
    explicitOutcome fallback before k after m =
      documented fallback k m (lastAdded k (before ++ after)) := by
  cases hl : lastAdded k (before ++ after) with
  | some i => rw [C44_last_registered fallback before k after i hl]; rfl
  | none => rw [C44_fallback_ignored fallback before k after hl, documented, h hl]

/-- The class is registered, looked up, registered again with another implementation. -/
example : lastAdded "Foo" ([.add "Foo" (fun (_ : Nat) => .ok ()), .lookup "Bar"] ++
    [.add "Bar" fun _ => .ok (), .add "Foo" fun n => if n = 0 then .error (.validation "n" "zero") else .ok ()]) =
    some fun n => if n = 0 then .error (.validation "n" "zero") else .ok () := rfl

/-! ### C45 -/

/-- **C45** If a class loads the same way each time, then each lookup returns what loading the class
afresh would give, whatever was looked up before. -/
theorem C45_transparent {K V : Type} [DecidableEq K] (L : Loader K V) (fresh : K → Option V)
    (h : ∀ n k, (match L.reflect n k with | some v => some v | none => L.fallback n k) = fresh k)
    (ks : List K) : reflectiveResults L ks = ks.map fresh :=
  transparent fresh h _ (by intro k v h; simp [Table.get] at h) ks

/-- **C45** Even if loading is not repeatable, two lookups of the same class on one index return the
same validator, as long as the fallback never returns `null`. -/
theorem C45_same_validator {K V : Type} [DecidableEq K] (L : Loader K V)
    (h : ∀ n k, L.reflect n k ≠ none ∨ L.fallback n k ≠ none) (ks : List K) (i j : Nat) (k : K)
    (hi : ks[i]? = some k) (hj : ks[j]? = some k) :
    (reflectiveResults L ks)[i]? = (reflectiveResults L ks)[j]? := by
  have hL : ∀ n k, load L n k ≠ none := by
    intro n k
    unfold load
    split
    · simp
    · rename_i e
      exact (h n k).resolve_left (fun h' => h' e)
  rcases Nat.le_total i j with hij | hij
  · exact same_results L hL {} ks i j hij k hi hj
  · exact (same_results L hL {} ks j i hij k hj hi).symm

/-- **C45** Reflection is tried exactly for the classes looked up, and once for each; the fallback is
asked at most once for each. -/
theorem C45_loads_once {K V : Type} [DecidableEq K] (L : Loader K V)
    (h : ∀ n k, L.reflect n k ≠ none ∨ L.fallback n k ≠ none) (ks : List K) :
    (classesReflected L ks).Nodup ∧ (∀ k, k ∈ classesReflected L ks ↔ k ∈ ks) ∧
      (classesAsked L ks).Nodup ∧ (∀ k, k ∈ classesAsked L ks → k ∈ ks) := by
  have hL : ∀ n k, load L n k ≠ none := by
    intro n k
    unfold load
    split
    · simp
    · rename_i e
      exact (h n k).resolve_left (fun h' => h' e)
  obtain ⟨h1, h2⟩ := sound_lookups hL (sound_empty L) ks
  have h2' : ∀ k, k ∈ classesReflected L ks ↔ k ∈ ks := by
    intro k
    simpa [classesReflected] using h2 k
  exact ⟨h1.once, h2', h1.asked, fun k hk => (h2' k).1 (h1.sub k hk)⟩

/-- What is recorded was reflected on, and the fallback is asked exactly where reflection fails. -/
structure FallbackOnly {K V : Type} [DecidableEq K] (found : K → Option V) (s : Reflective K V) : Prop where
  recorded : ∀ k v, s.index.get k = some v → k ∈ s.reflected
  asked : ∀ k, k ∈ s.asked ↔ k ∈ s.reflected ∧ found k = none

theorem fallbackOnly_step {K V : Type} [DecidableEq K] {L : Loader K V} {found : K → Option V}
    (hL : ∀ n k, L.reflect n k = found k) {s : Reflective K V} (h : FallbackOnly found s) (k : K) :
    FallbackOnly found (s.validatorFor L k).1 ∧ k ∈ (s.validatorFor L k).1.reflected ∧
      ∀ k', k' ∈ s.reflected → k' ∈ (s.validatorFor L k).1.reflected := by
  unfold Reflective.validatorFor
  cases e : s.index.get k with
  | some v => exact ⟨h, h.recorded k v e, fun _ h => h⟩
  | none =>
    have hask : ∀ k', k' ∈ (if (L.reflect s.reflected.length k).isNone = true then k :: s.asked else s.asked) ↔
        k' ∈ k :: s.reflected ∧ found k' = none := by
      intro k'
      rw [hL]
      by_cases hk : k' = k
      · subst hk
        cases hf : found k' with
        | none => simp
        | some v => simp [h.asked, hf]
      · split <;> simp [hk, h.asked]
    cases el : load L s.reflected.length k with
    | none =>
      simp only [el]
      exact ⟨⟨fun k' v hv => List.mem_cons_of_mem _ (h.recorded k' v hv), hask⟩, List.mem_cons_self,
        fun _ h => List.mem_cons_of_mem _ h⟩
    | some v =>
      simp only [el]
      refine ⟨⟨fun k' v' hv => ?_, hask⟩, List.mem_cons_self, fun _ h => List.mem_cons_of_mem _ h⟩
      by_cases hk : k = k'
      · subst hk; exact List.mem_cons_self
      · rw [get_put_ne _ _ hk] at hv
        exact List.mem_cons_of_mem _ (h.recorded k' v' hv)

/-- **C45** The fallback is asked exactly for the classes looked up for which reflection finds no validator. -/
theorem C45_fallback_only {K V : Type} [DecidableEq K] (L : Loader K V) (found : K → Option V)
    (hL : ∀ n k, L.reflect n k = found k) (ks : List K) (k : K) :
    k ∈ classesAsked L ks ↔ k ∈ ks ∧ found k = none := by
  have key : ∀ (ks : List K) (s : Reflective K V), FallbackOnly found s →
      FallbackOnly found (s.lookups L ks).1 ∧ (∀ k, k ∈ (s.lookups L ks).1.reflected → k ∈ s.reflected ∨ k ∈ ks) ∧
        (∀ k, k ∈ ks ∨ k ∈ s.reflected → k ∈ (s.lookups L ks).1.reflected) := by
    intro ks
    induction ks with
    | nil => intro s h; exact ⟨h, fun k hk => .inl hk, fun k hk => hk.resolve_left (by simp)⟩
    | cons a ks ih =>
      intro s h
      obtain ⟨h1, h2, h3⟩ := fallbackOnly_step hL h a
      obtain ⟨h4, h5, h6⟩ := ih _ h1
      simp only [Reflective.lookups]
      refine ⟨h4, fun k hk => ?_, fun k hk => ?_⟩
      · rcases h5 k hk with hk | hk
        · have : k = a ∨ k ∈ s.reflected := by
            unfold Reflective.validatorFor at hk
            cases e : s.index.get a with
            | some v => simp only [e] at hk; exact .inr hk
            | none =>
              cases el : load L s.reflected.length a <;> simp only [e, el] at hk <;> exact List.mem_cons.1 hk
          rcases this with rfl | h
          · exact .inr List.mem_cons_self
          · exact .inl h
        · exact .inr (List.mem_cons_of_mem _ hk)
      · rcases hk with hk | hk
        · rcases List.mem_cons.1 hk with rfl | hk
          · exact h6 _ (.inr h2)
          · exact h6 _ (.inl hk)
        · exact h6 _ (.inr (h3 _ hk))
  obtain ⟨h1, h2, h3⟩ := key ks {} ⟨by intro k v h; simp [Table.get] at h, by simp⟩
  unfold classesAsked
  rw [h1.asked]
  refine and_congr_left fun _ => ⟨fun h => by simpa using h2 k h, fun h => h3 k (.inl h)⟩

/-- A loader that finds "A" only and whose answers change over time; it is asked for "A" and "B". -/
example : let L : Loader String Nat :=
      { reflect := fun n k => if k = "A" then some n else none, fallback := fun n _ => some (100 + n) }
    (∀ n k, L.reflect n k ≠ none ∨ L.fallback n k ≠ none) ∧
      reflectiveResults L ["A", "B", "A", "B"] = [some 0, some 101, some 0, some 101] :=
  ⟨fun _ _ => .inr (by simp), by decide⟩

/-! ### C64 -/

theorem path_ne_nil {p : List String} {ms : List JMsg} (h : Within p ms) : p ≠ [] := by
  cases h <;> simp

/-- **C64** For every message of a file that is not ignored, at any nesting depth, reflection finds
the validator generated for that message: with one outer class for the file, always; with
`java_multiple_files`, when the generator's class name for the enclosing top-level message is its
proto name. -/
theorem C64_reflection_finds_partial (sanitize : String → String) (f : JFile)
    (loadClass : String → Option (ValidatorClass (List String)))
    (hload : Loads loadClass (emitted sanitize f)) (p : List String) (hp : Within p f.msgs)
    (hs : f.multiple = true → ∀ n, p.head? = some n → sanitize n = n) :
    reflectiveValidatorFor loadClass (f.classOf p) = some (some p) := by
  have hne := path_ne_nil hp
  unfold reflectiveValidatorFor
  rw [outermost_eq _ _ (Nat.le_refl _)]
  have q : ∀ n, qualify f.pkg n ++ "Validator" = qualify f.pkg (n ++ "Validator") := by
    intro n
    unfold qualify
    split <;> simp [String.append_assoc]
  by_cases hm : f.multiple = true
  · cases p with
    | nil => exact absurd rfl hne
    | cons n p =>
      have hn := hs hm n rfl
      have hmem : ∃ i ns, JMsg.mk n i ns ∈ f.msgs ∧ (p = [] ∨ (p ≠ [] ∧ Within p ns)) := by
        cases hp with
        | top h => exact ⟨_, _, h, .inl rfl⟩
        | nested h hw => exact ⟨_, _, h, .inr ⟨path_ne_nil hw, hw⟩⟩
      obtain ⟨i, ns, hmem, hcase⟩ := hmem
      have := hload (qualify f.pkg (sanitize n ++ "Validator"), _) (by
        unfold emitted
        rw [if_pos hm]
        exact List.mem_map.2 ⟨_, hmem, rfl⟩)
      simp only [JMsg.name] at this
      simp only [JFile.classOf, hm, if_true, List.headD_cons, q, hn ▸ this]
      rcases hcase with rfl | ⟨hp0, hw⟩
      · simp
      · have h1 : (⟨f.pkg, n, p⟩ : JClass) ≠ ⟨f.pkg, n, []⟩ := by simp [hp0]
        have h2 := dispatch_found f (ms := allNested [n] (.mk n i ns)) (p := n :: p) (by simp)
          (by
            have := mem_allOf hw [n]
            simpa [allNested] using this)
          (by
            intro m hm
            obtain ⟨a, b, h⟩ := allNested_ne [n] _ m hm
            rw [h]
            simp)
        simp only [JFile.classOf, hm, if_true, List.headD_cons, List.tail_cons] at h2
        simp [h1, h2]
  · have := hload (qualify f.pkg (f.outer ++ "Validator"), dispatch f (allOf [] f.msgs)) (by
      unfold emitted
      rw [if_neg hm]
      simp)
    simp only at this
    have hc : (f.classOf p) = ⟨f.pkg, f.outer, p⟩ := by simp [JFile.classOf, hm]
    rw [hc]
    simp only [q, this]
    rw [← hc, dispatch_found f hne (by simpa using mem_allOf hp [])
      (by
        intro m hm
        obtain ⟨a, b, h⟩ := allOf_ne [] _ m hm
        rw [h]
        simp)]

/-- **C64, negation** With `java_multiple_files`, a top-level message whose name the generator changes
(such as `foo`, whose validator is called `FooValidator`) has a generated validator that reflection
does not find, so a reflective index silently uses its fallback, which by default accepts
everything. -/
theorem C64_renamed_not_found (sanitize : String → String) (n : String) (hn : sanitize n ≠ n) :
    let f : JFile := { pkg := "p", outer := "O", multiple := true, msgs := [.mk n false []] }
    let loadClass := fun c => (emitted sanitize f).lookup c
    Loads loadClass (emitted sanitize f) ∧
      reflectiveValidatorFor loadClass (f.classOf [n]) = none := by
  intro f loadClass
  refine ⟨?_, ?_⟩
  · intro e he
    simp only [f, emitted, if_true, List.map_cons, List.map_nil, List.mem_singleton] at he
    subst he
    simp [loadClass, f, emitted, List.lookup]
  · unfold reflectiveValidatorFor
    rw [outermost_eq _ _ (Nat.le_refl _)]
    have hne : ¬ (qualify "p" n ++ "Validator" = qualify "p" (sanitize n ++ "Validator")) := by
      simp only [qualify]
      intro h
      apply hn
      simp only [show ("p" : String) ≠ "" by decide, if_false] at h
      have h' := congrArg String.toList h
      simp only [String.toList_append, List.append_assoc] at h'
      have h2 := List.append_cancel_left (List.append_cancel_left h')
      exact (String.toList_inj.1 (List.append_cancel_right h2)).symm
    simp only [JFile.classOf, f, if_true, List.headD_cons, loadClass, emitted, List.map_cons,
      List.map_nil, JMsg.name, List.lookup]
    have : (qualify "p" n ++ "Validator" == qualify "p" (sanitize n ++ "Validator")) = false := by
      simpa using hne
    simp [this]

/-- C64, ignored messages: in a file with one outer class, reflection on an ignored message finds a
validator class without an entry for it: the validator obtained throws a NullPointerException when it
is used, where one might expect everything to be accepted. -/
theorem C64_ignored_throws (sanitize : String → String) (pkg outer n : String) :
    let f : JFile := { pkg := pkg, outer := outer, multiple := false, msgs := [.mk n true []] }
    let loadClass := fun c => (emitted sanitize f).lookup c
    reflectiveValidatorFor loadClass (f.classOf [n]) = some none := by
  intro f loadClass
  unfold reflectiveValidatorFor
  rw [outermost_eq _ _ (Nat.le_refl _)]
  have q : qualify pkg outer ++ "Validator" = qualify pkg (outer ++ "Validator") := by
    unfold qualify
    split <;> simp [String.append_assoc]
  simp [JFile.classOf, f, loadClass, emitted, q, dispatch, allOf, allNested, JMsg.ignored, JMsg.name]

/-- A file with a message nested in an ignored one meets the hypotheses. -/
example : let f : JFile := { pkg := "p", outer := "O", multiple := true,
                             msgs := [.mk "A" true [.mk "B" false []], .mk "C" false []] }
    Loads (fun c => (emitted id f).lookup c) (emitted id f) ∧ Within ["A", "B"] f.msgs := by
  refine ⟨?_, .nested (List.mem_cons_self) (.top List.mem_cons_self)⟩
  intro e he
  simp only [emitted, if_true, List.map_cons, List.map_nil, List.mem_cons, List.not_mem_nil, or_false,
    id, JMsg.name] at he
  have h1 : ("p.CValidator" == "p.AValidator") = false := by decide
  rcases he with rfl | rfl
  · simp [emitted, JMsg.name, List.lookup]
  · simp [emitted, JMsg.name, List.lookup, qualify, h1]

end PGV.Props
