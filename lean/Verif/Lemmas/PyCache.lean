import Verif.Spec.PyFresh

/-!
The cache of Python validators.
-/

set_option autoImplicit false

namespace PGV.Py
open PGV.Spec.Python

variable {D M : Type} {G : Generator D M}

/-- Every cached function is what the generator makes for any type of that name, names are different,
and the cache is not over its size. -/
structure Good (G : Generator D M) (cap : Nat) (st : CacheState D M) : Prop where
  code : ∀ e ∈ st.cache, ∀ d, G.name d = e.1 → G.renders d = true ∧ G.code d = some e.2
  nodup : (st.cache.map (·.1)).Nodup
  size : st.cache.length ≤ cap

theorem lookup_mem {α : Type} {l : List (String × α)} {n : String} {a : α}
    (h : l.lookup n = some a) : (n, a) ∈ l := by
  induction l with
  | nil => simp at h
  | cons e l ih =>
    rw [List.lookup_cons] at h
    split at h
    · rename_i he
      simp only [Option.some.injEq] at h
      subst h
      rw [beq_iff_eq] at he
      subst he
      exact List.mem_cons_self
    · exact List.mem_cons_of_mem _ (ih h)

theorem not_mem_lookup {α : Type} {l : List (String × α)} {n : String} (h : l.lookup n = none) :
    n ∉ l.map (·.1) := by
  induction l with
  | nil => simp
  | cons e l ih =>
    rw [List.lookup_cons] at h
    split at h
    · cases h
    · rename_i he
      simp only [List.map_cons, List.mem_cons, not_or]
      exact ⟨by simpa using he, ih h⟩

theorem filter_length_lt {α : Type} {l : List (String × α)} {n : String} {a : α} (h : (n, a) ∈ l) :
    (l.filter fun e => e.1 != n).length < l.length := by
  induction l with
  | nil => simp at h
  | cons e l ih =>
    rcases List.mem_cons.1 h with h | h
    · subst h
      simp only [List.filter_cons, bne_self_eq_false, Bool.false_eq_true, if_false, List.length_cons]
      exact Nat.lt_succ_of_le (List.length_filter_le _ _)
    · have := ih h
      rw [List.filter_cons]
      split <;> simp only [List.length_cons] <;> omega

theorem nodup_front {α : Type} {l : List (String × α)} (n : String) (a : α)
    (h : (l.map (·.1)).Nodup) :
    (((n, a) :: l.filter fun e => e.1 != n).map (·.1)).Nodup := by
  rw [List.map_cons, List.nodup_cons]
  constructor
  · simp only [List.mem_map, List.mem_filter, bne_iff_ne, not_exists, not_and, and_imp]
    intro e _ he he'
    exact he he'
  · exact h.sublist (List.filter_sublist.map _)

theorem nodup_take {α : Type} {l : List (String × α)} (cap : Nat) (h : (l.map (·.1)).Nodup) :
    ((l.take cap).map (·.1)).Nodup :=
  h.sublist ((List.take_sublist _ _).map _)

/-- `_validate_inner` returns what the generator makes, and keeps the cache good. -/
theorem inner_good {cap : Nat} (hG : OnePool G) {st : CacheState D M} (h : Good G cap st) (d : D) :
    (inner G cap st d).1 = (if G.renders d then G.code d else none) ∧ Good G cap (inner G cap st d).2 := by
  unfold inner
  cases hl : st.cache.lookup (G.name d) with
  | some c =>
    have hm := lookup_mem hl
    obtain ⟨h1, h2⟩ := h.code _ hm d rfl
    refine ⟨by simp [h1, h2], ?_, nodup_front _ _ h.nodup, ?_⟩
    · intro e he
      rcases List.mem_cons.1 he with rfl | he
      · exact h.code _ hm
      · exact h.code _ ((List.mem_filter.1 he).1)
    · have := filter_length_lt hm
      have := h.size
      simp only [List.length_cons]
      omega
  | none =>
    simp only
    cases hr : G.renders d with
    | false => exact ⟨by simp, by simpa using h⟩
    | true =>
      cases hc : G.code d with
      | none => exact ⟨by simp, h.code, h.nodup, h.size⟩
      | some c =>
        refine ⟨by simp, ?_, nodup_take _ ?_, ?_⟩
        · intro e he d' hd'
          rcases List.mem_cons.1 (List.mem_of_mem_take he) with rfl | he
          · have := hG d' d hd'
            exact ⟨this.1.trans hr, this.2.trans hc⟩
          · exact h.code e he d' hd'
        · rw [List.map_cons, List.nodup_cons]
          exact ⟨not_mem_lookup hl, h.nodup⟩
        · exact List.length_take_le _ _

theorem runProg_good {cap : Nat} {call : CacheState D M → M → Run × CacheState D M}
    {result : M → Run}
    (hc : ∀ st m, Good G cap st → (call st m).1 = result m ∧ Good G cap (call st m).2)
    (p : Prog M) : ∀ st, Good G cap st →
      (runProg call st p).1 = runFresh result p ∧ Good G cap (runProg call st p).2 := by
  induction p with
  | done r => intro st h; exact ⟨rfl, h⟩
  | call m k ih =>
    intro st h
    obtain ⟨h1, h2⟩ := hc st m h
    rw [runProg, runFresh, ← h1]
    exact ih _ _ h2

theorem validate_good {cap : Nat} (hG : OnePool G) (n : Nat) : ∀ st m, Good G cap st →
    (cachedValidate G cap n st m).1 = freshValidate G n m ∧ Good G cap (cachedValidate G cap n st m).2 := by
  induction n with
  | zero => intro st m h; exact ⟨rfl, h⟩
  | succ n ih =>
    intro st m h
    obtain ⟨h1, h2⟩ := inner_good hG h (G.desc m)
    rw [cachedValidate, freshValidate, ← h1]
    generalize inner G cap st (G.desc m) = x at h2
    obtain ⟨c, st'⟩ := x
    cases c with
    | none => exact ⟨rfl, h2⟩
    | some f => exact runProg_good ih (f m) st' h2

theorem session_good {cap : Nat} (hG : OnePool G) (n : Nat) (ms : List M) : ∀ st, Good G cap st →
    (session G cap n st ms).1 = ms.map (freshValidate G n) ∧ Good G cap (session G cap n st ms).2 := by
  induction ms with
  | nil => intro st h; exact ⟨rfl, h⟩
  | cons m ms ih =>
    intro st h
    obtain ⟨h1, h2⟩ := validate_good hG n st m h
    obtain ⟨h3, h4⟩ := ih _ h2
    exact ⟨by rw [session, List.map_cons, ← h1, ← h3], h4⟩

theorem good_init (G : Generator D M) (cap : Nat) : Good G cap .init :=
  ⟨by simp [CacheState.init], by simp [CacheState.init], by simp [CacheState.init]⟩

/-! ### How often a validator is generated -/

/-- As long as nothing is evicted: what has been printed is what is in the cache. -/
structure Kept (G : Generator D M) (names : List String) (st : CacheState D M) : Prop where
  cached : ∀ e ∈ st.cache, e.1 ∈ names
  nodup : (st.cache.map (·.1)).Nodup
  printed : ∀ n, n ∈ st.printed.map G.name ↔ n ∈ st.cache.map (·.1)
  once : (st.printed.map G.name).Nodup

theorem inner_kept {cap : Nat} {names : List String} (hn : names.length ≤ cap)
    (hall : ∀ d, G.name d ∈ names) (hc : ∀ d, (G.code d).isSome = true) {st : CacheState D M}
    (h : Kept G names st) (d : D) : Kept G names (inner G cap st d).2 := by
  unfold inner
  cases hl : st.cache.lookup (G.name d) with
  | some c =>
    have hm := lookup_mem hl
    refine ⟨?_, nodup_front _ _ h.nodup, ?_, h.once⟩
    · intro e he
      rcases List.mem_cons.1 he with rfl | he
      · exact h.cached _ hm
      · exact h.cached _ ((List.mem_filter.1 he).1)
    · intro n
      rw [h.printed n]
      simp only [List.map_cons, List.mem_cons, List.mem_map, List.mem_filter, bne_iff_ne]
      constructor
      · rintro ⟨e, he, rfl⟩
        by_cases hq : e.1 = G.name d
        · exact .inl hq
        · exact .inr ⟨e, ⟨he, hq⟩, rfl⟩
      · rintro (rfl | ⟨e, ⟨he, -⟩, rfl⟩)
        · exact ⟨_, hm, rfl⟩
        · exact ⟨e, he, rfl⟩
  | none =>
    simp only
    cases hr : G.renders d with
    | false => simpa using h
    | true =>
      cases hc' : G.code d with
      | none => simpa [hc'] using hc d
      | some c =>
        have hnd : (((G.name d, c) :: st.cache).map (·.1)).Nodup := by
          rw [List.map_cons, List.nodup_cons]
          exact ⟨not_mem_lookup hl, h.nodup⟩
        have hsub : ((G.name d, c) :: st.cache).map (·.1) ⊆ names := by
          intro x hx
          simp only [List.map_cons, List.mem_cons, List.mem_map] at hx
          rcases hx with rfl | ⟨e, he, rfl⟩
          · exact hall d
          · exact h.cached e he
        have hlen : ((G.name d, c) :: st.cache).length ≤ cap := by
          have := hnd.length_le_of_subset hsub
          rw [List.length_map] at this
          omega
        have htake : ((G.name d, c) :: st.cache).take cap = (G.name d, c) :: st.cache :=
          List.take_of_length_le hlen
        simp only [if_true, htake]
        refine ⟨fun e he => ?_, hnd, fun n => ?_, ?_⟩
        · exact hsub (List.mem_map_of_mem he)
        · simp only [List.map_append, List.map_cons, List.map_nil, List.mem_append, List.mem_cons,
            List.not_mem_nil, or_false]
          rw [h.printed n]
          exact or_comm
        · rw [List.map_append, List.nodup_append]
          refine ⟨h.once, by simp, ?_⟩
          intro x hx y hy
          simp only [List.map_cons, List.map_nil, List.mem_cons, List.not_mem_nil, or_false] at hy
          subst hy
          rintro rfl
          exact not_mem_lookup hl ((h.printed _).1 hx)

theorem runProg_keeps {σ : Type} {I : σ → Prop} {call : σ → M → Run × σ}
    (hc : ∀ st m, I st → I (call st m).2) (p : Prog M) : ∀ st, I st → I (runProg call st p).2 := by
  induction p with
  | done r => intro st h; exact h
  | call m k ih => intro st h; exact ih _ _ (hc st m h)

theorem validate_keeps {I : CacheState D M → Prop} {cap : Nat}
    (hi : ∀ st d, I st → I (inner G cap st d).2) (n : Nat) :
    ∀ st m, I st → I (cachedValidate G cap n st m).2 := by
  induction n with
  | zero => intro st m h; exact h
  | succ n ih =>
    intro st m h
    have := hi st (G.desc m) h
    rw [cachedValidate]
    generalize inner G cap st (G.desc m) = x at this
    obtain ⟨c, st'⟩ := x
    cases c with
    | none => exact this
    | some f => exact runProg_keeps ih (f m) st' this

theorem session_keeps {I : CacheState D M → Prop} {cap : Nat}
    (hi : ∀ st d, I st → I (inner G cap st d).2) (n : Nat) (ms : List M) :
    ∀ st, I st → I (session G cap n st ms).2 := by
  induction ms with
  | nil => intro st h; exact h
  | cons m ms ih => intro st h; exact ih _ (validate_keeps hi n st m h)

theorem kept_init (G : Generator D M) (names : List String) : Kept G names .init :=
  ⟨by simp [CacheState.init], by simp [CacheState.init], by simp [CacheState.init],
    by simp [CacheState.init]⟩

/-! ### What has been printed -/

/-- The types of the cached functions have been printed, and so has everything in `ds`; only texts that
were made have been printed. -/
structure Shown (G : Generator D M) (ds : List D) (st : CacheState D M) : Prop where
  cached : ∀ e ∈ st.cache, e.1 ∈ st.printed.map G.name
  made : ∀ d ∈ st.printed, G.renders d = true
  all : ds <+: st.printed

theorem inner_shown {cap : Nat} {ds : List D} {st : CacheState D M} (h : Shown G ds st) (d : D) :
    Shown G ds (inner G cap st d).2 := by
  unfold inner
  cases hl : st.cache.lookup (G.name d) with
  | some c =>
    refine ⟨?_, h.made, h.all⟩
    intro e he
    rcases List.mem_cons.1 he with rfl | he
    · exact h.cached _ (lookup_mem hl)
    · exact h.cached _ ((List.mem_filter.1 he).1)
  | none =>
    simp only
    cases hr : G.renders d with
    | false => simpa using h
    | true =>
      have hmade : ∀ x ∈ st.printed ++ [d], G.renders x = true := by
        intro x hx
        rcases List.mem_append.1 hx with hx | hx
        · exact h.made x hx
        · rw [List.mem_singleton.1 hx]; exact hr
      have hall : ds <+: st.printed ++ [d] := h.all.trans (List.prefix_append _ _)
      have hold : ∀ e ∈ st.cache, e.1 ∈ (st.printed ++ [d]).map G.name := fun e he => by
        rw [List.map_append]
        exact List.mem_append_left _ (h.cached e he)
      cases hc : G.code d with
      | none => exact ⟨hold, hmade, hall⟩
      | some c =>
        refine ⟨?_, hmade, hall⟩
        intro e he
        rcases List.mem_cons.1 (List.mem_of_mem_take he) with rfl | he
        · simp
        · exact hold e he

theorem inner_prints {cap : Nat} {ds : List D} {st : CacheState D M} (h : Shown G ds st) (d : D)
    (hr : G.renders d = true) : G.name d ∈ (inner G cap st d).2.printed.map G.name := by
  unfold inner
  cases hl : st.cache.lookup (G.name d) with
  | some c => exact h.cached _ (lookup_mem hl)
  | none =>
    simp only [hr, if_true]
    cases hc : G.code d <;> simp

theorem validate_prints {cap : Nat} (n : Nat) {ds : List D} {st : CacheState D M} (h : Shown G ds st)
    (m : M) (hr : G.renders (G.desc m) = true) :
    G.name (G.desc m) ∈ (cachedValidate G cap (n + 1) st m).2.printed.map G.name := by
  have h1 := inner_prints (cap := cap) h (G.desc m) hr
  have h2 := inner_shown (cap := cap) h (G.desc m)
  rw [cachedValidate]
  generalize inner G cap st (G.desc m) = x at h1 h2
  obtain ⟨c, st'⟩ := x
  cases c with
  | none => exact h1
  | some f =>
    have h3 : Shown G st'.printed st' := ⟨h2.cached, h2.made, List.prefix_refl _⟩
    have h4 := runProg_keeps (I := Shown G st'.printed)
      (validate_keeps (I := Shown G st'.printed) (fun st d hs => inner_shown (cap := cap) hs d) n)
      (f m) st' h3
    exact (h4.all.map G.name).subset h1

theorem session_prints {cap : Nat} (n : Nat) (ms : List M) : ∀ (st : CacheState D M) (ds : List D),
    Shown G ds st → ∀ m ∈ ms, G.renders (G.desc m) = true →
      G.name (G.desc m) ∈ (session G cap (n + 1) st ms).2.printed.map G.name := by
  induction ms with
  | nil => intro st ds _ m hm; cases hm
  | cons m ms ih =>
    intro st ds h m' hm' hr
    have h1 := validate_keeps (I := Shown G ds) (fun st d hs => inner_shown (cap := cap) hs d) (n + 1) st m h
    rcases List.mem_cons.1 hm' with rfl | hm'
    · have h2 := validate_prints (cap := cap) n h m' hr
      have h3 := session_keeps (I := Shown G (cachedValidate G cap (n + 1) st m').2.printed)
        (fun st d hs => inner_shown (cap := cap) hs d) (n + 1) ms _ ⟨h1.cached, h1.made, List.prefix_refl _⟩
      exact (h3.all.map G.name).subset h2
    · exact ih _ ds h1 m' hm' hr

theorem session_append {cap : Nat} (n : Nat) (ms later : List M) : ∀ st : CacheState D M,
    (session G cap n st (ms ++ later)).2 = (session G cap n (session G cap n st ms).2 later).2 := by
  induction ms with
  | nil => intro st; rfl
  | cons m ms ih => intro st; exact ih _

theorem shown_init (G : Generator D M) : Shown G [] .init :=
  ⟨by simp [CacheState.init], by simp [CacheState.init], List.nil_prefix⟩

end PGV.Py
