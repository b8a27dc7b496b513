import Verif.Py.Threads
import Verif.Lemmas.PyCache

/-!
For C77: what a thread will return, and how many turns it needs, do not depend on the other threads.
-/

set_option linter.unusedSimpArgs false

namespace PGV.Py
open PGV.Spec.Python

variable {D M : Type} (G : Generator D M) (n : Nat)

/-- What the outermost call returns when the innermost one returns `r`. -/
def finish : List (Run → Prog M) → Run → Run
  | [], r => r
  | k :: ks, r => finish ks (runFresh (freshValidate G (n - 1 - ks.length)) (k r))

/-- What the innermost call will return. -/
def Point.value (L : Nat) : Point D M → Option Run
  | .idle => none
  | .enter m | .render m | .load m | .store m _ | .exec m => some (freshValidate G (n - L) m)
  | .insert m f => some (runFresh (freshValidate G (n - 1 - L)) (f m))
  | .run p => some (runFresh (freshValidate G (n - 1 - L)) p)

/-- What is known where the thread is. -/
def Point.side (L : Nat) : Point D M → Prop
  | .idle => L = 0
  | .enter _ | .run _ => True
  | .render _ => L < n
  | .load m | .store m _ | .exec m => L < n ∧ G.renders (G.desc m) = true
  | .insert m f => L < n ∧ G.renders (G.desc m) = true ∧ G.code (G.desc m) = some f

/-- The thread is on its way to the results of `ms`. -/
structure Thread.Sound (ms : List M) (t : Thread D M) : Prop where
  side : t.point.side G n t.stack.length
  results : t.results ++ ((t.point.value G n t.stack.length).map (finish G n t.stack)).toList ++
    t.todo.map (freshValidate G n) = ms.map (freshValidate G n)

/-- Turns for a program, given those for nested calls and what they return. -/
def progCost (c : M → Nat) (res : M → Run) : Prog M → Nat
  | .done _ => 1
  | .call m k => 1 + c m + progCost c res (k (res m))

/-- Turns that are enough for `validate(m)`. -/
def callCost : Nat → M → Nat
  | 0, _ => 1
  | n + 1, m => 6 +
    match (if G.renders (G.desc m) then G.code (G.desc m) else none) with
    | none => 0
    | some f => progCost (callCost n) (freshValidate G n) (f m)

/-- Turns for the waiting validators. -/
def stackCost : List (Run → Prog M) → Run → Nat
  | [], _ => 0
  | k :: ks, r =>
    progCost (callCost G (n - 1 - ks.length)) (freshValidate G (n - 1 - ks.length)) (k r) +
      stackCost ks (runFresh (freshValidate G (n - 1 - ks.length)) (k r))

/-- Turns for the innermost call. -/
def Point.cost (L : Nat) : Point D M → Nat
  | .idle => 0
  | .enter m => callCost G (n - L) m
  | .render m => callCost G (n - L) m - 1
  | .load m => callCost G (n - L) m - 2
  | .store m _ => callCost G (n - L) m - 3
  | .exec m => callCost G (n - L) m - 4
  | .insert m f => 1 + progCost (callCost G (n - 1 - L)) (freshValidate G (n - 1 - L)) (f m)
  | .run p => progCost (callCost G (n - 1 - L)) (freshValidate G (n - 1 - L)) p

/-- Turns that are enough for the rest of the thread. -/
def Thread.cost (t : Thread D M) : Nat :=
  t.point.cost G n t.stack.length +
  (match t.point.value G n t.stack.length with
    | some r => stackCost G n t.stack r
    | none => 0) +
  (t.todo.map fun m => 1 + callCost G n m).sum

variable {G n}

theorem freshValidate_some {L : Nat} {m : M} {f : M → Prog M} (hL : L < n) (hr : G.renders (G.desc m) = true)
    (hc : G.code (G.desc m) = some f) :
    freshValidate G (n - L) m = runFresh (freshValidate G (n - 1 - L)) (f m) ∧
    callCost G (n - L) m = 6 + progCost (callCost G (n - 1 - L)) (freshValidate G (n - 1 - L)) (f m) := by
  obtain ⟨j, rfl⟩ : ∃ j, n = j + 1 + L := ⟨n - L - 1, by omega⟩
  have h1 : j + 1 + L - L = j + 1 := by omega
  have h2 : j + 1 + L - 1 - L = j := by omega
  rw [h1, h2, freshValidate, callCost]
  simp [hr, hc]

theorem freshValidate_none {L : Nat} {m : M} (h : n ≤ L ∨ G.renders (G.desc m) = false ∨ G.code (G.desc m) = none) :
    freshValidate G (n - L) m = .error .crash := by
  by_cases hL : n ≤ L
  · rw [show n - L = 0 by omega, freshValidate]
  · obtain ⟨j, rfl⟩ : ∃ j, n = j + 1 + L := ⟨n - L - 1, by omega⟩
    rw [show j + 1 + L - L = j + 1 by omega, freshValidate]
    rcases h with h | h | h
    · omega
    · simp [h]
    · by_cases hr : G.renders (G.desc m) = true <;> simp [h, hr]

theorem callCost_pos (k : Nat) (m : M) : 1 ≤ callCost G k m := by
  cases k <;> simp [callCost] <;> omega

theorem callCost_six {L : Nat} {m : M} (hL : L < n) : 6 ≤ callCost G (n - L) m := by
  obtain ⟨j, rfl⟩ : ∃ j, n = j + 1 + L := ⟨n - L - 1, by omega⟩
  rw [show j + 1 + L - L = j + 1 by omega, callCost]
  omega

theorem progCost_pos (c : M → Nat) (res : M → Run) (p : Prog M) : 1 ≤ progCost c res p := by
  cases p <;> simp [progCost] <;> omega

/-- Returning what was expected keeps the thread sound; it costs what waits. -/
theorem return_sound {ms : List M} {t : Thread D M} {r : Run}
    (h : t.results ++ [finish G n t.stack r] ++ t.todo.map (freshValidate G n) = ms.map (freshValidate G n)) :
    (t.return r).Sound G n ms ∧
      (t.return r).cost G n = stackCost G n t.stack r + (t.todo.map fun m => 1 + callCost G n m).sum := by
  unfold Thread.return
  cases hs : t.stack with
  | nil =>
    rw [hs] at h
    exact ⟨⟨by simp [Point.side, hs], by simpa [Point.value, finish] using h⟩,
      by simp [Thread.cost, Point.cost, Point.value, stackCost]⟩
  | cons k ks =>
    rw [hs] at h
    exact ⟨⟨by simp [Point.side], by simpa [Point.value, finish] using h⟩,
      by simp [Thread.cost, Point.cost, Point.value, stackCost]⟩

/-- A turn keeps the cache good and the thread sound, and brings the thread nearer to its end unless it has ended. -/
theorem step_sound {cap : Nat} (hG : OnePool G) {st : CacheState D M} (hst : Good G cap st) {ms : List M}
    {t : Thread D M} (ht : t.Sound G n ms) :
    Good G cap (t.step G cap n st).1 ∧ (t.step G cap n st).2.Sound G n ms ∧
      ((t.point = .idle ∧ t.todo = [] ∧ (t.step G cap n st).2 = t) ∨
        (t.step G cap n st).2.cost G n < t.cost G n) := by
  obtain ⟨point, stack, todo, results⟩ := t
  obtain ⟨hside, hres⟩ := ht
  simp only at hside hres
  have crash : ∀ m : M, freshValidate G (n - stack.length) m = .error .crash →
      results ++ [finish G n stack (freshValidate G (n - stack.length) m)] ++ todo.map (freshValidate G n) =
        ms.map (freshValidate G n) → ∀ p c, 1 ≤ c → Point.cost G n stack.length p = c →
      p.value G n stack.length = some (freshValidate G (n - stack.length) m) →
      (Thread.return (⟨p, stack, todo, results⟩ : Thread D M) (.error .crash)).Sound G n ms ∧
      (Thread.return (⟨p, stack, todo, results⟩ : Thread D M) (.error .crash)).cost G n <
        (⟨p, stack, todo, results⟩ : Thread D M).cost G n := by
    intro m hm hr p c hc hpc hpv
    rw [hm] at hr hpv
    obtain ⟨h1, h2⟩ := return_sound (t := ⟨p, stack, todo, results⟩) (r := .error .crash) hr
    refine ⟨h1, ?_⟩
    rw [h2]
    simp only [Thread.cost, hpc, hpv]
    omega
  cases point with
  | idle =>
    simp only [Point.side, List.length_eq_zero_iff] at hside
    subst hside
    cases todo with
    | nil => exact ⟨hst, ⟨rfl, hres⟩, .inl ⟨rfl, rfl, rfl⟩⟩
    | cons m todo =>
      refine ⟨hst, ⟨trivial, ?_⟩, .inr ?_⟩
      · simpa [Thread.step, Point.value, finish] using hres
      · simp [Thread.step, Thread.cost, Point.cost, Point.value, stackCost]
  | enter m =>
    simp only [Point.value, Option.map_some, Option.toList_some] at hres
    simp only [Thread.step]
    by_cases hL : n ≤ stack.length
    · rw [if_pos hL]
      obtain ⟨h1, h2⟩ := crash m (freshValidate_none (.inl hL)) hres (.enter m) _ (callCost_pos _ _) rfl rfl
      exact ⟨hst, h1, .inr h2⟩
    · rw [if_neg hL]
      have hL' : stack.length < n := by omega
      cases hl : st.cache.lookup (G.name (G.desc m)) with
      | none =>
        refine ⟨hst, ⟨hL', by simpa [Point.value] using hres⟩, .inr ?_⟩
        have := callCost_six (G := G) (m := m) hL'
        simp only [Thread.cost, Point.cost, Point.value]
        omega
      | some f =>
        have hgood := inner_good hG hst (G.desc m)
        simp only [inner, hl] at hgood
        obtain ⟨hr, hc⟩ := hst.code _ (lookup_mem hl) (G.desc m) rfl
        simp only at hc
        obtain ⟨h1, h2⟩ := freshValidate_some hL' hr hc
        rw [h1] at hres
        refine ⟨hgood.2, ⟨trivial, by simpa [Point.value] using hres⟩, .inr ?_⟩
        simp only [Thread.cost, Point.cost, Point.value, h1, h2]
        omega
  | render m =>
    simp only [Point.side] at hside
    simp only [Point.value, Option.map_some, Option.toList_some] at hres
    simp only [Thread.step]
    have h6 := callCost_six (G := G) (m := m) hside
    by_cases hr : G.renders (G.desc m) = true
    · rw [if_pos hr]
      refine ⟨hst, ⟨⟨hside, hr⟩, by simpa [Point.value] using hres⟩, .inr ?_⟩
      simp only [Thread.cost, Point.cost, Point.value]
      omega
    · rw [if_neg hr]
      obtain ⟨h1, h2⟩ := crash m (freshValidate_none (.inr (.inl (by simpa using hr)))) hres (.render m)
        (callCost G (n - stack.length) m - 1) (by omega) rfl rfl
      exact ⟨hst, h1, .inr h2⟩
  | load m =>
    simp only [Point.value, Option.map_some, Option.toList_some] at hres
    simp only [Thread.step]
    have h6 := callCost_six (G := G) (m := m) hside.1
    refine ⟨hst, ⟨hside, by simpa [Point.value] using hres⟩, .inr ?_⟩
    simp only [Thread.cost, Point.cost, Point.value]
    omega
  | store m old =>
    simp only [Point.value, Option.map_some, Option.toList_some] at hres
    simp only [Thread.step]
    have h6 := callCost_six (G := G) (m := m) hside.1
    refine ⟨⟨hst.code, hst.nodup, hst.size⟩, ⟨hside, by simpa [Point.value] using hres⟩, .inr ?_⟩
    simp only [Thread.cost, Point.cost, Point.value]
    omega
  | exec m =>
    obtain ⟨hL, hr⟩ := hside
    simp only [Point.value, Option.map_some, Option.toList_some] at hres
    simp only [Thread.step]
    have h6 := callCost_six (G := G) (m := m) hL
    cases hc : G.code (G.desc m) with
    | none =>
      obtain ⟨h1, h2⟩ := crash m (freshValidate_none (.inr (.inr hc))) hres (.exec m)
        (callCost G (n - stack.length) m - 4) (by omega) rfl rfl
      exact ⟨hst, h1, .inr h2⟩
    | some f =>
      obtain ⟨h1, h2⟩ := freshValidate_some hL hr hc
      rw [h1] at hres
      refine ⟨hst, ⟨⟨hL, hr, hc⟩, by simpa [Point.value] using hres⟩, .inr ?_⟩
      simp only [Thread.cost, Point.cost, Point.value, h1, h2]
      omega
  | insert m f =>
    obtain ⟨hL, hr, hc⟩ := hside
    simp only [Point.value, Option.map_some, Option.toList_some] at hres
    simp only [Thread.step]
    cases hl : st.cache.lookup (G.name (G.desc m)) with
    | some g =>
      refine ⟨hst, ⟨trivial, by simpa [Point.value] using hres⟩, .inr ?_⟩
      simp only [Thread.cost, Point.cost, Point.value]
      omega
    | none =>
      have hgood := (inner_good hG hst (G.desc m)).2
      simp only [inner, hl, hr, hc, if_true] at hgood
      refine ⟨⟨hgood.code, hgood.nodup, hgood.size⟩, ⟨trivial, by simpa [Point.value] using hres⟩, .inr ?_⟩
      simp only [Thread.cost, Point.cost, Point.value]
      omega
  | run p =>
    cases p with
    | done r =>
      simp only [Point.value, Option.map_some, Option.toList_some, runFresh] at hres
      simp only [Thread.step]
      obtain ⟨h1, h2⟩ := return_sound (t := ⟨.run (.done r), stack, todo, results⟩) (r := r) hres
      refine ⟨hst, h1, .inr ?_⟩
      rw [h2]
      simp only [Thread.cost, Point.cost, Point.value, progCost, runFresh]
      omega
    | call m k =>
      simp only [Point.value, Option.map_some, Option.toList_some, runFresh] at hres
      simp only [Thread.step]
      have hn : n - (stack.length + 1) = n - 1 - stack.length := by omega
      refine ⟨hst, ⟨trivial, by simpa [Point.value, finish, hn] using hres⟩, .inr ?_⟩
      simp only [Thread.cost, Point.cost, Point.value, progCost, runFresh, List.length_cons, hn]
      have hsc : ∀ r, stackCost G n (k :: stack) r =
          progCost (callCost G (n - 1 - stack.length)) (freshValidate G (n - 1 - stack.length)) (k r) +
            stackCost G n stack (runFresh (freshValidate G (n - 1 - stack.length)) (k r)) := fun r => rfl
      rw [hsc]
      omega

/-- All threads are sound. -/
structure MachineSound (G : Generator D M) (cap n : Nat) (work : List (List M)) (s : Machine D M) : Prop where
  good : Good G cap s.shared
  length : s.threads.length = work.length
  sound : ∀ (i : Nat) (t : Thread D M) (ms : List M), s.threads[i]? = some t → work[i]? = some ms → Thread.Sound G n ms t

theorem start_sound (cap : Nat) (work : List (List M)) : MachineSound G cap n work (.start work) := by
  refine ⟨good_init G cap, by simp [Machine.start], ?_⟩
  intro i t ms ht hms
  simp only [Machine.start, List.getElem?_map, hms, Option.map_some, Option.some.injEq] at ht
  subst ht
  exact ⟨rfl, by simp [Point.value]⟩

theorem turn_sound {cap : Nat} (hG : OnePool G) {work : List (List M)} {s : Machine D M}
    (h : MachineSound G cap n work s) (i : Nat) : MachineSound G cap n work (s.turn G cap n i) := by
  unfold Machine.turn
  cases hi : s.threads[i]? with
  | none => exact h
  | some t =>
    have hlen : i < s.threads.length := (List.getElem?_eq_some_iff.1 hi).1
    obtain ⟨ms, hms⟩ : ∃ ms, work[i]? = some ms := ⟨_, List.getElem?_eq_getElem (by rw [← h.length]; exact hlen)⟩
    have hs := step_sound hG h.good (h.sound i t ms hi hms)
    refine ⟨hs.1, by simp [h.length], ?_⟩
    intro j t' ms' ht' hms'
    simp only [List.getElem?_set] at ht'
    by_cases hij : i = j
    · subst hij
      simp only [if_true, hlen, Option.some.injEq] at ht'
      rw [hms] at hms'
      cases hms'
      subst ht'
      exact hs.2.1
    · simp only [hij, if_false] at ht'
      exact h.sound j t' ms' ht' hms'

theorem run_sound {cap : Nat} (hG : OnePool G) {work : List (List M)} (sched : List Nat) : ∀ {s : Machine D M},
    MachineSound G cap n work s → MachineSound G cap n work (s.run G cap n sched) := by
  induction sched with
  | nil => exact fun h => h
  | cons i is ih => exact fun h => ih (turn_sound hG h i)

/-- After enough turns the thread has ended. -/
theorem run_ends {cap : Nat} (hG : OnePool G) {work : List (List M)} (i : Nat) (ms : List M) (hms : work[i]? = some ms)
    (sched : List Nat) : ∀ {s : Machine D M} {t : Thread D M}, MachineSound G cap n work s → s.threads[i]? = some t →
      t.cost G n ≤ sched.count i →
      ∃ t', (s.run G cap n sched).threads[i]? = some t' ∧ t'.cost G n = 0 := by
  induction sched with
  | nil => exact fun {s t} _ ht hc => ⟨t, ht, by simpa using hc⟩
  | cons j js ih =>
    intro s t h ht hc
    have h' := turn_sound hG h j
    by_cases hij : j = i
    · subst hij
      have hs := (step_sound hG h.good (h.sound j t ms ht hms)).2.2
      have hlen : j < s.threads.length := (List.getElem?_eq_some_iff.1 ht).1
      have hget : (s.turn G cap n j).threads[j]? = some (t.step G cap n s.shared).2 := by
        simp only [Machine.turn, ht, List.getElem?_set, hlen, if_true]
      rw [List.count_cons_self] at hc
      rcases hs with ⟨hp, htd, hsame⟩ | hlt
      · refine ih h' hget ?_
        have : t.cost G n = 0 := by
          obtain ⟨point, stack, todo, results⟩ := t
          simp only at hp htd
          subst hp htd
          simp [Thread.cost, Point.cost, Point.value]
        rw [hsame]
        omega
      · exact ih h' hget (by omega)
    · have hget : (s.turn G cap n j).threads[i]? = some t := by
        unfold Machine.turn
        cases hj : s.threads[j]? with
        | none => exact ht
        | some u => simp [List.getElem?_set, hij, ht]
      rw [List.count_cons_of_ne (by simpa using hij)] at hc
      exact ih h' hget hc

/-- A thread without turns to go has all its results. -/
theorem results_of_cost {ms : List M} {t : Thread D M} (h : t.Sound G n ms) (hc : t.cost G n = 0) :
    t.results = ms.map (freshValidate G n) := by
  obtain ⟨point, stack, todo, results⟩ := t
  have hres := h.results
  have hp : point = .idle := by
    have h0 : point.cost G n stack.length = 0 := by
      simp only [Thread.cost] at hc
      omega
    have hside := h.side
    simp only at hside
    cases point with
    | idle => rfl
    | enter m => have := callCost_pos (G := G) (n - stack.length) m; simp only [Point.cost] at h0; omega
    | render m => have := callCost_six (G := G) (m := m) hside; simp only [Point.cost] at h0; omega
    | load m => have := callCost_six (G := G) (m := m) hside.1; simp only [Point.cost] at h0; omega
    | store m old => have := callCost_six (G := G) (m := m) hside.1; simp only [Point.cost] at h0; omega
    | exec m => have := callCost_six (G := G) (m := m) hside.1; simp only [Point.cost] at h0; omega
    | insert m f => simp only [Point.cost] at h0; omega
    | run p =>
      have := progCost_pos (callCost G (n - 1 - stack.length)) (freshValidate G (n - 1 - stack.length)) p
      simp only [Point.cost] at h0
      omega
  subst hp
  have ht : todo = [] := by
    cases todo with
    | nil => rfl
    | cons m ms => simp [Thread.cost, Point.cost, Point.value] at hc
  subst ht
  simpa [Point.value] using hres

end PGV.Py
