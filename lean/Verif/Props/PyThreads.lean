import Verif.Lemmas.PyThreads

/-!
C77: Python's `validate` called from several threads.
-/

set_option linter.unusedSimpArgs false

namespace PGV.Props
open PGV.Py PGV.Spec.Python

variable {D M : Type}

/-- **C77** If types with the same full name have the same rules then, however the scheduler interleaves the threads,
the calls of `validate` in each thread return or raise, in order, exactly what they would if the validator were generated
afresh for each of them and no other thread existed. -/
theorem C77_threads_independent (G : Generator D M) (hG : OnePool G) (cap n : Nat) (work : List (List M))
    (sched : List Nat) (i : Nat) (ms : List M) (hi : work[i]? = some ms) :
    ∃ t, ((Machine.start work).run G cap n sched).threads[i]? = some t ∧
      t.results <+: ms.map (freshValidate G n) := by
  have h := run_sound hG sched (start_sound (G := G) (n := n) cap work)
  have hlen : i < work.length := (List.getElem?_eq_some_iff.1 hi).1
  refine ⟨_, List.getElem?_eq_getElem (by rw [h.length]; exact hlen), ?_⟩
  have hs := (h.sound i _ ms (List.getElem?_eq_getElem (by rw [h.length]; exact hlen)) hi).results
  rw [← hs, List.append_assoc]
  exact List.prefix_append _ _

/-- **C77** No thread waits for another: there is a number of turns after which a thread has all its results, whatever
the other threads do and however often they run in between. -/
theorem C77_threads_finish (G : Generator D M) (hG : OnePool G) (cap n : Nat) (work : List (List M))
    (i : Nat) (ms : List M) (hi : work[i]? = some ms) :
    ∃ N, ∀ sched : List Nat, N ≤ sched.count i →
      ∃ t, ((Machine.start work).run G cap n sched).threads[i]? = some t ∧
        t.results = ms.map (freshValidate G n) := by
  let t0 : Thread D M := { todo := ms }
  have h0 : (Machine.start (D := D) work).threads[i]? = some t0 := by
    simp only [Machine.start, List.getElem?_map, hi, Option.map_some]
    rfl
  refine ⟨t0.cost G n, fun sched hs => ?_⟩
  have hstart := start_sound (G := G) (n := n) cap work
  obtain ⟨t, ht, hc⟩ := run_ends hG i ms hi sched hstart h0 hs
  exact ⟨t, ht, results_of_cost ((run_sound hG sched hstart).sound i t ms ht hi) hc⟩

/-- **C77** The cache keeps to its size and has one entry per name, under every schedule. -/
theorem C77_cache_bounded (G : Generator D M) (hG : OnePool G) (cap n : Nat) (work : List (List M)) (sched : List Nat) :
    let s := (Machine.start work).run G cap n sched
    s.shared.cache.length ≤ cap ∧ (s.shared.cache.map (·.1)).Nodup :=
  let h := (run_sound hG sched (start_sound (G := G) (n := n) cap work)).good
  ⟨h.size, h.nodup⟩

/-- Two types, "A" and "B", that accept their messages. -/
def plainTypes : Generator Bool Bool where
  desc m := m
  name d := if d then "A" else "B"
  renders _ := true
  code _ := some fun _ => .done (.ok ())

/-- **C77** (limit) The results are safe, what `print_validate` shows is not (C69 is about one thread): of two threads that validate messages of different types,
each loads the text before the other stores it, and the text of the first is lost although both calls were accepted and
both validators are in the cache. -/
theorem C77_print_loses :
    OnePool plainTypes ∧
    ∃ sched, let s := (Machine.start [[true], [false]]).run plainTypes 128 1000 sched
      s.threads.map (·.results) = [[.ok ()], [.ok ()]] ∧ s.shared.cache.map (·.1) = ["B", "A"] ∧
        s.shared.printed = [false] := by
  refine ⟨?_, [0, 0, 0, 0, 1, 1, 1, 1, 0, 0, 0, 0, 1, 1, 1, 1], rfl, rfl, rfl⟩
  intro d d' h
  exact ⟨rfl, rfl⟩

set_option maxRecDepth 8000 in
/-- The hypotheses are met by types that validate each other, in threads that interleave in the middle of a nested call;
the cache has one place. -/
example : ∃ G : Generator Nat Nat, OnePool G ∧
    (((Machine.start [[12], [5, 15]]).run G 1 10
      ((List.replicate 10 [0, 1]).flatten ++ List.replicate 40 1 ++ List.replicate 40 0)).threads.map (·.results)) =
      [[.error (.failed "" [])], [.ok (), .ok ()]] := by
  refine ⟨⟨fun m => m / 10, fun d => if d = 0 then "A" else "B", fun _ => true, fun d => some fun m =>
    if d = 0 then .done (.ok ()) else
      .call (m - 3) fun r => match r with | .ok _ => .done (.error (.failed "" [])) | .error _ => .done (.ok ())⟩, ?_, by rfl⟩
  intro d d' h
  refine ⟨rfl, ?_⟩
  by_cases hd : d = 0 <;> by_cases hd' : d' = 0 <;> simp [hd, hd'] at h ⊢

end PGV.Props
