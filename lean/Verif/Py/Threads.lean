import Verif.Py.Cache

/-!
`validate` called from several threads (python/protoc_gen_validate/validator.py:49-63). Threads take turns between
bytecode instructions; the lookups and updates of `functools.lru_cache` are indivisible, `printer += …` is a load and
a store. Otherwise threads share nothing.
-/

namespace PGV.Py

/-- Where a thread is in `validate(m)` (python/protoc_gen_validate/validator.py:49-63). -/
inductive Point (D M : Type) where
  /-- Between calls. -/
  | idle
  /-- Before the lookup in the cache (validator.py:50,54). -/
  | enter (m : M)
  /-- Before `file_template(proto_message)` (validator.py:56). -/
  | render (m : M)
  /-- Before `printer` is loaded (validator.py:58). -/
  | load (m : M)
  /-- Before `printer` is stored; `old` was loaded (validator.py:58). -/
  | store (m : M) (old : List D)
  /-- Before `exec(func)` (validator.py:59-63). -/
  | exec (m : M)
  /-- Before the function goes into the cache (validator.py:54). -/
  | insert (m : M) (f : M → Prog M)
  /-- In a generated validator (validator.py:50). -/
  | run (p : Prog M)

/-- A thread: where it is, the validators that wait for a nested call, what it still has to validate, and what its
calls returned (python/protoc_gen_validate/validator.py:49-50,307-310). -/
structure Thread (D M : Type) where
  point : Point D M := .idle
  stack : List (Run → Prog M) := []
  todo : List M
  results : List Run := []

variable {D M : Type}

/-- A call of `validate` returns or raises (python/protoc_gen_validate/validator.py:50). -/
def Thread.return (t : Thread D M) (r : Run) : Thread D M :=
  match t.stack with
  | [] => { t with point := .idle, results := t.results ++ [r] }
  | k :: ks => { t with point := .run (k r), stack := ks }

/-- The turn of a thread (python/protoc_gen_validate/validator.py:49-63). `cap` is the size of the cache, `n` the number of
nested calls before a RecursionError. When another thread has put the same key into the cache in the meantime,
`lru_cache` leaves it there. -/
def Thread.step (G : Generator D M) (cap n : Nat) (st : CacheState D M) (t : Thread D M) : CacheState D M × Thread D M :=
  match t.point with
  | .idle =>
    match t.todo with
    | [] => (st, t)
    | m :: ms => (st, { t with point := .enter m, todo := ms })
  | .enter m =>
    if n ≤ t.stack.length then (st, t.return (.error .crash))
    else
      let name := G.name (G.desc m)
      match st.cache.lookup name with
      | some f =>
        ({ st with cache := (name, f) :: st.cache.filter fun e => e.1 != name }, { t with point := .run (f m) })
      | none => (st, { t with point := .render m })
  | .render m =>
    if G.renders (G.desc m) then (st, { t with point := .load m }) else (st, t.return (.error .crash))
  | .load m => (st, { t with point := .store m st.printed })
  | .store m old => ({ st with printed := old ++ [G.desc m] }, { t with point := .exec m })
  | .exec m =>
    match G.code (G.desc m) with
    | some f => (st, { t with point := .insert m f })
    | none => (st, t.return (.error .crash))
  | .insert m f =>
    let name := G.name (G.desc m)
    match st.cache.lookup name with
    | some _ => (st, { t with point := .run (f m) })
    | none => ({ st with cache := ((name, f) :: st.cache).take cap }, { t with point := .run (f m) })
  | .run (.done r) => (st, t.return r)
  | .run (.call m k) => (st, { t with point := .enter m, stack := k :: t.stack })

/-- The module and the threads (python/protoc_gen_validate/validator.py:14,53-55). -/
structure Machine (D M : Type) where
  shared : CacheState D M
  threads : List (Thread D M)

/-- Threads that have not begun (python/protoc_gen_validate/validator.py:14,49). -/
def Machine.start (work : List (List M)) : Machine D M := ⟨.init, work.map fun ms => { todo := ms }⟩

/-- The turn of the thread `i` (python/protoc_gen_validate/validator.py:49-63). -/
def Machine.turn (G : Generator D M) (cap n : Nat) (s : Machine D M) (i : Nat) : Machine D M :=
  match s.threads[i]? with
  | none => s
  | some t =>
    let (st, t') := t.step G cap n s.shared
    ⟨st, s.threads.set i t'⟩

/-- Turns in the order the scheduler gives them (python/protoc_gen_validate/validator.py:49-63). -/
def Machine.run (G : Generator D M) (cap n : Nat) : Machine D M → List Nat → Machine D M
  | s, [] => s
  | s, i :: is => (s.turn G cap n i).run G cap n is

end PGV.Py
