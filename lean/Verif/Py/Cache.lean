import Verif.Py.Lib

/-!
`validate` and its cache of generated validators (python/protoc_gen_validate/validator.py:29-66). The
generated validators are programs that may call `validate` on other messages and go on depending on
what happens; what they compute is left open here (it is in Py/Templates.lean).
-/

namespace PGV.Py

/-- A running validator: it has ended, or calls `validate` on a message and continues with the
outcome (validator.py:307-310 and the loops of `repeated_template` and `map_template`). -/
inductive Prog (M : Type) where
  | done (r : Run)
  | call (m : M) (k : Run → Prog M)

/-- Message classes with descriptors `D` and messages `M`, and the generator
(python/protoc_gen_validate/validator.py:23-63,1023-1054). -/
structure Generator (D M : Type) where
  /-- `DESCRIPTOR` of a message. -/
  desc : M → D
  /-- `DESCRIPTOR.full_name`. -/
  name : D → String
  /-- `file_template` returns a text (rather than raising). -/
  renders : D → Bool
  /-- The function that `exec` defines, for a text that it accepts. -/
  code : D → Option (M → Prog M)

/-- The state of the module: the cache of `_validate_inner`, most recently used first, and the
descriptors whose text has been appended to `printer`, oldest first
(python/protoc_gen_validate/validator.py:54-55,178-180). -/
structure CacheState (D M : Type) where
  cache : List (String × (M → Prog M))
  printed : List D

/-- The state when the module has been loaded (validator.py:14). -/
def CacheState.init {D M : Type} : CacheState D M := ⟨[], []⟩

variable {D M : Type}

/-- `_validate_inner(ValidatingMessage(m))` (validator.py:29-63): `functools.lru_cache` with `cap`
places (128 by default), keyed by the full name of the descriptor. A hit moves the entry to the
front; a miss generates the function, and when the cache is full drops the entry used least
recently. Exceptions are not cached; the text is appended to `printer` before it is executed. -/
def inner (G : Generator D M) (cap : Nat) (st : CacheState D M) (d : D) :
    Option (M → Prog M) × CacheState D M :=
  match st.cache.lookup (G.name d) with
  | some c => (some c, { st with cache := (G.name d, c) :: st.cache.filter fun e => e.1 != G.name d })
  | none =>
    if G.renders d then
      match G.code d with
      | some c => (some c, { cache := ((G.name d, c) :: st.cache).take cap, printed := st.printed ++ [d] })
      | none => (none, { st with printed := st.printed ++ [d] })
    else (none, st)

/-- Run a program, given how `validate` transforms the state (python/protoc_gen_validate/validator.py:49-63). -/
def runProg {σ : Type} (call : σ → M → Run × σ) : σ → Prog M → Run × σ
  | st, .done r => (r, st)
  | st, .call m k => runProg call (call st m).2 (k (call st m).1)

/-- `validate(m)` (validator.py:51-52) with nested calls at most `n` deep (deeper nesting is a
RecursionError). -/
def cachedValidate (G : Generator D M) (cap : Nat) : Nat → CacheState D M → M → Run × CacheState D M
  | 0, st, _ => (.error .crash, st)
  | n + 1, st, m =>
    match inner G cap st (G.desc m) with
    | (none, st') => (.error .crash, st')
    | (some f, st') => runProg (cachedValidate G cap n) st' (f m)

/-- Calls of `validate`, one after the other; what each of them returned
(python/protoc_gen_validate/validator.py:49-50). -/
def session (G : Generator D M) (cap n : Nat) : CacheState D M → List M → List Run × CacheState D M
  | st, [] => ([], st)
  | st, m :: ms =>
    let (r, st') := cachedValidate G cap n st m
    let (rs, st'') := session G cap n st' ms
    (r :: rs, st'')

end PGV.Py
