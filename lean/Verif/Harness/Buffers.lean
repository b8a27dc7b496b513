import Verif.Harness.Programs

/-!
The buffers that the runs of test programs share (tests/harness/executor/harness.go:73-109). Runs are goroutines, so they
take turns in any order.
-/

namespace PGV.Harness
open PGV

/-- A buffer, by its address (tests/harness/executor/harness.go:100). -/
abbrev Buf := Nat

/-- The pool and the memory: the buffers in the pool, what each buffer holds, and the first address not in use
(tests/harness/executor/harness.go:100). -/
structure Pool where
  free : List Buf := []
  content : Buf → Bytes := fun _ => []
  next : Nat := 0

/-- Writing to a buffer (tests/harness/executor/harness.go:81,82,107). -/
def Pool.set (P : Pool) (b : Buf) (x : Bytes) : Pool :=
  { P with content := fun a => if a = b then x else P.content a }

/-- `getBuf` (tests/harness/executor/harness.go:100-104): `sync.Pool` gives out any buffer it has, or a new one;
`choice` is the one it picks. -/
def Pool.get (P : Pool) (choice : Option Buf) : Pool × Buf :=
  match choice.filter (· ∈ P.free) with
  | some b => ({ P with free := P.free.erase b }, b)
  | none => ({ P.set P.next [] with next := P.next + 1 }, P.next)

/-- `b.Reset()` (tests/harness/executor/harness.go:107). -/
def Pool.reset (P : Pool) (b : Buf) : Pool := P.set b []

/-- `bufPool.Put(b)` (tests/harness/executor/harness.go:108). -/
def Pool.put (P : Pool) (b : Buf) : Pool := { P with free := b :: P.free }

/-- A run of a test program: what it writes, piece by piece, to its standard error (`true`) or output (`false`), and
whether `cmd.Run()` succeeds (tests/harness/executor/harness.go:79-84). `cmd.Run()` returns only after all output has been
copied. -/
structure Program where
  pieces : List (Bool × Bytes)
  succeeds : Bool

/-- What a run gives back: the answer, and the text of standard error for the log
(tests/harness/executor/harness.go:84-97). -/
structure Seen where
  answer : Answer
  log : Bytes

/-- Where a run is in the function that `initHarness` returns (tests/harness/executor/harness.go:74-97). The deferred
calls are made in reverse order. -/
inductive Point
  /-- Before the first `getBuf()` (harness.go:75). -/
  | begin
  /-- Before the second (harness.go:75). -/
  | second (out : Buf)
  /-- In `cmd.Run()`, after `n` pieces (harness.go:84). -/
  | command (out errs : Buf) (n : Nat)
  /-- `errs` is about to be reset, then put back (harness.go:77,107,108). -/
  | resetErrs (r : Seen) (out errs : Buf)
  | putErrs (r : Seen) (out errs : Buf)
  /-- `out` is about to be reset, then put back (harness.go:76,107,108). -/
  | resetOut (r : Seen) (out : Buf)
  | putOut (r : Seen) (out : Buf)
  | done (r : Seen)

/-- One step of a run (tests/harness/executor/harness.go:74-97). `proto.Unmarshal` and `String` copy what they read. -/
def Point.step (p : Program) (P : Pool) (choice : Option Buf) : Point → Pool × Point
  | .begin => ((P.get choice).1, .second (P.get choice).2)
  | .second out => ((P.get choice).1, .command out (P.get choice).2 0)
  | .command out errs n =>
    match p.pieces[n]? with
    | some (true, x) => (P.set errs (P.content errs ++ x), .command out errs (n + 1))
    | some (false, x) => (P.set out (P.content out ++ x), .command out errs (n + 1))
    | none =>
      (P, .resetErrs ⟨Harness.answer (if p.succeeds then .exit (P.content out) else .died), P.content errs⟩ out errs)
  | .resetErrs r out errs => (P.reset errs, .putErrs r out errs)
  | .putErrs r out errs => (P.put errs, .resetOut r out)
  | .resetOut r out => (P.reset out, .putOut r out)
  | .putOut r out => (P.put out, .done r)
  | .done r => (P, .done r)

/-- All runs, numbered, with the pool (tests/harness/executor/worker.go:45-50). -/
structure Runs where
  pool : Pool := {}
  points : Nat → Point := fun _ => .begin

/-- What happens next: a step of a run, or the garbage collector takes a buffer out of the pool
(tests/harness/executor/worker.go:47; `sync.Pool` at tests/harness/executor/harness.go:100). -/
inductive Turn
  | run (i : Nat) (choice : Option Buf)
  | collect (b : Buf)

/-- One turn (tests/harness/executor/worker.go:47-50). -/
def Runs.turn (progs : Nat → Program) (s : Runs) : Turn → Runs
  | .run i choice =>
    let x := (s.points i).step (progs i) s.pool choice
    { pool := x.1, points := fun j => if j = i then x.2 else s.points j }
  | .collect b => { s with pool := { s.pool with free := s.pool.free.erase b } }

/-- A schedule (tests/harness/executor/worker.go:45-50). -/
def Runs.after (progs : Nat → Program) (schedule : List Turn) : Runs := schedule.foldl (Runs.turn progs) {}

end PGV.Harness
