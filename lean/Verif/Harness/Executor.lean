/-!
The test executor (tests/harness/executor): the goroutines started by `run` and by `execTestCase`, and
how they communicate.
-/

namespace PGV.Harness

/-- What `Harness.Exec` gives: an error, or the harness's answer (tests/harness/harness.proto
`TestResult`), reduced to what is looked at. It always returns: the command runs under a context with
a deadline (worker.go:38). -/
inductive Answer
  | failed
  | result (valid error allowFailure checkMultiple : Bool) (reasons : Nat)

/-- `TestResult` of the executor (tests/harness/executor/cases.go). -/
structure Result where
  ok : Bool
  skipped : Bool
  deriving DecidableEq, Repr

/-- What is sent for a case with the given expected number of failures
(tests/harness/executor/worker.go:49-95). -/
def judge (failures : Nat) : Answer → Result
  | .failed => ⟨false, false⟩
  | .result valid error allowFailure checkMultiple reasons =>
    if error then ⟨false, false⟩
    else if !checkMultiple then
      if valid != (failures == 0) then
        if allowFailure then ⟨false, true⟩
        else ⟨false, false⟩
      else ⟨true, false⟩
    else if reasons != failures then
      if allowFailure then ⟨false, true⟩ else ⟨false, false⟩
    else ⟨true, false⟩

/-- The test cases, the harnesses, and how each harness answers each case. (Take cases paired with
their position to let equal cases be answered differently.) (tests/harness/executor/worker.go:23-49). -/
structure Setup where
  Case : Type
  Harness : Type
  /-- `tc.Failures`. -/
  failures : Case → Nat
  /-- Do `anypb.New` and `proto.Marshal` succeed? (worker.go:24-36) -/
  marshals : Case → Bool
  harnesses : List Harness
  exec : Case → Harness → Answer

variable (X : Setup)

/-- A goroutine of `execTestCase` (worker.go:46-96): before `Exec` returns, before sending its result,
before `wg.Done()`, ended. -/
inductive Sub
  | exec (h : X.Harness)
  | send (r : Result)
  | sent
  | gone

/-- A worker (worker.go:16-21): at `range in`; about to send the result for a case that does not marshal;
inside `execTestCase` with harnesses still to start, the goroutines started, and the counter of the
inner wait group; before `wg.Done()`; ended. -/
inductive Worker
  | idle
  | report
  | busy (c : X.Case) (toStart : List X.Harness) (subs : List (Sub X)) (wg : Nat)
  | leaving
  | gone

/-- The main goroutine in `run` (executor.go:104-113): feeding cases; at `wg.Wait()`; at `close(out)`; at
`<-done`; returned. -/
inductive Main
  | feed (rest : List X.Case)
  | wait
  | closeOut
  | waitDone
  | returned

/-- The collector (executor.go:91-102): at `range out`; adding to a counter; at `close(done)`; ended. -/
inductive Collector
  | recv
  | count (r : Result)
  | closing
  | gone

/-- A state of the program. Counters are natural numbers (in Go they are `uint64`)
(tests/harness/executor/executor.go:73-113). -/
structure State where
  main : Main X
  workers : List (Worker X)
  collector : Collector
  /-- The counter of the wait group of `run`. -/
  wg : Nat
  inClosed : Bool
  outClosed : Bool
  doneClosed : Bool
  successes : Nat
  failures : Nat
  skips : Nat

/-- What a worker does with a case it received (worker.go:24-44): the calls before the first
communication are local. -/
def start (c : X.Case) : Worker X :=
  if X.marshals c then .busy c X.harnesses [] X.harnesses.length else .report

/-- The start of `run` (executor.go:74-104), after its two checks. -/
def init (parallelism : Nat) (cases : List X.Case) : State X where
  main := .feed cases
  workers := List.replicate parallelism .idle
  collector := .recv
  wg := parallelism
  inClosed := false
  outClosed := false
  doneClosed := false
  successes := 0
  failures := 0
  skips := 0

/-- What a worker's step involves outside the worker and its own goroutines
(tests/harness/executor/worker.go:16-101). -/
inductive Act
  | local
  /-- Receive from `in`. -/
  | take (c : X.Case)
  /-- Find `in` closed. -/
  | eof
  /-- Send on `out`. -/
  | put (r : Result)
  /-- `wg.Done()`. -/
  | finish

variable {X}

/-- The steps of a worker and its goroutines (worker.go:16-101). -/
inductive Worker.Step : Worker X → Act X → Worker X → Prop
  | take (c : X.Case) : Step .idle (.take c) (start X c)
  | eof : Step .idle .eof .leaving
  /-- worker.go:27,34. -/
  | report : Step .report (.put ⟨false, false⟩) .idle
  /-- worker.go:44-46. -/
  | start {c h hs subs n} : Step (.busy c (h :: hs) subs n) .local (.busy c hs (subs ++ [.exec h]) n)
  /-- worker.go:49. -/
  | exec {c hs pre h post n} : Step (.busy c hs (pre ++ .exec h :: post) n) .local
      (.busy c hs (pre ++ .send (judge (X.failures c) (X.exec c h)) :: post) n)
  /-- worker.go:52-95. -/
  | send {c hs pre r post n} :
      Step (.busy c hs (pre ++ .send r :: post) n) (.put r) (.busy c hs (pre ++ .sent :: post) n)
  /-- The deferred `wg.Done()` (worker.go:47). -/
  | subDone {c hs pre post n} :
      Step (.busy c hs (pre ++ .sent :: post) (n + 1)) .local (.busy c hs (pre ++ .gone :: post) n)
  /-- `wg.Wait()` passes (worker.go:99). -/
  | join {c subs} : Step (.busy c [] subs 0) .local .idle
  /-- worker.go:20. -/
  | leave : Step .leaving .finish .gone

/-- Adding a result to the counters (executor.go:93-99). -/
def State.add (s : State X) (r : Result) : State X :=
  if r.skipped then { s with skips := s.skips + 1 }
  else if r.ok then { s with successes := s.successes + 1 }
  else { s with failures := s.failures + 1 }

/-- The steps of the program. Channels are unbuffered: a send and a receive are one step
(tests/harness/executor/executor.go:73-113; worker.go:16-101). -/
inductive Step : State X → State X → Prop
  /-- `in <- test` meets `range in` (executor.go:105, worker.go:17). -/
  | feed {s : State X} {c rest pre w w' post} : s.main = .feed (c :: rest) → s.inClosed = false →
      s.workers = pre ++ w :: post → Worker.Step w (.take c) w' →
      Step s { s with main := .feed rest, workers := pre ++ w' :: post }
  /-- `close(in)` (executor.go:107). -/
  | closeIn {s : State X} : s.main = .feed [] → s.inClosed = false →
      Step s { s with main := .wait, inClosed := true }
  /-- A worker finds `in` closed (worker.go:17). -/
  | eof {s : State X} {pre w w' post} : s.inClosed = true → s.workers = pre ++ w :: post →
      Worker.Step w .eof w' → Step s { s with workers := pre ++ w' :: post }
  /-- A worker or one of its goroutines acts on its own. -/
  | local {s : State X} {pre w w' post} : s.workers = pre ++ w :: post → Worker.Step w .local w' →
      Step s { s with workers := pre ++ w' :: post }
  /-- `out <- …` meets `range out` (worker.go:27,34,52-95, executor.go:92). -/
  | put {s : State X} {pre w w' post r} : s.workers = pre ++ w :: post → Worker.Step w (.put r) w' →
      s.collector = .recv → s.outClosed = false →
      Step s { s with workers := pre ++ w' :: post, collector := .count r }
  /-- `wg.Done()` (worker.go:20). -/
  | finish {s : State X} {pre w w' post n} : s.workers = pre ++ w :: post → Worker.Step w .finish w' →
      s.wg = n + 1 → Step s { s with workers := pre ++ w' :: post, wg := n }
  /-- executor.go:93-99. -/
  | count {s : State X} {r} : s.collector = .count r → Step s { s.add r with collector := .recv }
  /-- The collector finds `out` closed (executor.go:92). -/
  | drained {s : State X} : s.collector = .recv → s.outClosed = true →
      Step s { s with collector := .closing }
  /-- `close(done)` (executor.go:101). -/
  | closeDone {s : State X} : s.collector = .closing → s.doneClosed = false →
      Step s { s with collector := .gone, doneClosed := true }
  /-- `wg.Wait()` passes (executor.go:109). -/
  | waited {s : State X} : s.main = .wait → s.wg = 0 → Step s { s with main := .closeOut }
  /-- `close(out)` (executor.go:110). -/
  | closeOut {s : State X} : s.main = .closeOut → s.outClosed = false →
      Step s { s with main := .waitDone, outClosed := true }
  /-- `<-done`, and return (executor.go:111-113). -/
  | done {s : State X} : s.main = .waitDone → s.doneClosed = true →
      Step s { s with main := .returned }

/-- A goroutine is at an operation that panics: a send on a closed channel, closing a closed channel,
or a wait group counter below zero (tests/harness/executor/executor.go:101,107,110; worker.go:20,27,34,47). -/
inductive Panics : State X → Prop
  | sendIn {s : State X} {c rest} : s.main = .feed (c :: rest) → s.inClosed = true → Panics s
  | sendOut {s : State X} {w w' r} : w ∈ s.workers → Worker.Step w (.put r) w' → s.outClosed = true →
      Panics s
  | closeIn {s : State X} : s.main = .feed [] → s.inClosed = true → Panics s
  | closeOut {s : State X} : s.main = .closeOut → s.outClosed = true → Panics s
  | closeDone {s : State X} : s.collector = .closing → s.doneClosed = true → Panics s
  | done {s : State X} : Worker.leaving ∈ s.workers → s.wg = 0 → Panics s
  | subDone {s : State X} {c hs subs} : Worker.busy c hs subs 0 ∈ s.workers → Sub.sent ∈ subs → Panics s

/-- The states of a run with `parallelism` workers (tests/harness/executor/executor.go:73-113). -/
inductive Reachable (parallelism : Nat) (cases : List X.Case) : State X → Prop
  | init : Reachable parallelism cases (init X parallelism cases)
  | step {s t : State X} : Reachable parallelism cases s → Step s t → Reachable parallelism cases t

end PGV.Harness
