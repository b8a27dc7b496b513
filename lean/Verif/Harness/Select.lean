import Verif.Core.Bytes
import Verif.Harness.Executor
import Verif.Harness.Shard

/-!
Which programs the test executor runs and how it ends (tests/harness/executor/harness.go:18-71 and
executor.go:18-39,73-81).
-/

namespace PGV.Harness
open PGV

/-- A path, given as ASCII text (for tests/harness/executor/harness.go:21-30). -/
def path (s : String) : Bytes := s.toList.map fun c => UInt8.ofNat c.toNat

/-- The flags of the executor that choose programs (tests/harness/executor/executor.go:20-24). -/
structure Flags where
  go : Bool := false
  cc : Bool := false
  java : Bool := false
  python : Bool := false
  external : Bytes := []

/-- The commands that `Harnesses` passes to `InitHarness`, in order (tests/harness/executor/harness.go:18-36). The
names that go with them are only for messages. -/
def commands (f : Flags) : List Bytes :=
  (if f.go then [path "tests/harness/go/main/go-harness"] else []) ++
  (if f.cc then [path "tests/harness/cc/cc-harness"] else []) ++
  (if f.java then [path "tests/harness/java/java-harness"] else []) ++
  (if f.python then [path "tests/harness/python/python-harness"] else []) ++
  (if f.external ≠ [] then [f.external] else [])

/-- `manifest[k] = v` (tests/harness/executor/harness.go:57); the map as a list with distinct keys. -/
def insert (m : List (Bytes × Bytes)) (k v : Bytes) : List (Bytes × Bytes) :=
  (k, v) :: m.filter fun e => e.1 ≠ k

/-- Reading the manifest, line by line (tests/harness/executor/harness.go:53-58): `none` when `values[1]` panics. The lines are
those that `bufio.Scanner` gives. -/
def readManifest (m : List (Bytes × Bytes)) : List Bytes → Option (List (Bytes × Bytes))
  | [] => some m
  | line :: lines =>
    match splitByte 0x20 line with
    | k :: v :: _ => readManifest (insert m k v) lines
    | _ => none

/-- Searching the manifest (tests/harness/executor/harness.go:59-63), with the entries in the order in which `range` gives
them. -/
def search (order : List (Bytes × Bytes)) (cmd : Bytes) : Bytes :=
  order.foldl (fun cmd e => if containsSub e.1 cmd then e.2 else cmd) cmd

/-- The system: is it Windows, and the lines of the file `MANIFEST` if it can be opened
(tests/harness/executor/harness.go:44-49). -/
structure System where
  windows : Bool := false
  manifest : Option (List Bytes) := none

/-- What `InitHarness` may make of a command, `none` when it panics (tests/harness/executor/harness.go:43-71). The order of a
`range` over a map is up to the Go runtime. -/
inductive Located (S : System) (cmd : Bytes) : Option Bytes → Prop
  | same : S.windows = false ∨ S.manifest = none → Located S cmd (some cmd)
  | unreadable {lines} : S.windows = true → S.manifest = some lines → readManifest [] lines = none → Located S cmd none
  | found {lines m order} : S.windows = true → S.manifest = some lines → readManifest [] lines = some m → order.Perm m →
      Located S cmd (some (search order cmd))

/-- What `Harnesses` may give for a list of commands (tests/harness/executor/harness.go:18-36). -/
inductive LocatedAll (S : System) : List Bytes → Option (List Bytes) → Prop
  | nil : LocatedAll S [] (some [])
  | panics {cmd cmds} : Located S cmd none → LocatedAll S (cmd :: cmds) none
  | later {cmd cmds file} : Located S cmd (some file) → LocatedAll S cmds none → LocatedAll S (cmd :: cmds) none
  | cons {cmd cmds file files} : Located S cmd (some file) → LocatedAll S cmds (some files) →
      LocatedAll S (cmd :: cmds) (some (file :: files))

/-- The test cases, and how the program in a file answers each (tests/harness/executor/cases.go and
worker.go:23-49). -/
structure Tests where
  Case : Type
  failures : Case → Nat
  marshals : Case → Bool
  exec : Case → Bytes → Answer

/-- `run` with these programs (tests/harness/executor/executor.go:73). -/
def Tests.setup (T : Tests) (files : List Bytes) : Setup where
  Case := T.Case
  Harness := Bytes
  failures := T.failures
  marshals := T.marshals
  harnesses := files
  exec := T.exec

/-- How the executor is started: flags, `-parallelism`, the system, and what `shardTestCases` finds in the environment
(tests/harness/executor/executor.go:19-25,43-62). -/
structure Options where
  flags : Flags := {}
  parallelism : Int := 1
  system : System := {}
  total : Option Nat := none
  index : Option Nat := none
  status : Bool := false

/-- The exit status of the executor (tests/harness/executor/executor.go:18-39,73-81). A panic of a Go program gives 2. -/
inductive Exits (T : Tests) (O : Options) (cases : List T.Case) : Nat → Prop
  /-- `shardTestCases` panics (executor.go:27,70). -/
  | shard : shardTestCases O.total O.index O.status cases = none → Exits T O cases 2
  /-- `Harnesses` panics (executor.go:29). -/
  | manifest {mine} : shardTestCases O.total O.index O.status cases = some mine →
      LocatedAll O.system (commands O.flags) none → Exits T O cases 2
  /-- executor.go:75-77. -/
  | parallelism {mine files} : shardTestCases O.total O.index O.status cases = some mine →
      LocatedAll O.system (commands O.flags) (some files) → O.parallelism ≤ 0 → Exits T O cases 2
  /-- executor.go:78-80. -/
  | nothing {mine} : shardTestCases O.total O.index O.status cases = some mine →
      LocatedAll O.system (commands O.flags) (some []) → 0 < O.parallelism → Exits T O cases 2
  /-- `run` returns (executor.go:30-38). -/
  | ran {mine files s} : shardTestCases O.total O.index O.status cases = some mine →
      LocatedAll O.system (commands O.flags) (some files) → 0 < O.parallelism → files ≠ [] →
      Reachable (X := T.setup files) O.parallelism.toNat mine s → s.main = .returned →
      Exits T O cases (if s.failures > 0 then 1 else 0)

end PGV.Harness
