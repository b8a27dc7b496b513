import Verif.Harness.Executor
import Verif.Harness.GoMain
import Verif.Java.Templates
import Verif.Py.Templates
import Verif.Cpp.Templates
import Verif.Cpp.Render

/-!
The test programs of the four languages (tests/harness/go/main/harness.go, tests/harness/cc/harness.cc,
java/pgv-java-validation/src/main/java/io/envoyproxy/pgv/validation/JavaHarness.java,
tests/harness/python/harness.py), what they write to their standard output, and what the executor makes
of it (tests/harness/executor/harness.go).

The test case that a program reads is the message it holds: that a program reads what the executor wrote
(an `Any` in a `TestCase`) is taken for granted. How a program finds the message's type is in `Dispatch.lean`.
-/

namespace PGV.Harness
open PGV

/-- `TestResult` (tests/harness/harness.proto:12-18). Strings are their UTF-8 bytes. -/
structure TestResult where
  valid : Bool := false
  error : Bool := false
  reasons : List Bytes := []
  allowFailure : Bool := false
  checkMultipleErrors : Bool := false
  deriving DecidableEq

/-! ### The wire format -/

/-- A base-128 number of protocol buffers, least significant group first
(for tests/harness/go/main/harness.go:122; tests/harness/harness.proto:15). -/
def varint (n : Nat) : Bytes :=
  if n < 128 then [UInt8.ofNat n] else UInt8.ofNat (128 + n % 128) :: varint (n / 128)

/-- A `bool` field with a given key, which is there if it is true
(for tests/harness/harness.proto:13,14,16,17; tests/harness/go/main/harness.go:122). -/
def boolField (key : UInt8) (b : Bool) : Bytes := if b then [key, 1] else []

/-- One of the strings of `Reasons` (tests/harness/harness.proto:15; tests/harness/go/main/harness.go:122). -/
def reasonField (s : Bytes) : Bytes := 0x1A :: (varint s.length ++ s)

/-- The bytes that the protobuf libraries write for a `TestResult`: its fields by increasing number, without those
that have their default (tests/harness/go/main/harness.go:122; tests/harness/cc/harness.cc:63; JavaHarness.java:70;
tests/harness/python/harness.py:49). -/
def encodeResult (r : TestResult) : Bytes :=
  boolField 0x08 r.valid ++ boolField 0x10 r.error ++ r.reasons.flatMap reasonField ++
    boolField 0x20 r.allowFailure ++ boolField 0x28 r.checkMultipleErrors

/-- Is the string well-formed UTF-8: does it consist of the encodings of the runes in it? (`utf8.Valid` of Go, which
`proto.Unmarshal` applies to strings, tests/harness/executor/harness.go:92; `bytes.decode` of Python,
tests/harness/python/harness.py:49). -/
def validUtf8 (s : Bytes) : Bool := decide ((runes s).flatMap encodeRune = s)

/-- Reading a number of at most ten bytes (`protowire.ConsumeVarint`, for tests/harness/executor/harness.go:92). -/
def readVarint : Nat → Bytes → Option (Nat × Bytes)
  | 0, _ => none
  | _ + 1, [] => none
  | 1, b :: s => if b < 2 then some (b.toNat, s) else none
  | k + 2, b :: s =>
    if b < 0x80 then some (b.toNat, s)
    else match readVarint (k + 1) s with
      | some (v, t) => some (b.toNat - 128 + 128 * v, t)
      | none => none

/-- Reading as many bytes as the number in front of them says (for tests/harness/executor/harness.go:92). -/
def readBytes (s : Bytes) : Option (Bytes × Bytes) :=
  match readVarint 10 s with
  | some (n, t) => if n ≤ t.length then some (t.take n, t.drop n) else none
  | none => none

/-- Reading a field and setting it, for `proto.Unmarshal` (tests/harness/executor/harness.go:92): the key is eight
times the number of the field, plus the kind of its encoding. Fields that `TestResult` does not have are skipped;
groups among them, which nothing writes here, count as errors. -/
def readField (r : TestResult) (s : Bytes) : Option (TestResult × Bytes) :=
  match readVarint 10 s with
  | none => none
  | some (key, t) =>
    if key / 8 = 0 then none
    else if key % 8 = 0 then
      match readVarint 10 t with
      | none => none
      | some (v, u) =>
        some (
          (if key / 8 = 1 then { r with valid := v != 0 }
            else if key / 8 = 2 then { r with error := v != 0 }
            else if key / 8 = 4 then { r with allowFailure := v != 0 }
            else if key / 8 = 5 then { r with checkMultipleErrors := v != 0 }
            else r), u)
    else if key % 8 = 2 then
      match readBytes t with
      | none => none
      | some (b, u) =>
        if key / 8 = 3 then
          if validUtf8 b then some ({ r with reasons := r.reasons ++ [b] }, u) else none
        else some (r, u)
    else if key % 8 = 1 then if 8 ≤ t.length then some (r, t.drop 8) else none
    else if key % 8 = 5 then if 4 ≤ t.length then some (r, t.drop 4) else none
    else none

/-- Reading the fields one after the other. A field takes at least one byte (for
tests/harness/executor/harness.go:92). -/
def readFields : Nat → TestResult → Bytes → Option TestResult
  | _, r, [] => some r
  | 0, _, _ :: _ => none
  | n + 1, r, b :: s =>
    match readField r (b :: s) with
    | some (r', t) => readFields n r' t
    | none => none

/-- `proto.Unmarshal` into a new `TestResult` (tests/harness/executor/harness.go:91-92). -/
def decodeResult (s : Bytes) : Option TestResult := readFields s.length {} s

/-! ### The programs -/

/-- How a program ends: with exit code 0 and an output, or otherwise (tests/harness/executor/harness.go:84). -/
inductive Ended
  | exit (out : Bytes)
  | died

/-- What the executor makes of it (tests/harness/executor/harness.go:84-97). -/
def answer : Ended → Answer
  | .died => .failed
  | .exit out =>
    match decodeResult out with
    | none => .failed
    | some r => .result r.valid r.error r.allowFailure r.checkMultipleErrors r.reasons.length

/-- Text in UTF-8 (for tests/harness/go/main/harness.go:91,117). -/
def textBytes (t : Go.Text) : Bytes := t.flatMap fun c => encodeRune c.toNat

/-- The Go program on a message that has both methods (tests/harness/go/main/harness.go:50-53,59-130). The texts of
the errors that the program reports about itself are left out. -/
def goProgram (P : Go.Printer) (E : Go.Env) (S : Schema) (v : Val) : Ended :=
  match checkValid P (Go.validate E S false v) (Go.validate E S true v) with
  | .valid => .exit (encodeResult { valid := true })
  | .reasons l => .exit (encodeResult { reasons := l.map textBytes })
  | .differentVerdict | .noAllErrors | .differentFirst => .exit (encodeResult { error := true, reasons := [[]] })
  | .panic => .died

/-- The C++ program on a message with a validator (tests/harness/cc/harness.cc:91-109,153-154). `what()` of an
`UnimplementedException` is a parameter. The library writes strings out that are not UTF-8. -/
def cppProgram (L : Cpp.CPrinter) (what : String → Bytes) (P : Cpp.CEnv) (S : Schema) (v : Val) : Ended :=
  match Cpp.checkMessage P S v with
  | .ok _ => .exit (encodeResult { valid := true, reasons := [[]] })
  | .error (.invalid e) => .exit (encodeResult { reasons := [Cpp.errText L e] })
  | .error (.unimplemented w) => .exit (encodeResult { allowFailure := true, reasons := [what w] })

/-- The Java program on a message for which a validator was generated (JavaHarness.java:46-62). The messages of the
exceptions are a parameter; that of a runtime exception is its stack trace. -/
def javaProgram (text : Java.JErr → Bytes) (J : Java.JEnv) (S : Schema) (v : Val) : Ended :=
  match Java.assertValid J S v with
  | .ok _ => .exit (encodeResult { valid := true })
  | .error (.unimplemented f) =>
    .exit (encodeResult { allowFailure := true, reasons := [text (.unimplemented f)] })
  | .error (.validation f r) => .exit (encodeResult { reasons := [text (.validation f r)] })
  | .error (.runtime w) => .exit (encodeResult { error := true, reasons := [text (.runtime w)] })

/-- The Python program on a message (tests/harness/python/harness.py:40-49). `repr` of the exception, in UTF-8, is a
parameter. Exceptions other than `ValidationFailed` are not caught. What is to be written is taken for text in UTF-8,
which may raise one more. -/
def pyProgram (repr : String → Py.Text → Bytes) (P : Py.PEnv) (S : Schema) (v : Val) : Ended :=
  let write (r : TestResult) : Ended := if validUtf8 (encodeResult r) then .exit (encodeResult r) else .died
  match Py.validate P S v with
  | .ok _ => write { valid := true }
  | .error (.failed n t) => write { reasons := [repr n t] }
  | .error .crash => .died

/-- The result that a program's run on a case is counted with (tests/harness/executor/worker.go:49-95). -/
def outcome (failures : Nat) (e : Ended) : Result := judge failures (answer e)

end PGV.Harness
