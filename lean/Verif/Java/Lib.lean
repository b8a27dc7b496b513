import Verif.Core.Schema

/-!
The Java runtime library that generated Java validators call
(java/pgv-java-stub/src/main/java/io/envoyproxy/pgv). A Java method that returns normally or throws
is an `Except JErr Unit`; the first exception ends the run.
-/

namespace PGV.Java
open PGV

/-- A Java number: `Integer`, `Long`, `Float` or `Double`. Floats are bit patterns
(templates/java/register.go:379-389). -/
inductive JNum
  | int (i : Int)
  | long (i : Int)
  | float (b : BitVec 32)
  | double (b : BitVec 64)
  deriving DecidableEq, Repr

/-- A Java string: UTF-16 code units
(for java/pgv-java-stub/src/main/java/io/envoyproxy/pgv/StringValidation.java). -/
abbrev JString := List Nat

/-- A value of a generated Java enum: a declared constant (by number) or `UNRECOGNIZED`
(for templates/java/enum.go:19-32). -/
inductive JEnum
  | known (n : Int)
  | unrecognized
  deriving DecidableEq, Repr

/-- A value inside the text of a reason, before `toString()` or `Arrays.toString` turns it into text
(java/pgv-java-stub/src/main/java/io/envoyproxy/pgv/ComparativeValidation.java:14; ConstantValidation.java:12;
CollectiveValidation.java:19; BytesValidation.java:36). -/
inductive JItem
  | num (n : JNum)
  | bool (b : Bool)
  | str (s : JString)
  | bytes (b : Bytes)
  /-- A constant of an enum, or null. -/
  | enum (v : Option JEnum)
  | dur (d : PDur)
  | ts (t : PTime)
  deriving DecidableEq

/-- A part of the text of a reason, in the order of concatenation
(java/pgv-java-stub/src/main/java/io/envoyproxy/pgv/StringValidation.java:37). -/
inductive JPiece
  | s (t : String)
  | nat (n : Nat)
  | item (i : JItem)
  | items (l : List JItem)
  deriving DecidableEq

/-- `getReason()` of a `ValidationException` (ValidationException.java:26-28). -/
abbrev Reason := List JPiece

instance : Coe String Reason := ⟨fun t => [.s t]⟩

/-- Values that the library puts into texts (java/pgv-java-stub/src/main/java/io/envoyproxy/pgv/ComparativeValidation.java:14). -/
class Shown (α : Type) where
  item : α → JItem

instance : Shown JNum := ⟨.num⟩
instance : Shown Bool := ⟨.bool⟩
instance : Shown JString := ⟨.str⟩
instance : Shown Bytes := ⟨.bytes⟩
instance : Shown PDur := ⟨.dur⟩
instance : Shown PTime := ⟨.ts⟩

/-- A value in a text (java/pgv-java-stub/src/main/java/io/envoyproxy/pgv/ComparativeValidation.java:14). -/
def shown {α : Type} [Shown α] (a : α) : JPiece := .item (Shown.item a)

/-- `Arrays.toString(set)` (CollectiveValidation.java:19,25). -/
def shownAll {α : Type} [Shown α] (l : List α) : JPiece := .items (l.map Shown.item)

/-- Exceptions: `validation` is `ValidationException` with its field and reason (ValidationException.java:6-29;
the value is left out), `unimplemented` is
`UnimplementedException`, a subclass of it (UnimplementedException.java:6-10), and `runtime` any
unchecked exception (NullPointerException, IllegalArgumentException, ArithmeticException). -/
inductive JErr
  | validation (field : String) (reason : Reason)
  | unimplemented (field : String)
  | runtime (what : String)
  deriving DecidableEq

/-- `getField()` of a `ValidationException` (ValidationException.java:18-20); other exceptions have none. -/
def JErr.field : JErr → Option String
  | .validation f _ => some f
  | .unimplemented f => some f
  | .runtime _ => none

/-- A statement of generated Java code (templates/java/msg.go:22-34). -/
abbrev Run := Except JErr Unit

/-- One statement after another (templates/java/msg.go:27-32). -/
def seq (a b : Run) : Run :=
  match a with
  | .ok _ => b
  | .error e => .error e

@[inherit_doc] scoped infixr:60 " ⊳ " => seq

/-- `if (c) { x }` (templates/java/num.go:36-38). -/
def when (c : Bool) (x : Run) : Run := if c then x else .ok ()

/-- `if (!c) throw new ValidationException(field, value, reason)`
(java/pgv-java-stub/src/main/java/io/envoyproxy/pgv/ComparativeValidation.java:13-15). -/
def check (c : Bool) (field : String) (reason : Reason) : Run :=
  if c then .ok () else .error (.validation field reason)

/-- `for (T value : values) consumer.accept(value)` (RepeatedValidation.java:41-45 `forEach`,
MapValidation.java:34-38 `validateParts`). -/
def forEach {α : Type} (xs : List α) (f : α → Run) : Run :=
  match xs with
  | [] => .ok ()
  | x :: xs => f x ⊳ forEach xs f

/-! ### Numbers -/

/-- Two's-complement wrap to 32 bits (for the getters of templates/java/register.go:304-315). -/
def wrap32 (x : Int) : Int := x.bmod 4294967296

/-- What the accessor `proto.getX()` returns for a protobuf value: protobuf-java represents
unsigned kinds by the signed Java type of the same width. (templates/java/register.go:379-399,
`javaTypeForProtoType`.) -/
def jnum : NumKind → Num → JNum
  | .int32, .int i | .sint32, .int i | .sfixed32, .int i
  | .uint32, .int i | .fixed32, .int i => .int (wrap32 i)
  | .int64, .int i | .sint64, .int i | .sfixed64, .int i
  | .uint64, .int i | .fixed64, .int i => .long (wrap64 i)
  | _, .f32 b => .float b
  | _, .f64 b => .double b
  | _, .int i => .int (wrap32 i)

/-- Whether the literal the generator writes for a numeric rule value compiles: an `int` literal
must lie in the range of `int`, a `long` literal in that of `long`, whatever the proto kind
(templates/java/num.go:3-32 prints unsigned values as they are); infinities and NaN print as
`+InfF`, `NaND`, which is no Java literal. -/
def litCompiles : NumKind → Num → Bool
  | .int32, .int i | .sint32, .int i | .sfixed32, .int i | .uint32, .int i | .fixed32, .int i =>
    decide (-2147483648 ≤ i) && decide (i ≤ 2147483647)
  | .int64, .int i | .sint64, .int i | .sfixed64, .int i | .uint64, .int i | .fixed64, .int i =>
    decide (-9223372036854775808 ≤ i) && decide (i ≤ 9223372036854775807)
  | .float, .f32 b => b.toNat / 8388608 % 256 != 255
  | .double, .f64 b => b.toNat / 4503599627370496 % 2048 != 2047
  | _, _ => false

/-- `Integer.compare` / `Long.compare` (for templates/java/num.go:41-56). -/
def icmp (a b : Int) : Int := if a < b then -1 else if a = b then 0 else 1

/-- `Float.floatToIntBits`: the bits as a signed int, with one NaN (for templates/java/num.go:41-56). -/
def fbits (b : BitVec 32) : Int := if f32Key b = none then 0x7FC00000 else b.toInt
/-- `Double.doubleToLongBits` (for templates/java/num.go:41-56). -/
def dbits (b : BitVec 64) : Int := if f64Key b = none then 0x7FF8000000000000 else b.toInt

/-- `Float.compare` / `Double.compare`: numeric comparison first, then comparison of the bits
(for templates/java/num.go:41-56). -/
def fcmp (x y : Option Int) (xb yb : Int) : Int :=
  match x, y with
  | some a, some b => if a < b then -1 else if b < a then 1 else icmp xb yb
  | _, _ => icmp xb yb

/-- `java.util.Comparator.naturalOrder()` on boxed numbers of one type (templates/java/num.go:36-56). -/
def jcmp : JNum → JNum → Int
  | .int a, .int b => icmp a b
  | .long a, .long b => icmp a b
  | .float a, .float b => fcmp (f32Key a) (f32Key b) (fbits a) (fbits b)
  | .double a, .double b => fcmp (f64Key a) (f64Key b) (dbits a) (dbits b)
  | _, _ => 0

/-- `equals` on boxed numbers of one type
(called in java/pgv-java-stub/src/main/java/io/envoyproxy/pgv/ConstantValidation.java:11; CollectiveValidation.java:14,24). -/
def jeq : JNum → JNum → Bool
  | .int a, .int b => a == b
  | .long a, .long b => a == b
  | .float a, .float b => fbits a == fbits b
  | .double a, .double b => dbits a == dbits b
  | _, _ => false

/-- `x != 0` on a Java number (unboxed, numeric comparison) (templates/java/num.go:36-56). -/
def jnonzero : JNum → Bool
  | .int a => a != 0
  | .long a => a != 0
  | .float b => f32Key b != some 0
  | .double b => f64Key b != some 0

/-! ### ComparativeValidation.java -/

/-- A comparator: the sign of the result is what matters. It may throw
(java/pgv-java-stub/src/main/java/io/envoyproxy/pgv/ComparativeValidation.java:12). -/
abbrev Cmp (α : Type) := α → α → Except JErr Int

/-- Call the comparator and go on with its result
(java/pgv-java-stub/src/main/java/io/envoyproxy/pgv/ComparativeValidation.java:13). -/
def withCmp (x : Except JErr Int) (k : Int → Run) : Run :=
  match x with
  | .ok n => k n
  | .error e => .error e

/-- `lessThan` (ComparativeValidation.java:12-16). -/
def lessThan {α : Type} [Shown α] (f : String) (v lim : α) (c : Cmp α) : Run :=
  withCmp (c v lim) fun n => check (decide (n < 0)) f [.s "must be less than ", shown lim]

/-- `lessThanOrEqual` (ComparativeValidation.java:18-22). -/
def lessThanOrEqual {α : Type} [Shown α] (f : String) (v lim : α) (c : Cmp α) : Run :=
  withCmp (c v lim) fun n => check (decide (n ≤ 0)) f [.s "must be less than or equal to ", shown lim]

/-- `greaterThan` (ComparativeValidation.java:24-28). -/
def greaterThan {α : Type} [Shown α] (f : String) (v lim : α) (c : Cmp α) : Run :=
  withCmp (c v lim) fun n => check (decide (n > 0)) f [.s "must be greater than ", shown lim]

/-- `greaterThanOrEqual` (ComparativeValidation.java:30-34). -/
def greaterThanOrEqual {α : Type} [Shown α] (f : String) (v lim : α) (c : Cmp α) : Run :=
  withCmp (c v lim) fun n => check (decide (n ≥ 0)) f [.s "must be greater than or equal to ", shown lim]

/-- The private `between` (ComparativeValidation.java:65-68): `&&` does not evaluate its right side
when the left is false. The continuation receives the result. -/
def between {α : Type} (v lower : α) (lowerInc : Bool) (upper : α) (upperInc : Bool) (c : Cmp α)
    (k : Bool → Run) : Run :=
  withCmp (c v lower) fun n =>
    if (if lowerInc then decide (n ≥ 0) else decide (n > 0)) then
      withCmp (c v upper) fun m => k (if upperInc then decide (m ≤ 0) else decide (m < 0))
    else k false

/-- The private `range`, which writes an interval (ComparativeValidation.java:70-72). -/
def rangeText {α : Type} [Shown α] (lower : α) (lowerInc : Bool) (upper : α) (upperInc : Bool) : Reason :=
  [.s (if lowerInc then "[" else "("), shown lower, .s ", ", shown upper, .s (if upperInc then "]" else ")")]

/-- `range` (ComparativeValidation.java:36-51) with `between` and `outside` (53-63). The four limits
are null when the rule is absent; the template only calls it with an upper and a lower limit, and
a null limit would be a NullPointerException. -/
def range {α : Type} [Shown α] (f : String) (v : α) (lt lte gt gte : Option α) (c : Cmp α) : Run :=
  match lt.or lte, gt.or gte with
  | some ltx, some gtx =>
    let ltxInc := lte.isSome
    let gtxInc := gte.isSome
    withCmp (c gtx ltx) fun n =>
      if n ≤ 0 then
        between v gtx gtxInc ltx ltxInc c fun b =>
          check b f (.s "must be in the range " :: rangeText gtx gtxInc ltx ltxInc)
      else
        between v ltx (!ltxInc) gtx (!gtxInc) c fun b =>
          check (!b) f (.s "must be outside the range " :: rangeText ltx (!ltxInc) gtx (!gtxInc))
  | _, _ => .error (.runtime "NullPointerException")

/-! ### CollectiveValidation.java, ConstantValidation.java -/

/-- `in` (CollectiveValidation.java:12-20). -/
def isIn {α : Type} [Shown α] (f : String) (v : α) (set : List α) (eq : α → α → Bool) : Run :=
  check (set.any fun i => eq v i) f [.s "must be in ", shownAll set]

/-- `notIn` (CollectiveValidation.java:22-28). -/
def notIn {α : Type} [Shown α] (f : String) (v : α) (set : List α) (eq : α → α → Bool) : Run :=
  check (!set.any fun i => eq v i) f [.s "must not be in ", shownAll set]

/-- `constant` (ConstantValidation.java:10-14). -/
def constant {α : Type} [Shown α] (f : String) (v expected : α) (eq : α → α → Bool) : Run :=
  check (eq v expected) f [.s "must equal ", shown expected]

/-- `required` (RequiredValidation.java:12-16). -/
def required (f : String) (present : Bool) : Run := check present f "is required"

/-! ### RepeatedValidation.java, MapValidation.java -/

/-- `minItems` (RepeatedValidation.java:14-18). -/
def minItems (f : String) (size expected : Nat) : Run :=
  check (!decide (size < expected)) f [.s "must have at least ", .nat expected, .s " items"]

/-- `maxItems` (RepeatedValidation.java:20-24). -/
def maxItems (f : String) (size expected : Nat) : Run :=
  check (!decide (size > expected)) f [.s "must have at most ", .nat expected, .s " items"]

/-- `unique` (RepeatedValidation.java:26-34): `seen` is the hash set, whose membership is `equals`
(`eq`; `hashCode` is consistent with it). -/
def unique {α : Type} (f : String) (eq : α → α → Bool) (values : List α) (seen : List α := []) :
    Run :=
  match values with
  | [] => .ok ()
  | v :: vs =>
    if seen.any fun w => eq v w then .error (.validation f "must have all unique values")
    else unique f eq vs (v :: seen)

/-- `min` (MapValidation.java:13-17). -/
def minPairs (f : String) (size expected : Nat) : Run :=
  check (min size expected == expected) f [.s "value size must be at least ", .nat expected]

/-- `max` (MapValidation.java:19-23). -/
def maxPairs (f : String) (size expected : Nat) : Run :=
  check (max size expected == expected) f [.s "value size must not exceed ", .nat expected]

/-- `noSparse` (MapValidation.java:25-27). -/
def noSparse (f : String) : Run := .error (.unimplemented f)

/-! ### Timestamps and durations (protobuf-java-util 3.15.6, java/pom.xml:48) -/

/-- `Durations.checkValid` / `Timestamps.checkValid` throw IllegalArgumentException
(for java/pgv-java-stub/src/main/java/io/envoyproxy/pgv/TimestampValidation.java:15-16). -/
def invalidArg : JErr := .runtime "IllegalArgumentException"

/-- `Timestamps.comparator()`: checks both, then compares seconds, then nanos (templates/java/timestamp.go:30-49). -/
def tsCmp (a b : PTime) : Except JErr Int :=
  if !a.valid || !b.valid then .error invalidArg
  else .ok (if icmp a.seconds b.seconds != 0 then icmp a.seconds b.seconds else icmp a.nanos b.nanos)

/-- `Durations.comparator()` (templates/java/duration.go:41-54). -/
def durCmp (a b : PDur) : Except JErr Int :=
  if !a.valid || !b.valid then .error invalidArg
  else .ok (if icmp a.seconds b.seconds != 0 then icmp a.seconds b.seconds else icmp a.nanos b.nanos)

/-- `Timestamps.between(from, to)`: checks both, subtracts seconds and nanos, normalizes the pair.
(No subtraction overflows on valid timestamps.)
(called in java/pgv-java-stub/src/main/java/io/envoyproxy/pgv/TimestampValidation.java:15). -/
def tsBetween (fr to : PTime) : Except JErr PDur :=
  if !fr.valid || !to.valid then .error invalidArg
  else
    let s := to.seconds - fr.seconds
    let n := to.nanos - fr.nanos
    -- both nanos are in [0, 1e9): only the sign correction of `normalizedDuration` can apply
    if s > 0 ∧ n < 0 then .ok ⟨s - 1, n + 1000000000⟩
    else if s < 0 ∧ n > 0 then .ok ⟨s + 1, n - 1000000000⟩
    else .ok ⟨s, n⟩

/-- `Durations.toNanos`: checks, then exact arithmetic that throws ArithmeticException when the
product or the sum leaves the range of `long`
(called in java/pgv-java-stub/src/main/java/io/envoyproxy/pgv/TimestampValidation.java:16). -/
def toNanos (d : PDur) : Except JErr Int :=
  if !d.valid then .error invalidArg
  else
    let p := d.seconds * 1000000000
    if p < minInt64 ∨ maxInt64 < p then .error (.runtime "ArithmeticException")
    else if p + d.nanos < minInt64 ∨ maxInt64 < p + d.nanos then
      .error (.runtime "ArithmeticException")
    else .ok (p + d.nanos)

/-- `Math.abs(long)`: the smallest long is its own absolute value
(called in java/pgv-java-stub/src/main/java/io/envoyproxy/pgv/TimestampValidation.java:16). -/
def labs (x : Int) : Int := if x < 0 then wrap64 (-x) else x

/-- `TimestampValidation.within` (TimestampValidation.java:14-19). -/
def within (f : String) (v : PTime) (d : PDur) (at_ : PTime) : Run :=
  match tsBetween at_ v with
  | .error e => .error e
  | .ok b =>
    withCmp (toNanos b) fun x => withCmp (toNanos d) fun y =>
      check (!(icmp (labs x) (labs y) == 1)) f [.s "value must be within ", shown d, .s " of ", shown at_]

/-- `Timestamps.fromMillis` of the clock (TimestampValidation.java:41-43): floor division keeps
nanos non-negative. -/
def fromMillis (ms : Int) : PTime := ⟨ms / 1000, ms % 1000 * 1000000⟩

/-- Does the constant `toTimestamp(S,N)` / `toDuration(S,N)` that the generator writes compile
(`tsLit`, `durLit`, templates/java/register.go:467-477)? The seconds are written as an `int`
literal, without the suffix `L`. -/
def secCompiles (s : Int) : Bool := decide (-2147483648 ≤ s) && decide (s ≤ 2147483647)

/-! ### StringValidation.java, BytesValidation.java, EnumValidation.java -/

/-- UTF-16 encoding of a code point
(for java/pgv-java-stub/src/main/java/io/envoyproxy/pgv/StringValidation.java). -/
def utf16Rune (r : Nat) : JString :=
  if r < 0x10000 then [r]
  else [0xD800 + (r - 0x10000) / 0x400, 0xDC00 + (r - 0x10000) % 0x400]

/-- The Java string that protobuf-java's getter returns for a string field (whose bytes are valid
UTF-8, which protobuf-java enforces when parsing proto3; elsewhere the replacement character)
(for the getters of templates/java/register.go:304-315). -/
def jstr (s : Bytes) : JString := (runes s).flatMap utf16Rune

/-- `Character.isHighSurrogate` (for java/pgv-java-stub/src/main/java/io/envoyproxy/pgv/StringValidation.java:35). -/
def isHigh (u : Nat) : Bool := decide (0xD800 ≤ u) && decide (u ≤ 0xDBFF)
/-- `Character.isLowSurrogate` (for java/pgv-java-stub/src/main/java/io/envoyproxy/pgv/StringValidation.java:35). -/
def isLow (u : Nat) : Bool := decide (0xDC00 ≤ u) && decide (u ≤ 0xDFFF)

/-- The code points of a Java string: a high surrogate followed by a low one is one code point;
unpaired surrogates count for themselves
(java/pgv-java-stub/src/main/java/io/envoyproxy/pgv/StringValidation.java:35). -/
def codePoints : JString → List Nat
  | [] => []
  | [u] => [u]
  | u :: w :: rest =>
    if isHigh u && isLow w then (0x10000 + (u - 0xD800) * 0x400 + (w - 0xDC00)) :: codePoints rest
    else u :: codePoints (w :: rest)

/-- `value.codePointCount(0, value.length())` (StringValidation.java:35,42,49). -/
def codePointCount (s : JString) : Nat := (codePoints s).length

/-- `value.getBytes(StandardCharsets.UTF_8)` (StringValidation.java:55-71): an unpaired surrogate
becomes `?`. -/
def getBytes (s : JString) : Bytes :=
  (codePoints s).flatMap fun r => if 0xD800 ≤ r ∧ r ≤ 0xDFFF then [0x3F] else encodeRune r

/-- `startsWith` (StringValidation.java:79-83). -/
def startsWith (s p : JString) : Bool := p.isPrefixOf s
/-- `endsWith` (StringValidation.java:98-102). -/
def endsWith (s p : JString) : Bool := p.reverse.isPrefixOf s.reverse
/-- `String.contains` (StringValidation.java:85-95): some suffix starts with the text. -/
def jcontains {α : Type} [BEq α] (p : List α) : List α → Bool
  | [] => p.isEmpty
  | c :: s => p.isPrefixOf (c :: s) || jcontains p s

/-- The characters accepted at a position of a UUID (StringValidation.java:196-203). -/
def uuidChar (i c : Nat) : Bool :=
  if i == 8 || i == 13 || i == 18 || i == 23 then c == 0x2D
  else !((decide (c < 0x30) || decide (c > 0x39)) && (decide (c < 0x61) || decide (c > 0x66)) &&
    (decide (c < 0x41) || decide (c > 0x46)))

/-- The loop over the characters, from index `i`
(java/pgv-java-stub/src/main/java/io/envoyproxy/pgv/StringValidation.java:195-204). -/
def uuidLoop : Nat → JString → Bool
  | _, [] => true
  | i, c :: cs => uuidChar i c && uuidLoop (i + 1) cs

/-- `uuid` (StringValidation.java:191-209). -/
def uuid (f : String) (s : JString) : Run :=
  check (s.length == 36 && uuidLoop 0 s) f "invalid UUID string"

/-- `proto.getX()` of an enum field in proto3 (for templates/java/enum.go:19-32). -/
def jenum (declared : List Int) (n : Int) : JEnum :=
  if declared.contains n then .known n else .unrecognized

/-- `E.forNumber(n)`: null for numbers that are not declared (templates/java/enum.go:7,14,22). -/
def forNumber (declared : List Int) (n : Int) : Option JEnum :=
  if declared.contains n then some (.known n) else none

/-- `value.equals(x)` with a possibly null argument
(called in java/pgv-java-stub/src/main/java/io/envoyproxy/pgv/ConstantValidation.java:11; CollectiveValidation.java:14,24). -/
def enumEq (v : JEnum) (x : Option JEnum) : Bool := x == some v

/-- `ConstantValidation.constant` with a possibly null expected value: the message of the exception
calls `expected.toString()` (ConstantValidation.java:12). -/
def enumConstant (f : String) (v : JEnum) (x : Option JEnum) : Run :=
  if enumEq v x then .ok ()
  else match x with
    | some e => .error (.validation f [.s "must equal ", .item (.enum (some e))])
    | none => .error (.runtime "NullPointerException")

/-- `definedOnly` (EnumValidation.java:12-16). -/
def definedOnly (f : String) (v : JEnum) : Run :=
  check (v != .unrecognized) f [.s "value is not a defined Enum value ", .item (.enum (some v))]

end PGV.Java
