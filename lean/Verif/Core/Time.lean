/-!
`google.protobuf.Duration` and `google.protobuf.Timestamp` as the Go protobuf runtime
(google.golang.org/protobuf v1.26.0, pinned in go.mod) and Go's `time` package treat them.
Arithmetic that the Go code does in `int64` is done here with explicit wrap-around.
-/

namespace PGV

/-- Two's-complement wrap of an integer to 64 bits: what `int64` arithmetic yields
(for templates/goshared/timestamp.go:104-133). -/
def wrap64 (x : Int) : Int := x.bmod 18446744073709551616

/-- The least `int64`, for templates/goshared/register.go:241-242. -/
def minInt64 : Int := -9223372036854775808
/-- The greatest `int64`, for templates/goshared/register.go:241-242. -/
def maxInt64 : Int := 9223372036854775807

/-- Go's truncated integer division `/` on int64 (no overflow case occurs with divisor 1e9)
(for templates/go/duration.go:8). -/
def goDiv (a b : Int) : Int := a.tdiv b

/-- A `google.protobuf.Duration` message. `seconds` is an int64 and `nanos` an int32; `PDur.Fits`
states that. -/
structure PDur where
  seconds : Int
  nanos : Int
  deriving DecidableEq, Repr

/-- The field ranges of the protobuf message (for templates/go/duration.go:8). -/
def PDur.Fits (d : PDur) : Prop :=
  minInt64 ≤ d.seconds ∧ d.seconds ≤ maxInt64 ∧ -2147483648 ≤ d.nanos ∧ d.nanos ≤ 2147483647

/-- `(*durationpb.Duration).CheckValid() == nil` (called at templates/go/duration.go:8 and
module/checker.go:494): seconds within ten thousand years, nanos below one second, same sign. -/
def PDur.valid (d : PDur) : Bool :=
  decide (-315576000000 ≤ d.seconds) && decide (d.seconds ≤ 315576000000) &&
  decide (-1000000000 < d.nanos) && decide (d.nanos < 1000000000) &&
  !((decide (d.seconds > 0) && decide (d.nanos < 0)) ||
    (decide (d.seconds < 0) && decide (d.nanos > 0)))

/-- `(*durationpb.Duration).AsDuration()` (templates/go/duration.go:8, module/checker.go:494,
templates/goshared/register.go:241,258,263): multiply and add in int64, saturate on overflow. -/
def PDur.asDuration (d : PDur) : Int :=
  let m := wrap64 (d.seconds * 1000000000)
  let overflow1 := goDiv m 1000000000 != d.seconds
  let s := wrap64 (m + d.nanos)
  let overflow2 := decide (d.seconds < 0) && decide (d.nanos < 0) && decide (s > 0)
  let overflow3 := decide (d.seconds > 0) && decide (d.nanos > 0) && decide (s < 0)
  if overflow1 || overflow2 || overflow3 then
    if d.seconds < 0 then minInt64
    else if d.seconds > 0 then maxInt64
    else s
  else s

/-- The exact length in nanoseconds (for templates/goshared/register.go:251-255). -/
def PDur.exact (d : PDur) : Int := d.seconds * 1000000000 + d.nanos

/-- The constant the generator writes for a rule value, `time.Duration(S * time.Second + N *
time.Nanosecond)` (`durLit`, templates/goshared/register.go:251-255). Go constant expressions are
exact; a constant outside int64 does not compile, see `PDur.litCompiles`. -/
def PDur.lit (d : PDur) : Int := d.exact

/-- Whether the constant of `durLit` compiles (fits `time.Duration`) (templates/goshared/register.go:251-255). -/
def PDur.litCompiles (d : PDur) : Bool := decide (minInt64 ≤ d.exact) && decide (d.exact ≤ maxInt64)

/-- A `google.protobuf.Timestamp` message. -/
structure PTime where
  seconds : Int
  nanos : Int
  deriving DecidableEq, Repr

/-- The field ranges of the protobuf message (for templates/go/timestamp.go:8). -/
def PTime.Fits (t : PTime) : Prop :=
  minInt64 ≤ t.seconds ∧ t.seconds ≤ maxInt64 ∧ -2147483648 ≤ t.nanos ∧ t.nanos ≤ 2147483647

/-- `(*timestamppb.Timestamp).CheckValid() == nil` (templates/go/timestamp.go:8,
module/checker.go:504): year 1 to year 9999, nanos in `[0, 1e9)`. -/
def PTime.valid (t : PTime) : Bool :=
  decide (-62135596800 ≤ t.seconds) && decide (t.seconds ≤ 253402300799) &&
  decide (0 ≤ t.nanos) && decide (t.nanos < 1000000000)

/-- A Go `time.Time` without monotonic reading, as exact nanoseconds since the Unix epoch. The
`time` package keeps seconds (int64) and nanoseconds separately; every instant the code handles
(valid timestamps, rule constants, the clock, the clock plus or minus an int64 duration) is far
inside its range, so exact integers are faithful
(templates/goshared/register.go:269-274, templates/goshared/timestamp.go:5,12). -/
abbrev Instant := Int

/-- `time.Unix(s, n)` / `(*timestamppb.Timestamp).AsTime()` (templates/go/timestamp.go:8;
`tsLit`, templates/goshared/register.go:269-274). -/
def PTime.asTime (t : PTime) : Instant := t.seconds * 1000000000 + t.nanos

/-- `Time.Add` with an int64 duration (templates/goshared/timestamp.go:105-133). -/
def Instant.add (t : Instant) (d : Int) : Instant := t + d

/-- `Time.Sub`: the difference computed in wrapped int64 arithmetic, kept when adding it back gives
the original instant, else saturated by comparing the instants. (Go: `d := Duration(t.sec()-u.sec())
*Second + Duration(t.nsec()-u.nsec())`; `case u.Add(d).Equal(t): return d`; `case t.Before(u):
return minDuration`; `default: return maxDuration`.) Used throughout
templates/goshared/timestamp.go. -/
def Instant.sub (t u : Instant) : Int :=
  let d := wrap64 (t - u)
  if Instant.add u d = t then d
  else if t < u then minInt64
  else maxInt64

/-- `Time.UnixNano()` (module/checker.go:506): wraps outside the years 1678..2262. -/
def Instant.unixNano (t : Instant) : Int := wrap64 t

end PGV
