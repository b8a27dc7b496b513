import Verif.Core.Rules

/-!
Ranges and valid durations and timestamps, as validate/validate.proto and the protobuf
documentation describe them.
-/

namespace PGV.Spec
open PGV

/-- The four range rules, on integers. -/
structure Limits where
  lt : Option Int := none
  lte : Option Int := none
  gt : Option Int := none
  gte : Option Int := none

namespace Limits

/-- `x` respects the upper limits given. -/
def Below (L : Limits) (x : Int) : Prop :=
  (∀ b, L.lt = some b → x < b) ∧ (∀ b, L.lte = some b → x ≤ b)

/-- `x` respects the lower limits given. -/
def Above (L : Limits) (x : Int) : Prop :=
  (∀ b, L.gt = some b → b < x) ∧ (∀ b, L.gte = some b → b ≤ x)

/-- The upper limit is below the lower limit. -/
def Inverted (L : Limits) : Prop :=
  ∃ u l, (L.lt = some u ∨ L.lte = some u) ∧ (L.gt = some l ∨ L.gte = some l) ∧ u < l

/-- An ordinary range means both limits; an inverted one means the complement of the gap, i.e.
one of the limits. -/
def Admits (L : Limits) (x : Int) : Prop :=
  (¬ L.Inverted → L.Below x ∧ L.Above x) ∧ (L.Inverted → L.Below x ∨ L.Above x)

end Limits

/-- A valid `google.protobuf.Duration`: within ten thousand years, less than a second of
nanoseconds, both of the same sign. -/
def ValidDuration (d : PDur) : Prop :=
  (-315576000000 ≤ d.seconds ∧ d.seconds ≤ 315576000000) ∧
  (-1000000000 < d.nanos ∧ d.nanos < 1000000000) ∧
  ¬ (0 < d.seconds ∧ d.nanos < 0) ∧ ¬ (d.seconds < 0 ∧ 0 < d.nanos)

/-- A valid `google.protobuf.Timestamp`: from 0001-01-01T00:00:00Z to 9999-12-31T23:59:59.999999999Z. -/
def ValidTimestamp (t : PTime) : Prop :=
  (-62135596800 ≤ t.seconds ∧ t.seconds ≤ 253402300799) ∧ (0 ≤ t.nanos ∧ t.nanos < 1000000000)

/-- The exact length of a duration, in nanoseconds. -/
def length (d : PDur) : Int := d.seconds * 1000000000 + d.nanos

/-- The length fits a Go `time.Duration` (about 292 years), and is not one of its two extremes. -/
def Ordinary (d : PDur) : Prop := -9223372036854775808 < length d ∧ length d < 9223372036854775807

end PGV.Spec
