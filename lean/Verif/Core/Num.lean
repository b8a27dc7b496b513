/-!
Numeric field values. Integers are mathematical integers (the kinds' ranges are stated separately,
`NumKind.inRange`); floats are IEEE-754 bit patterns, so that NaN, infinities and signed zeros are
all present.
-/

namespace PGV

/-- The twelve numeric kinds of validate.proto (validate/validate.proto:40-51). -/
inductive NumKind
  | float | double | int32 | int64 | uint32 | uint64 | sint32 | sint64
  | fixed32 | fixed64 | sfixed32 | sfixed64
  deriving DecidableEq, Repr

/-- A numeric value: an integer, or the bit pattern of a float32 / float64 (validate/validate.proto:69-498). -/
inductive Num
  | int (i : Int)
  | f32 (b : BitVec 32)
  | f64 (b : BitVec 64)
  deriving DecidableEq, Repr

/-- The exact value of a float32 bit pattern, scaled by 2^149 so that it is an integer: `none` for
NaN; an infinity gets the value that exponent 255 with mantissa 0 would denote, which is above every
finite value. IEEE-754 comparison is comparison of these (for the comparisons of templates/goshared/ltgt.go:3-89). -/
def f32Key (b : BitVec 32) : Option Int :=
  let exp := b.toNat / 8388608 % 256
  let man := b.toNat % 8388608
  if exp = 255 ∧ man ≠ 0 then none
  else
    let mag : Nat := if exp = 0 then man else (8388608 + man) * 2 ^ (exp - 1)
    some (if b.toNat / 2147483648 = 1 then -(mag : Int) else mag)

/-- The exact value of a float64 bit pattern, scaled by 2^1074
(for the comparisons of templates/goshared/ltgt.go:3-89). -/
def f64Key (b : BitVec 64) : Option Int :=
  let exp := b.toNat / 4503599627370496 % 2048
  let man := b.toNat % 4503599627370496
  if exp = 2047 ∧ man ≠ 0 then none
  else
    let mag : Nat := if exp = 0 then man else (4503599627370496 + man) * 2 ^ (exp - 1)
    some (if b.toNat / 9223372036854775808 = 1 then -(mag : Int) else mag)

/-- Ordering key of a numeric value. Values of one field all have the same kind, so keys are only
ever compared within a kind (for the comparisons of templates/goshared/ltgt.go:3-89). -/
def Num.key : Num → Option Int
  | .int i => some i
  | .f32 b => f32Key b
  | .f64 b => f64Key b

/-- Go's `<` on numeric values (false as soon as one side is NaN) (templates/goshared/ltgt.go:21,27). -/
def Num.lt (a b : Num) : Bool :=
  match a.key, b.key with
  | some x, some y => decide (x < y)
  | _, _ => false

/-- Go's `<=` (templates/goshared/ltgt.go:7,13). -/
def Num.le (a b : Num) : Bool :=
  match a.key, b.key with
  | some x, some y => decide (x ≤ y)
  | _, _ => false

/-- Go's `==` (false on NaN; the two zeros are equal) (templates/goshared/const.go:3-11). -/
def Num.eq (a b : Num) : Bool :=
  match a.key, b.key with
  | some x, some y => decide (x = y)
  | _, _ => false

/-- Go's `>` (templates/goshared/ltgt.go:70). -/
def Num.gt (a b : Num) : Bool := b.lt a
/-- Go's `>=` (templates/goshared/ltgt.go:7,13). -/
def Num.ge (a b : Num) : Bool := b.le a

/-- text/template's `gt`, used at generation time (`{{ if gt $r.GetLt $r.GetGt }}`,
templates/goshared/ltgt.go:6): implemented there as `!(lt || eq)`. -/
def Num.tplGt (a b : Num) : Bool := !(a.lt b || a.eq b)

/-- `val != 0` as the generated code tests it for ignore_empty (templates/goshared/num.go:5). -/
def Num.isZero (a : Num) : Bool := a.key == some 0

/-- The zero value of a kind (what a proto3 getter returns for an unset field) (templates/goshared/num.go:5). -/
def NumKind.zero : NumKind → Num
  | .float => .f32 0
  | .double => .f64 0
  | _ => .int 0

/-- Values that a field of the kind can hold (for templates/goshared/register.go:94-100). -/
def NumKind.inRange : NumKind → Num → Bool
  | .float, .f32 _ => true
  | .double, .f64 _ => true
  | .int32, .int i | .sint32, .int i | .sfixed32, .int i =>
    decide (-2147483648 ≤ i ∧ i < 2147483648)
  | .int64, .int i | .sint64, .int i | .sfixed64, .int i =>
    decide (-9223372036854775808 ≤ i ∧ i < 9223372036854775808)
  | .uint32, .int i | .fixed32, .int i => decide (0 ≤ i ∧ i < 4294967296)
  | .uint64, .int i | .fixed64, .int i => decide (0 ≤ i ∧ i < 18446744073709551616)
  | _, _ => false

end PGV
