import Verif.Core.Schema
import Verif.Core.Regex
import Verif.Go.Known

/-!
What generated C++ validators call: the helpers of validate/validate.h, and the parts of the C++
language and of protobuf's C++ library that the generated comparisons rest on. A `std::string` is a
list of bytes.
-/

namespace PGV.Cpp
open PGV
open PGV.Go (Piece Idx Ctx)

/-! ### Results -/

/-- The text a rejection writes to `*err`, kept in parts: the text `errIdxCause` puts together
(templates/cc/register.go:186-218), the text for a required oneof (templates/cc/msg.go:114), and the
address that `msg << err` prints when the cause is the pointer `err` itself
(templates/cc/duration.go:14). -/
inductive CErr
  | viol (msg field : String) (index : Option Idx) (onKey : Bool) (reason : List Piece)
      (cause : Option CErr)
  | oneof (name : String)
  | address

/-- How the generated function ends when it does not reach its last line: `return false` after
writing to `*err`, or an exception (templates/cc/register.go:186-218,412-418). -/
inductive Stop
  | invalid (e : CErr)
  | unimplemented (what : String)

/-- A statement of generated C++ code (templates/cc/msg.go:96-122). -/
abbrev Run := Except Stop Unit

/-- One statement after another (templates/cc/msg.go:102-119). -/
def seq (a b : Run) : Run :=
  match a with
  | .ok _ => b
  | .error e => .error e

@[inherit_doc] scoped infixr:60 " ⊳ " => seq

/-- `if (c) { x }` (templates/cc/const.go:5). -/
def when (c : Bool) (x : Run) : Run := if c then x else .ok ()

/-- A `for` loop (templates/cc/repeated.go:49; map.go:36). -/
def forEach {α : Type} (xs : List α) (f : α → Run) : Run :=
  match xs with
  | [] => .ok ()
  | x :: xs => f x ⊳ forEach xs f

/-- A rule with an optional value (templates/cc/const.go:4). -/
def withOpt {α : Type} (o : Option α) (k : α → Run) : Run :=
  match o with
  | some a => k a
  | none => .ok ()

/-- `errIdxCause` (templates/cc/register.go:186-218). -/
def failIdx (c : Ctx) (idx : Option Idx) (cause : Option CErr) (reason : List Piece) : Run :=
  .error (.invalid (.viol c.msg c.field (match idx with | some i => some i | none => c.index) c.onKey
    reason cause))

/-- `err` (templates/cc/register.go:174-176). -/
def fail (c : Ctx) (reason : List Piece) : Run := failIdx c none none reason

/-- `failUnimplemented` (templates/cc/register.go:412-418). -/
def throw (what : String) : Run := .error (.unimplemented what)

/-! ### Strings (validate/validate.h) -/

/-- `std::string::compare(pos, len, str) == 0`: the part of the string starting at `pos`, at most
`len` bytes long, is `str`. (`pos` is never beyond the end here.) (called in validate/validate.h:79,84). -/
def compareAt (s : Bytes) (pos len : Nat) (str : Bytes) : Bool := (s.drop pos).take len == str

/-- `IsPrefix` (validate/validate.h:77-80). -/
def isPrefix (maybePrefix searchIn : Bytes) : Bool := compareAt searchIn 0 maybePrefix.length maybePrefix

/-- `IsSuffix` (validate/validate.h:82-85). -/
def isSuffix (maybeSuffix searchIn : Bytes) : Bool :=
  decide (maybeSuffix.length ≤ searchIn.length) &&
  compareAt searchIn (searchIn.length - maybeSuffix.length) maybeSuffix.length maybeSuffix

/-- `std::string::find`: the first offset at which `sub` occurs (called in validate/validate.h:89). -/
def findFrom (sub : Bytes) : Nat → Bytes → Option Nat
  | pos, [] => if sub.isEmpty then some pos else none
  | pos, b :: t => if compareAt (b :: t) 0 sub.length sub then some pos else findFrom sub (pos + 1) t

/-- `Contains` (validate/validate.h:87-90). -/
def contains (searchIn toFind : Bytes) : Bool := (findFrom toFind 0 searchIn).isSome

/-- `c_str()` as a C function sees it: up to the first NUL (called in validate/validate.h:99,104). -/
def cStr (s : Bytes) : Bytes := s.takeWhile (· != 0)

/-- `kUTF8LenTbl` of protobuf's strutil.cc: the length of a character from its first byte. -/
def utf8LenTbl (b : UInt8) : Nat :=
  if b < 0xC0 then 1 else if b < 0xE0 then 2 else if b < 0xF0 then 3 else 4

/-- The loop of `Utf8Len` (validate/validate.h:140-152). `UTF8FirstLetterNumBytes` looks only at the
first byte, so the last step may run past the end; `byte_len` is then negative and the loop ends. -/
def utf8LenFuel : Nat → Bytes → Nat
  | 0, _ => 0
  | _ + 1, [] => 0
  | n + 1, b :: t => 1 + utf8LenFuel n ((b :: t).drop (utf8LenTbl b))

/-- `Utf8Len` (validate/validate.h:140-152). -/
def utf8Len (s : Bytes) : Nat := utf8LenFuel s.length s

/-- What `std::sregex_token_iterator(begin, end, "\\.", -1)` yields: the parts between matches; after
the last match the rest is a token only if it is not empty; without a match the whole text is the
one token (validate/validate.h:116-119). -/
def dotTokens (s : Bytes) : List Bytes :=
  let parts := splitByte 0x2E s
  match parts.getLast? with
  | some [] => if parts.length = 1 then parts else parts.dropLast
  | _ => parts

/-- A `char` as the signed number it is on the usual platforms (for validate/validate.h:131). -/
def charVal (b : UInt8) : Int := if b.toNat < 128 then b.toNat else (b.toNat : Int) - 256

/-- The character test of `IsHostname` (validate/validate.h:130-134). -/
def hostCharBad (b : UInt8) : Bool :=
  let c := charVal b
  (decide (c < 0x41) || decide (c > 0x5A)) && (decide (c < 0x61) || decide (c > 0x7A)) &&
  (decide (c < 0x30) || decide (c > 0x39)) && c != 0x2D

/-- The body of the loop of `IsHostname` (validate/validate.h:119-135); `true` is `return false`. -/
def hostPartBad (part : Bytes) : Bool :=
  part.isEmpty || decide (part.length > 63) || part.head? == some 0x2D ||
  part.getLast? == some 0x2D || part.any hostCharBad

/-- `IsHostname` (validate/validate.h:111-138). -/
def isHostname (s : Bytes) : Bool :=
  if s.length > 253 then false else (dotTokens s).all fun p => !hostPartBad p

/-! ### Integers

The field accessors return `int32_t`, `int64_t`, `uint32_t` or `uint64_t`; the literals in the
generated text are plain decimal literals, `int` or `long`. Comparison converts both sides to a
common type (LP64). -/

/-- Integer types, in the order of the usual arithmetic conversions
(for templates/cc/const.go:5 and ltgt.go:3-65). -/
inductive CTy
  | int | uint | long | ulong
  deriving DecidableEq, Repr

/-- Position in the order (for templates/cc/const.go:5 and ltgt.go:3-65). -/
def CTy.rank : CTy → Nat
  | .int => 0 | .uint => 1 | .long => 2 | .ulong => 3

/-- The type both sides of a comparison are converted to (for templates/cc/const.go:5 and ltgt.go:3-65). -/
def CTy.common (a b : CTy) : CTy := if a.rank < b.rank then b else a

/-- Conversion of a value to a type (for templates/cc/const.go:5 and ltgt.go:3-65). -/
def CTy.conv : CTy → Int → Int
  | .int, x => x.bmod 4294967296
  | .uint, x => x % 4294967296
  | .long, x => x.bmod 18446744073709551616
  | .ulong, x => x % 18446744073709551616

/-- The type of the accessor of a field (templates/cc/register.go:324-343 `cTypeOfString`). -/
def fieldTy : NumKind → CTy
  | .int32 | .sint32 | .sfixed32 => .int
  | .uint32 | .fixed32 => .uint
  | .int64 | .sint64 | .sfixed64 => .long
  | .uint64 | .fixed64 => .ulong
  | .float | .double => .int

/-- The type of a decimal literal with an optional minus sign: the first of `int` and `long` that
can hold the digits. Larger literals have no type: the program is ill-formed
(for the literals of templates/cc/register.go:229-261). -/
def litTy (i : Int) : Option CTy :=
  if i.natAbs < 2147483648 then some .int
  else if i.natAbs < 9223372036854775808 then some .long
  else none

/-! ### Floating point

Exact values of floating-point numbers, scaled by `2^1074`; infinities lie outside all finite
values; `none` is NaN. -/

/-- The exact value of a `float` (for templates/cc/register.go:257). -/
def val32 (b : BitVec 32) : Option Int :=
  (f32Key b).map fun x =>
    if x = 2 ^ 277 then 2 ^ 2098 else if x = -2 ^ 277 then -2 ^ 2098 else x * 2 ^ 925

/-- The exact value of a `double` (for templates/cc/register.go:259). -/
def val64 (b : BitVec 64) : Option Int := f64Key b

/-- Round half to even: the integer nearest to `num / den` (for templates/cc/register.go:257-259). -/
def nearest (num den : Int) : Int :=
  let q := num / den
  let r := num % den
  if 2 * r < den then q else if 2 * r > den then q + 1 else if q % 2 = 0 then q else q + 1

/-- Number of binary digits (for templates/cc/register.go:257-259). -/
def bitLen (n : Nat) : Nat := if n = 0 then 0 else n.log2 + 1

/-- The floating-point number with `prec` significant bits and smallest step `2^low` (scaled) that is
nearest to `num / den`. (Overflow to infinity is out of reach for the literals that occur.)
(for templates/cc/register.go:257-259). -/
def roundTo (prec low : Nat) (num den : Int) : Int :=
  let ulp : Int := 2 ^ max (bitLen (num.natAbs * 2 ^ 1074 / den.natAbs) - prec) low
  nearest (num * 2 ^ 1074) (den * ulp) * ulp

/-- What a C++ compiler reads from the text of a decimal `num / den` as a `double`
(for templates/cc/register.go:259). -/
def readDouble (num den : Int) : Int := roundTo 53 0 num den

/-- What it reads as a `float` literal (suffix `F`) (for templates/cc/register.go:257). -/
def readFloat (num den : Int) : Int := roundTo 24 925 num den

/-- `%f`: the decimal with six places nearest to the value, in millionths (templates/cc/register.go:257). -/
def millionths (x : Int) : Int := nearest (x * 1000000) (2 ^ 1074)

end PGV.Cpp
