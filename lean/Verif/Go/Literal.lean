import Verif.Core.Bytes

/-!
The Go source literals the generator writes (templates/goshared/register.go:166-206). Source text is
a list of bytes.
-/

namespace PGV.Go
open PGV

/-- Upper-case hexadecimal digit, as `%X` writes it (templates/goshared/register.go:181,202). -/
def upperDigit (n : Nat) : UInt8 := if n < 10 then UInt8.ofNat (0x30 + n) else UInt8.ofNat (0x37 + n)

/-- Lower-case hexadecimal digit, as `strconv.Quote` writes it (for templates/goshared/register.go:179). -/
def lowerDigit (n : Nat) : UInt8 := if n < 10 then UInt8.ofNat (0x30 + n) else UInt8.ofNat (0x57 + n)

/-- `fmt.Sprintf("%X", b)` for a byte: no leading zero (templates/goshared/register.go:181,202). -/
def hexX (b : UInt8) : Bytes :=
  if b.toNat < 16 then [upperDigit b.toNat] else [upperDigit (b.toNat / 16), upperDigit (b.toNat % 16)]

/-- `byteStr` (templates/goshared/register.go:199-206), which `inKey` uses for the keys of the lookup
tables of bytes fields (register.go:234-237). -/
def byteStr (x : Bytes) : Bytes :=
  0x22 :: x.flatMap (fun b => 0x5C :: 0x78 :: hexX b) ++ [0x22]

/-- `strings.Join(els, ", ")` (templates/goshared/register.go:187). -/
def joinComma : List Bytes → Bytes
  | [] => []
  | [e] => e
  | e :: es => e ++ [0x2C, 0x20] ++ joinComma es

/-- `[]uint8`, what `%T` writes for a `[]byte` (templates/goshared/register.go:187). -/
def sliceType : Bytes := [0x5B, 0x5D, 0x75, 0x69, 0x6E, 0x74, 0x38]

/-- `lit` on a `[]byte` (templates/goshared/register.go:182-187): `[]uint8{0x1, 0xAB}`. -/
def litBytes (x : Bytes) : Bytes :=
  sliceType ++ [0x7B] ++ joinComma (x.map fun b => 0x30 :: 0x78 :: hexX b) ++ [0x7D]

/-- The last `n` hexadecimal digits of a number (for templates/goshared/register.go:179). -/
def hexDigits : Nat → Nat → Bytes
  | 0, _ => []
  | n + 1, r => lowerDigit (r / 16 ^ n % 16) :: hexDigits n r

/-- The letter of a one-letter escape (for templates/goshared/register.go:179). -/
def simpleEscape (r : Nat) : Option UInt8 :=
  if r = 7 then some 0x61 else if r = 8 then some 0x62 else if r = 12 then some 0x66
  else if r = 10 then some 0x6E else if r = 13 then some 0x72 else if r = 9 then some 0x74
  else if r = 11 then some 0x76 else none

/-- `strconv.appendEscapedRune` with quote `"`, not ASCII-only; `isPrint` is `strconv.IsPrint`
(for templates/goshared/register.go:179). -/
def escapedRune (isPrint : Nat → Bool) (r : Nat) : Bytes :=
  if r = 0x22 ∨ r = 0x5C then [0x5C, UInt8.ofNat r]
  else if isPrint r then encodeRune r
  else match simpleEscape r with
    | some l => [0x5C, l]
    | none =>
      if r < 0x20 ∨ r = 0x7F then 0x5C :: 0x78 :: hexDigits 2 r
      else if r < 0x10000 then 0x5C :: 0x75 :: hexDigits 4 r
      else 0x5C :: 0x55 :: hexDigits 8 r

/-- The loop of `strconv.appendQuotedWith`: invalid bytes are written as `\xhh`
(for templates/goshared/register.go:179). -/
def quoteBody (isPrint : Nat → Bool) : Nat → Bytes → Bytes
  | 0, _ => []
  | _ + 1, [] => []
  | n + 1, b :: t =>
    (if (decodeRune (b :: t)).1 = runeError ∧ (decodeRune (b :: t)).2 = 1 then
      0x5C :: 0x78 :: hexDigits 2 b.toNat
     else escapedRune isPrint (decodeRune (b :: t)).1) ++
    quoteBody isPrint n ((b :: t).drop (decodeRune (b :: t)).2)

/-- `fmt.Sprintf("%q", s)`, that is `strconv.Quote`, which `lit` uses for strings
(templates/goshared/register.go:178-179). -/
def litString (isPrint : Nat → Bool) (s : Bytes) : Bytes :=
  0x22 :: quoteBody isPrint s.length s ++ [0x22]

end PGV.Go
