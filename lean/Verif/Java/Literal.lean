import Verif.Go.Literal

/-!
The Java source literals the generator writes for string and bytes rules. Source text is a list of bytes.
-/

namespace PGV.Java
open PGV

/-- `strings.Replace(s, old, new, -1)` for a text `old` that is not empty: the occurrences that do not overlap,
from the left. The first argument is the number of bytes still to skip
(called in templates/java/register.go:445-448). -/
def replaceAll (old new : Bytes) : Nat → Bytes → Bytes
  | _, [] => []
  | k + 1, _ :: t => replaceAll old new k t
  | 0, b :: t =>
    if old.isPrefixOf (b :: t) then new ++ replaceAll old new (old.length - 1) t
    else b :: replaceAll old new 0 t

/-- `javaStringEscape` (templates/java/register.go:442-450) without the outer quotes: `%q`, then `\u00` becomes `\x`,
`\x` becomes `\\x` and `"` becomes `\"`. `isPrint` is `strconv.IsPrint`. -/
def escapeBody (isPrint : Nat → Bool) (s : Bytes) : Bytes :=
  let t := Go.quoteBody isPrint s.length s
  let t := replaceAll [0x5C, 0x75, 0x30, 0x30] [0x5C, 0x78] 0 t
  let t := replaceAll [0x5C, 0x78] [0x5C, 0x5C, 0x78] 0 t
  replaceAll [0x22] [0x5C, 0x22] 0 t

/-- `javaStringEscape` (templates/java/register.go:442-450), used for patterns (templates/java/string.go:19,
bytes.go:22). -/
def javaStringEscape (isPrint : Nat → Bool) (s : Bytes) : Bytes := 0x22 :: escapeBody isPrint s ++ [0x22]

/-- The other strings are put between quotes as they are: constants, members of lists, prefixes, suffixes and so on
(templates/java/string.go:7,14,27,57-66; any.go:7,14). -/
def rawString (s : Bytes) : Bytes := 0x22 :: s ++ [0x22]

/-- `fmt.Sprintf("%x", b)`: lower case, no leading zero (templates/java/register.go:456-465). -/
def hexLow (b : UInt8) : Bytes :=
  if b.toNat < 16 then [Go.lowerDigit b.toNat] else [Go.lowerDigit (b.toNat / 16), Go.lowerDigit (b.toNat % 16)]

/-- `new byte[]{` (templates/java/register.go:456-465). -/
def arrayStart : Bytes := [0x6E, 0x65, 0x77, 0x20, 0x62, 0x79, 0x74, 0x65, 0x5B, 0x5D, 0x7B]

/-- `(byte)` (templates/java/register.go:456-465). -/
def byteCast : Bytes := [0x28, 0x62, 0x79, 0x74, 0x65, 0x29]

/-- `byteArrayLit` (templates/java/register.go:456-465): `new byte[]{(byte)0x1,(byte)0xab,}`. -/
def byteArrayLit (x : Bytes) : Bytes :=
  arrayStart ++ x.flatMap (fun b => byteCast ++ [0x30, 0x78] ++ hexLow b ++ [0x2C]) ++ [0x7D]

end PGV.Java
