import Verif.Go.Literal
import Verif.Cpp.Lib

/-!
String and byte literals in generated C++ text: what the generator writes
(templates/cc/register.go:229-261,269-276) and what a C++ compiler reads.
-/

namespace PGV.Cpp
open PGV
open PGV.Go (hexX lowerDigit litString)

/-- `fmt.Sprintf("\\x%x", b)`: no leading zero (templates/cc/register.go:250). -/
def hexx (b : UInt8) : Bytes :=
  if b.toNat < 16 then [lowerDigit b.toNat] else [lowerDigit (b.toNat / 16), lowerDigit (b.toNat % 16)]

/-- `lit` on a `[]byte` (templates/cc/register.go:245-252). -/
def litBytes (x : Bytes) : Bytes := 0x22 :: x.flatMap (fun b => 0x5C :: 0x78 :: hexx b) ++ [0x22]

/-- `byteStr` (templates/cc/register.go:269-276), for the members of the sets of bytes fields. -/
def byteStr (x : Bytes) : Bytes := 0x22 :: x.flatMap (fun b => 0x5C :: 0x78 :: hexX b) ++ [0x22]

/-- The value of a hexadecimal digit (for the literals of templates/cc/register.go:229-276). -/
def hexDigit (b : UInt8) : Option Nat :=
  if 0x30 ≤ b ∧ b ≤ 0x39 then some (b.toNat - 0x30)
  else if 0x41 ≤ b ∧ b ≤ 0x46 then some (b.toNat - 0x37)
  else if 0x61 ≤ b ∧ b ≤ 0x66 then some (b.toNat - 0x57)
  else none

/-- All the hexadecimal digits that follow: a hexadecimal escape in C++ has no length limit
(for the literals of templates/cc/register.go:229-276). -/
def hexRun (acc : Nat) : Bytes → Nat × Bytes
  | [] => (acc, [])
  | b :: t =>
    match hexDigit b with
    | some x => hexRun (acc * 16 + x) t
    | none => (acc, b :: t)

/-- Exactly `n` hexadecimal digits (for the literals of templates/cc/register.go:229-276). -/
def hexExact : Nat → Nat → Bytes → Option (Nat × Bytes)
  | 0, acc, t => some (acc, t)
  | _ + 1, _, [] => none
  | n + 1, acc, b :: t =>
    match hexDigit b with
    | some x => hexExact n (acc * 16 + x) t
    | none => none

/-- The escapes of one letter (for the literals of templates/cc/register.go:229-276). -/
def escapeLetter (c : UInt8) : Option UInt8 :=
  if c = 0x61 then some 7 else if c = 0x62 then some 8 else if c = 0x66 then some 12
  else if c = 0x6E then some 10 else if c = 0x72 then some 13 else if c = 0x74 then some 9
  else if c = 0x76 then some 11 else if c = 0x5C then some 0x5C else if c = 0x22 then some 0x22
  else none

/-- One character or escape of an ordinary string literal, and the rest; `none` when the program is
ill-formed. Source text is UTF-8 and so is the execution character set. Octal escapes never occur in
what the generator writes and are left out (for the literals of templates/cc/register.go:229-276). -/
def readChar : Bytes → Option (Bytes × Bytes)
  | [] => none
  | b :: t =>
    if b = 0x22 ∨ b = 0x0A then none
    else if b = 0x5C then
      match t with
      | [] => none
      | c :: t =>
        match escapeLetter c with
        | some v => some ([v], t)
        | none =>
          if c = 0x78 then
            let (v, rest) := hexRun 0 t
            if rest.length < t.length ∧ v < 256 then some ([UInt8.ofNat v], rest) else none
          else if c = 0x75 then (hexExact 4 0 t).map fun (v, t) => (encodeRune v, t)
          else if c = 0x55 then (hexExact 8 0 t).map fun (v, t) => (encodeRune v, t)
          else none
    else some ([b], t)

/-- The characters up to the closing quote, which must end the text
(for the literals of templates/cc/register.go:229-276). -/
def readBody : Nat → Bytes → Option Bytes
  | 0, _ => none
  | n + 1, t =>
    if t = [0x22] then some []
    else match readChar t with
      | some (v, rest) => (readBody n rest).map (v ++ ·)
      | none => none

/-- The array of characters a string literal denotes, without its final NUL
(for the literals of templates/cc/register.go:229-276). -/
def readLit : Bytes → Option Bytes
  | 0x22 :: t => readBody t.length t
  | _ => none

/-- The characters of the literal `lit` writes for a string (templates/cc/register.go:241-242);
`isPrint` is `strconv.IsPrint`. Literals that do not compile denote nothing. -/
def strChars (isPrint : Nat → Bool) (s : Bytes) : Bytes := (readLit (litString isPrint s)).getD []

/-- The `std::string` made from it (or compared with it) as a `const char*`
(templates/cc/const.go:5; msg.go:36-40). -/
def strVal (isPrint : Nat → Bool) (s : Bytes) : Bytes := cStr (strChars isPrint s)

/-- The `std::string` made from the literal for a byte string (templates/cc/bytes.go). -/
def bytesVal (s : Bytes) : Bytes := cStr ((readLit (litBytes s)).getD [])

/-- The `std::string` made from the literal for a byte string in a set
(templates/cc/msg.go:19-23; register.go:347-348). -/
def bytesKey (s : Bytes) : Bytes := cStr ((readLit (byteStr s)).getD [])

end PGV.Cpp
