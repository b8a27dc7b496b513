import Verif.Core.Bytes

/-!
What Go source literals denote, after the Go language specification ("String literals", "Rune
literals", "Integer literals" and "Composite literals"). `none` means the text
is not a literal of that kind: the generated file does not compile.
-/

namespace PGV.Spec
open PGV

/-- A hexadecimal digit, in either case. -/
def hexVal (b : UInt8) : Option Nat :=
  if 0x30 ≤ b.toNat ∧ b.toNat ≤ 0x39 then some (b.toNat - 0x30)
  else if 0x41 ≤ b.toNat ∧ b.toNat ≤ 0x46 then some (b.toNat - 0x37)
  else if 0x61 ≤ b.toNat ∧ b.toNat ≤ 0x66 then some (b.toNat - 0x57)
  else none

/-- Exactly `n` hexadecimal digits: the number, after `acc`, and the rest of the text. -/
def hexN : Nat → Nat → Bytes → Option (Nat × Bytes)
  | 0, acc, t => some (acc, t)
  | _ + 1, _, [] => none
  | n + 1, acc, b :: t =>
    match hexVal b with
    | some x => hexN n (acc * 16 + x) t
    | none => none

/-- Three octal digits. -/
def octal : Bytes → Option (Nat × Bytes)
  | a :: b :: c :: t =>
    if [a, b, c].all fun d => decide (0x30 ≤ d.toNat ∧ d.toNat ≤ 0x37) then
      some ((a.toNat - 0x30) * 64 + (b.toNat - 0x30) * 8 + (c.toNat - 0x30), t)
    else none
  | _ => none

/-- Unicode code points other than surrogate halves. -/
def isCodePoint (r : Nat) : Bool := decide (r < 0x110000) && !decide (0xD800 ≤ r ∧ r < 0xE000)

/-- The text after a backslash: the bytes the escape denotes, and the rest of the text. -/
def escape : Bytes → Option (Bytes × Bytes)
  | [] => none
  | c :: t =>
    if c = 0x61 then some ([7], t) else if c = 0x62 then some ([8], t)
    else if c = 0x66 then some ([12], t) else if c = 0x6E then some ([10], t)
    else if c = 0x72 then some ([13], t) else if c = 0x74 then some ([9], t)
    else if c = 0x76 then some ([11], t) else if c = 0x5C then some ([0x5C], t)
    else if c = 0x22 then some ([0x22], t)
    else if c = 0x78 then (hexN 2 0 t).map fun (r, t) => ([UInt8.ofNat r], t)
    else if c = 0x75 then
      (hexN 4 0 t).bind fun (r, t) => if isCodePoint r then some (encodeRune r, t) else none
    else if c = 0x55 then
      (hexN 8 0 t).bind fun (r, t) => if isCodePoint r then some (encodeRune r, t) else none
    else (octal (c :: t)).bind fun (r, t) => if r < 256 then some ([UInt8.ofNat r], t) else none

/-- One character or escape inside an interpreted string literal. Source text is UTF-8, without NUL
and byte order marks; a quote or a newline cannot stand for itself. -/
def stringChar : Bytes → Option (Bytes × Bytes)
  | [] => none
  | b :: t =>
    if b = 0x22 ∨ b = 0x0A then none
    else if b = 0x5C then escape t
    else
      let (r, w) := decodeRune (b :: t)
      if (r = runeError ∧ w = 1) ∨ r = 0xFEFF ∨ r = 0 then none
      else some ((b :: t).take w, (b :: t).drop w)

/-- The characters up to the closing quote, which must end the text. -/
def stringBody : Nat → Bytes → Option Bytes
  | 0, _ => none
  | n + 1, t =>
    if t = [0x22] then some []
    else match stringChar t with
      | some (v, rest) => (stringBody n rest).map (v ++ ·)
      | none => none

/-- The value of an interpreted string literal. -/
def stringLit : Bytes → Option Bytes
  | 0x22 :: t => stringBody t.length t
  | _ => none

/-- Hexadecimal digits, as many as there are: the number, after `acc`, and the rest. -/
def hexAll (acc : Nat) : Bytes → Nat × Bytes
  | [] => (acc, [])
  | b :: t =>
    match hexVal b with
    | some x => hexAll (acc * 16 + x) t
    | none => (acc, b :: t)

/-- A hexadecimal integer literal that is a byte. -/
def byteLit : Bytes → Option (UInt8 × Bytes)
  | 0x30 :: 0x78 :: b :: t =>
    if (hexVal b).isSome then
      let (r, rest) := hexAll 0 (b :: t)
      if r < 256 then some (UInt8.ofNat r, rest) else none
    else none
  | _ => none

/-- The elements of a byte slice literal, up to the closing brace, which must end the text. -/
def sliceElems : Nat → Bytes → Option Bytes
  | 0, _ => none
  | n + 1, t =>
    match byteLit t with
    | some (v, [0x7D]) => some [v]
    | some (v, 0x2C :: 0x20 :: rest) => (sliceElems n rest).map (v :: ·)
    | _ => none

/-- The value of a composite literal `[]uint8{…}`. -/
def sliceLit : Bytes → Option Bytes
  | 0x5B :: 0x5D :: 0x75 :: 0x69 :: 0x6E :: 0x74 :: 0x38 :: 0x7B :: t =>
    if t = [0x7D] then some [] else sliceElems t.length t
  | _ => none

end PGV.Spec
