import Verif.Spec.Literal

/-!
What Java source literals denote, after the Java language specification (JLS 3.3 "Unicode Escapes", 3.10.5 "String
Literals", 3.10.7 "Escape Sequences", 10.6 "Array Initializers"). `none` means the text is not a single literal: what
the compiler makes of it is another program, or none. Text and values are UTF-8; a pair of escapes for the two
halves of a character outside the basic plane is not read (`none`).
-/

namespace PGV.Spec
open PGV

/-- Where reading Unicode escapes has got to: after a backslash that may begin one, after `\u`, or with so many
digits still to come. -/
inductive UState where
  | normal
  | backslash
  | u
  | digits (left : Nat) (acc : Nat)

/-- Unicode escapes are replaced first (JLS 3.3). A backslash after a backslash that is not itself such a second one
does not begin an escape; there may be any number of `u`. -/
def unicodeEscapes : UState → Bytes → Option Bytes
  | .normal, [] => some []
  | .normal, b :: t => if b = 0x5C then unicodeEscapes .backslash t else (unicodeEscapes .normal t).map (b :: ·)
  | .backslash, [] => some [0x5C]
  | .backslash, b :: t =>
    if b = 0x75 then unicodeEscapes .u t else (unicodeEscapes .normal t).map (0x5C :: b :: ·)
  | .u, [] => none
  | .u, b :: t =>
    if b = 0x75 then unicodeEscapes .u t
    else match hexVal b with
      | some x => unicodeEscapes (.digits 3 x) t
      | none => none
  | .digits _ _, [] => none
  | .digits n acc, b :: t =>
    match hexVal b with
    | some x =>
      if 2 ≤ n then unicodeEscapes (.digits (n - 1) (acc * 16 + x)) t
      else if isCodePoint (acc * 16 + x) then (unicodeEscapes .normal t).map (encodeRune (acc * 16 + x) ++ ·)
      else none
    | none => none

/-- An octal digit. -/
def octVal (b : UInt8) : Option Nat := if 0x30 ≤ b.toNat ∧ b.toNat ≤ 0x37 then some (b.toNat - 0x30) else none

/-- An octal escape after its first digit `d`: one digit more, or two if `d` is at most 3. -/
def octalEscape (d : Nat) (t : Bytes) : Nat × Bytes :=
  match t with
  | [] => (d, t)
  | b :: t' =>
    match octVal b with
    | none => (d, t)
    | some e =>
      match t' with
      | [] => (d * 8 + e, t')
      | c :: t'' =>
        match octVal c with
        | none => (d * 8 + e, t')
        | some g => if d ≤ 3 then (d * 64 + e * 8 + g, t'') else (d * 8 + e, t')

/-- The text after a backslash: the character the escape denotes, and the rest of the text. -/
def javaEscape : Bytes → Option (Bytes × Bytes)
  | [] => none
  | c :: t =>
    if c = 0x62 then some ([8], t) else if c = 0x73 then some ([0x20], t) else if c = 0x74 then some ([9], t)
    else if c = 0x6E then some ([10], t) else if c = 0x66 then some ([12], t) else if c = 0x72 then some ([13], t)
    else if c = 0x22 then some ([0x22], t) else if c = 0x27 then some ([0x27], t)
    else if c = 0x5C then some ([0x5C], t)
    else match octVal c with
      | some d => some (encodeRune (octalEscape d t).1, (octalEscape d t).2)
      | none => none

/-- One character or escape inside a string literal: not a quote, not the end of a line. -/
def javaChar : Bytes → Option (Bytes × Bytes)
  | [] => none
  | b :: t =>
    if b = 0x22 ∨ b = 0x0A ∨ b = 0x0D then none
    else if b = 0x5C then javaEscape t
    else some ([b], t)

/-- The characters up to the closing quote, which must end the text. -/
def javaBody : Nat → Bytes → Option Bytes
  | 0, _ => none
  | n + 1, t =>
    if t = [0x22] then some []
    else match javaChar t with
      | some (v, rest) => (javaBody n rest).map (v ++ ·)
      | none => none

/-- The value of a Java string literal. -/
def javaString (text : Bytes) : Option Bytes :=
  match unicodeEscapes .normal text with
  | some (0x22 :: t) => javaBody t.length t
  | _ => none

/-- Elements `(byte)0xhh,` up to the closing brace, which must end the text. The cast keeps the last eight bits. -/
def javaElems : Nat → Bytes → Option Bytes
  | 0, _ => none
  | n + 1, t =>
    match t with
    | [0x7D] => some []
    | 0x28 :: 0x62 :: 0x79 :: 0x74 :: 0x65 :: 0x29 :: 0x30 :: 0x78 :: d :: t =>
      if (hexVal d).isSome ∧ (hexAll 0 (d :: t)).1 < 2 ^ 32 then
        match (hexAll 0 (d :: t)).2 with
        | 0x2C :: rest => (javaElems n rest).map (UInt8.ofNat ((hexAll 0 (d :: t)).1 % 256) :: ·)
        | _ => none
      else none
    | _ => none

/-- The value of an expression `new byte[]{…}`. -/
def javaByteArray : Bytes → Option Bytes
  | 0x6E :: 0x65 :: 0x77 :: 0x20 :: 0x62 :: 0x79 :: 0x74 :: 0x65 :: 0x5B :: 0x5D :: 0x7B :: t =>
    javaElems t.length t
  | _ => none

/-- Text that stands for itself between quotes: no quote, no backslash, no end of line. -/
def JavaPlain (s : Bytes) : Prop := ∀ b ∈ s, b ≠ 0x22 ∧ b ≠ 0x5C ∧ b ≠ 0x0A ∧ b ≠ 0x0D

/-- What the Java literal for a pattern can hold: no quote, no bell, no vertical tab, no unprintable character
outside the basic plane, and no backslash before `x` or `u00`. -/
structure JavaPattern (isPrint : Nat → Bool) (cs : List Nat) : Prop where
  chars : ∀ c ∈ cs, c ≠ 0x22 ∧ c ≠ 7 ∧ c ≠ 11 ∧ (0x10000 ≤ c → isPrint c = true)
  noX : ∀ a b, cs ≠ a ++ 0x5C :: 0x78 :: b
  noU00 : ∀ a b, cs ≠ a ++ 0x5C :: 0x75 :: 0x30 :: 0x30 :: b

/-- The two hexadecimal digits of a number below 256. -/
def hex2 (c : Nat) : Bytes :=
  let digit (n : Nat) : UInt8 := if n < 10 then UInt8.ofNat (0x30 + n) else UInt8.ofNat (0x57 + n)
  [digit (c / 16), digit (c % 16)]

/-- How a character of a pattern appears in the pattern that Java compiles: unprintable characters below 256 (other
than backspace, tab, newline, form feed and return) as the regular expression escape `\xhh`. -/
def patternChar (isPrint : Nat → Bool) (c : Nat) : Bytes :=
  if c < 256 ∧ isPrint c = false ∧ c ∉ [8, 9, 10, 12, 13] then 0x5C :: 0x78 :: hex2 c else encodeRune c

end PGV.Spec
