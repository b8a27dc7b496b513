/-!
Byte strings, and the parts of Go's `strings`, `bytes` and `unicode/utf8` packages that the
generated validators call. A Go `string` or `[]byte` is a list of bytes.
-/

namespace PGV

/-- A Go `string` or `[]byte` value
(the values of the fields that templates/goshared/string.go:3 and bytes.go:3 are for). -/
abbrev Bytes := List UInt8

/-- `strings.HasPrefix` / `bytes.HasPrefix` (called from templates/goshared/string.go:85 and
bytes.go:47): `len(s) >= len(prefix) && s[:len(prefix)] == prefix`. -/
def hasPrefix (s p : Bytes) : Bool :=
  decide (p.length ≤ s.length) && s.take p.length == p

/-- `strings.HasSuffix` / `bytes.HasSuffix` (templates/goshared/string.go:93, bytes.go:55):
`len(s) >= len(suffix) && s[len(s)-len(suffix):] == suffix`. -/
def hasSuffix (s p : Bytes) : Bool :=
  decide (p.length ≤ s.length) && s.drop (s.length - p.length) == p

/-- `strings.Contains` / `bytes.Contains` (templates/goshared/string.go:101,109, bytes.go:63):
some offset at which `sub` occurs. -/
def containsSub (s sub : Bytes) : Bool :=
  (List.range (s.length + 1)).any fun i => hasPrefix (s.drop i) sub

/-- `strings.TrimSuffix(s, suffix)` (templates/goshared/known.go:5). -/
def trimSuffix (s p : Bytes) : Bytes :=
  if hasSuffix s p then s.take (s.length - p.length) else s

/-- `strings.Split(s, sep)` for a one-byte separator (templates/goshared/known.go:11). The result
is never empty: splitting the empty string gives one empty part. -/
def splitByte (sep : UInt8) : Bytes → List Bytes
  | [] => [[]]
  | b :: rest =>
    if b = sep then [] :: splitByte sep rest
    else match splitByte sep rest with
      | [] => [[b]]
      | p :: ps => (b :: p) :: ps

/-- `strings.SplitN(s, sep, 2)` for a one-byte separator (templates/goshared/known.go:47): the part
before the first separator and, when there is a separator, the part after it. -/
def splitN2 (sep : UInt8) (s : Bytes) : Bytes × Option Bytes :=
  match s with
  | [] => ([], none)
  | b :: rest =>
    if b = sep then ([], some rest)
    else let (p, q) := splitN2 sep rest; (b :: p, q)

/-- Continuation byte range check used by Go's UTF-8 decoder
(for templates/goshared/string.go:15 and known.go:24). -/
def inRange (lo hi : UInt8) (b : UInt8) : Bool := decide (lo ≤ b) && decide (b ≤ hi)

/-- The rune Go substitutes for an invalid encoding (`utf8.RuneError`) (for templates/goshared/known.go:24). -/
def runeError : Nat := 0xFFFD

/-- `utf8.DecodeRuneInString` on a non-empty string: the rune and its width in bytes. Invalid
encodings give `RuneError` with width 1. Transcribed from the acceptance table of Go's
`unicode/utf8` package, which `utf8.RuneCountInString` (templates/goshared/string.go:15-41) and
`range` loops over strings (known.go:24) share. On the empty string the width is 1 and the
result is never used. -/
def decodeRune (s : Bytes) : Nat × Nat :=
  match s with
  | [] => (runeError, 1)
  | b0 :: t0 =>
    if b0 < 0x80 then (b0.toNat, 1)
    else if inRange 0xC2 0xDF b0 then
      match t0 with
      | b1 :: _ =>
        if inRange 0x80 0xBF b1 then
          ((b0.toNat - 0xC0) * 64 + (b1.toNat - 0x80), 2)
        else (runeError, 1)
      | _ => (runeError, 1)
    else if inRange 0xE0 0xEF b0 then
      match t0 with
      | b1 :: b2 :: _ =>
        let lo : UInt8 := if b0 = 0xE0 then 0xA0 else 0x80
        let hi : UInt8 := if b0 = 0xED then 0x9F else 0xBF
        if inRange lo hi b1 && inRange 0x80 0xBF b2 then
          ((b0.toNat - 0xE0) * 4096 + (b1.toNat - 0x80) * 64 + (b2.toNat - 0x80), 3)
        else (runeError, 1)
      | _ => (runeError, 1)
    else if inRange 0xF0 0xF4 b0 then
      match t0 with
      | b1 :: b2 :: b3 :: _ =>
        let lo : UInt8 := if b0 = 0xF0 then 0x90 else 0x80
        let hi : UInt8 := if b0 = 0xF4 then 0x8F else 0xBF
        if inRange lo hi b1 && inRange 0x80 0xBF b2 && inRange 0x80 0xBF b3 then
          ((b0.toNat - 0xF0) * 262144 + (b1.toNat - 0x80) * 4096 + (b2.toNat - 0x80) * 64
            + (b3.toNat - 0x80), 4)
        else (runeError, 1)
      | _ => (runeError, 1)
    else (runeError, 1)

/-- Runes of a string with a bound on the number of decoding steps (for templates/goshared/known.go:24). -/
def runesFuel : Nat → Bytes → List Nat
  | 0, _ => []
  | _ + 1, [] => []
  | n + 1, b :: t =>
    (decodeRune (b :: t)).1 :: runesFuel n ((b :: t).drop (decodeRune (b :: t)).2)

/-- The runes a Go `range` loop over the string visits. Every decoding step consumes at least one
byte, so `s.length` steps are enough (`runesFuel_enough` in `Lemmas/Utf8.lean`) (templates/goshared/known.go:24). -/
def runes (s : Bytes) : List Nat := runesFuel s.length s

/-- `utf8.RuneCountInString` (templates/goshared/string.go:15,20,28,34,41). -/
def runeCount (s : Bytes) : Nat := (runes s).length

/-- UTF-8 encoding of one rune, as `utf8.EncodeRune` writes it (used by `strings.Map`, which
`strings.ToLower` calls on non-ASCII strings; templates/goshared/known.go:5). Surrogates and
values above U+10FFFF are written as `RuneError`. -/
def encodeRune (c : Nat) : Bytes :=
  let c := if (0xD800 ≤ c ∧ c < 0xE000) ∨ 0x110000 ≤ c then runeError else c
  if c < 0x80 then [UInt8.ofNat c]
  else if c < 0x800 then [UInt8.ofNat (0xC0 + c / 64), UInt8.ofNat (0x80 + c % 64)]
  else if c < 0x10000 then
    [UInt8.ofNat (0xE0 + c / 4096), UInt8.ofNat (0x80 + c / 64 % 64), UInt8.ofNat (0x80 + c % 64)]
  else
    [UInt8.ofNat (0xF0 + c / 262144), UInt8.ofNat (0x80 + c / 4096 % 64),
      UInt8.ofNat (0x80 + c / 64 % 64), UInt8.ofNat (0x80 + c % 64)]

/-- ASCII lower-casing of one byte (for templates/goshared/known.go:5). -/
def lowerByte (b : UInt8) : UInt8 := if inRange 0x41 0x5A b then b + 0x20 else b

/-- Is every byte ASCII? (for templates/goshared/known.go:5). -/
def isASCII (s : Bytes) : Bool := s.all (· < 0x80)

/-- ASCII text as bytes; only used for literals in examples and for the fixed strings that occur in
the code (module/checker.go:17-19). -/
def asc (s : String) : Bytes := s.toList.map fun c => UInt8.ofNat c.toNat

end PGV
