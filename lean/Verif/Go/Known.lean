import Verif.Go.Err
import Verif.Core.Regex

/-!
The helper methods emitted per message for well-known string formats
(templates/goshared/known.go), the uuid pattern (templates/go/file.go:46-49) and `net.IP` methods.
-/

namespace PGV.Go
open PGV

/-- `unicode.ToLower` (called in templates/goshared/known.go:5). -/
def lowerRune (E : Env) (r : Nat) : Nat :=
  if r < 0x80 then (if 0x41 ≤ r ∧ r ≤ 0x5A then r + 0x20 else r) else E.lowerRune r

/-- `strings.ToLower`: an ASCII fast path, else `strings.Map(unicode.ToLower, s)`
(called in templates/goshared/known.go:5). -/
def toLower (E : Env) (s : Bytes) : Bytes :=
  if isASCII s then s.map lowerByte
  else (runes s).flatMap fun r => encodeRune (lowerRune E r)

/-- Allowed runes of a hostname label, templates/goshared/known.go:25. -/
def hostRuneOk (r : Nat) : Bool :=
  !((decide (r < 0x61) || decide (r > 0x7A)) && (decide (r < 0x30) || decide (r > 0x39)) &&
    r != 0x2D)

/-- One iteration of the loop over labels, templates/goshared/known.go:11-29: the error, if any.
`part[0]` and `part[len(part)-1]` are evaluated after the emptiness check. -/
def hostPartErr (part : Bytes) : Option String :=
  if part.length = 0 ∨ part.length > 63 then
    some "hostname part must be non-empty and cannot exceed 63 characters"
  else if part.head? = some 0x2D then some "hostname parts cannot begin with hyphens"
  else if part.getLast? = some 0x2D then some "hostname parts cannot end with hyphens"
  else if (runes part).any (fun r => !hostRuneOk r) then
    some "hostname parts can only contain alphanumeric characters or hyphens"
  else none

/-- `_validateHostname` (templates/goshared/known.go:4-32): nil or the error's text (the offending
rune is left out of the text). -/
def validateHostname (E : Env) (host : Bytes) : Option String :=
  let s := toLower E (trimSuffix host [0x2E])
  if host.length > 253 then some "hostname cannot exceed 253 characters"
  else (splitByte 0x2E s).findSome? hostPartErr

/-- `_validateEmail` (templates/goshared/known.go:36-54). `parts[1]` exists because a parsed
address contains `@` (`Env.mail_at`); a missing second part would panic and is given an arbitrary
error here, which `mail_at` makes unreachable. -/
def validateEmail (E : Env) (addr : Bytes) : Option String :=
  match E.parseMail addr with
  | .error e => some e
  | .ok addr =>
    if addr.length > 254 then some "email addresses cannot exceed 254 characters"
    else
      let parts := splitN2 0x40 addr
      if parts.1.length > 64 then some "email address local phrase cannot exceed 64 characters"
      else match parts.2 with
        | some h => validateHostname E h
        | none => some "index out of range"

/-- The class `[0-9a-fA-F]` (templates/go/file.go:48). -/
def hexClass : CClass := ⟨false, [(0x30, 0x39), (0x61, 0x66), (0x41, 0x46)]⟩

/-- `^[0-9a-fA-F]{8}-[0-9a-fA-F]{4}-[0-9a-fA-F]{4}-[0-9a-fA-F]{4}-[0-9a-fA-F]{12}$`
(templates/go/file.go:48). -/
def uuidRe : Re :=
  .seq [.rep 8 (.cls hexClass), .chr 0x2D, .rep 4 (.cls hexClass), .chr 0x2D,
    .rep 4 (.cls hexClass), .chr 0x2D, .rep 4 (.cls hexClass), .chr 0x2D,
    .rep 12 (.cls hexClass)]

/-- `_validateUuid` (templates/goshared/known.go:58-64). -/
def validateUuid (s : Bytes) : Option String :=
  if !matchFull uuidRe s then some "invalid uuid format" else none

/-- `net.IP.To4() != nil`: 4 bytes, or 16 bytes with the IPv4-mapped prefix
(called in templates/goshared/string.go:123,129; bytes.go:99,105). -/
def ipTo4 (b : Bytes) : Option Bytes :=
  if b.length = 4 then some b
  else if b.length = 16 ∧ (b.take 10).all (· == 0) ∧ b[10]? = some 0xFF ∧ b[11]? = some 0xFF then
    some (b.drop 12)
  else none

/-- `net.IP.To16()` (called in templates/goshared/bytes.go:93,105). -/
def ipTo16 (b : Bytes) : Option Bytes :=
  if b.length = 4 then some (List.replicate 10 0 ++ [0xFF, 0xFF] ++ b)
  else if b.length = 16 then some b
  else none

end PGV.Go
