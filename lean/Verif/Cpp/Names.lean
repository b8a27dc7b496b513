import Verif.Core.Schema

/-!
Names in generated C++ code: what the generator writes for accessors, oneof cases and enum types, and what protoc's
C++ generator calls them.
-/

namespace PGV.Cpp
open PGV

/-- An ASCII lower-case letter (for templates/cc/register.go:278-283). -/
def isLow (c : Char) : Bool := decide ('a' ≤ c ∧ c ≤ 'z')

/-- An ASCII upper-case letter (for templates/cc/register.go:278-283). -/
def isUp (c : Char) : Bool := decide ('A' ≤ c ∧ c ≤ 'Z')

/-- An ASCII digit (for templates/cc/register.go:278-283). -/
def isDig (c : Char) : Bool := decide ('0' ≤ c ∧ c ≤ '9')

/-- The upper-case letter of a lower-case one; other characters stay (for templates/cc/register.go:278-283). -/
def upperOf (c : Char) : Char := if isLow c then Char.ofNat (c.toNat - 32) else c

/-- The lower-case letter of an upper-case one; other characters stay (for templates/cc/register.go:134-142). -/
def lowerOf (c : Char) : Char := if isUp c then Char.ofNat (c.toNat + 32) else c

/-- Names as lists of characters: identifiers of .proto files (used in templates/cc/register.go:134-152). -/
abbrev Ident := List Char

/-! ### What the generator writes -/

/-- `methodName` (templates/cc/register.go:121-131). -/
def methodName (s : Ident) : Ident :=
  if s = "const".toList then "const_".toList
  else if s = "inline".toList then "inline_".toList
  else s

/-- The loop of `pgsgo.PGGUpperCamelCase` (used in templates/cc/register.go:278-283): an underscore before a
lower-case letter goes, a digit stays, any other character is written with a lower-case letter made upper-case, and the
lower-case letters after it stay as they are (`cap = false`). -/
def pggLoop (cap : Bool) : Ident → Ident
  | [] => []
  | c :: t =>
    if !cap && isLow c then c :: pggLoop false t
    else if c == '_' && (t.head?.map isLow).getD false then pggLoop true t
    else if isDig c then c :: pggLoop true t
    else upperOf c :: pggLoop false t

/-- `pgsgo.PGGUpperCamelCase` (used in templates/cc/register.go:221-226,278-283): a leading underscore becomes
an `X`. -/
def upperCamel : Ident → Ident
  | [] => []
  | c :: t => if c = '_' then 'X' :: pggLoop true t else pggLoop true (c :: t)

/-- The enumerator of a oneof member, after its `k`: `strings.ReplaceAll(PGGUpperCamelCase(…), "_", "")`
(templates/cc/register.go:278-283). -/
def caseName (field : Ident) : Ident := (upperCamel field).filter (· ≠ '_')

/-- The type of a oneof's cases, before its `Case` (templates/cc/register.go:278-283). -/
def caseType (oneof : Ident) : Ident := upperCamel oneof

/-! ### What protoc's C++ generator calls them -/

/-- `FieldName` of protoc's C++ generator (the methods called through templates/cc/register.go:134-152): the name of
the field in lower case, with an underscore after words that C++ reserves. `keyword` says which these are. -/
def protocField (keyword : Ident → Bool) (s : Ident) : Ident :=
  let l := s.map lowerOf
  if keyword l then l ++ ['_'] else l

/-- `UnderscoresToCamelCase` of protoc's C++ generator, with `cap_next_letter` (the names used through
templates/cc/register.go:278-283). -/
def protocCamelLoop (cap : Bool) : Ident → Ident
  | [] => []
  | c :: t =>
    if isLow c then (if cap then upperOf c else c) :: protocCamelLoop false t
    else if isUp c then c :: protocCamelLoop false t
    else if isDig c then c :: protocCamelLoop true t
    else protocCamelLoop true t

/-- `UnderscoresToCamelCase(name, true)` (the names used through templates/cc/register.go:278-283). -/
def protocCamel (s : Ident) : Ident := protocCamelLoop true s

end PGV.Cpp
