import Verif.Spec.CppEmit
import Verif.Spec.CppPortable
import Verif.Spec.JavaCompile
import Verif.Spec.Literal
import Verif.Cpp.Static

/-!
Rules for which the generated C++ code compiles, said without the templates.
-/

namespace PGV.Spec.Cpp
open PGV PGV.Spec PGV.Cpp

/-! ### Names -/

/-- An identifier of a .proto file: ASCII letters, digits and underscores, not starting with a digit. -/
def ProtoIdent (s : Ident) : Prop :=
  (∀ c ∈ s, isLow c = true ∨ isUp c = true ∨ isDig c = true ∨ c = '_') ∧ ∀ c t, s = c :: t → isDig c = false

/-- Each underscore comes before a lower-case letter. -/
def UnderscoresFollowed (s : Ident) : Prop := ∀ a b, s = a ++ '_' :: b → ∃ c t, b = c :: t ∧ isLow c = true

/-- No upper-case letters, and no word C++ reserves other than `const` and `inline`. -/
def PlainFieldName (keyword : Ident → Bool) (s : Ident) : Prop :=
  s.map lowerOf = s ∧ (keyword s = true → s = "const".toList ∨ s = "inline".toList)

/-- The package has one namespace for each part of its name. -/
def PlainPackage (p : Package) : Prop := p.split = p.parts

/-- The names in a message are of the usual kind. -/
structure PlainNames (N : Names) (d : MsgDesc) : Prop where
  /-- That `const` and `inline` are reserved is C++'s doing. -/
  reserved : N.keyword "const".toList = true ∧ N.keyword "inline".toList = true
  fields : ∀ f, FieldOf d f → ProtoIdent (N.field f) ∧ PlainFieldName N.keyword (N.field f)
  members : ∀ o ∈ d.oneofs, ∀ f ∈ o.fields, ∀ t, N.field f ≠ '_' :: t
  oneofs : ∀ o ∈ d.oneofs, ProtoIdent (N.oneof o) ∧ (∀ t, N.oneof o ≠ '_' :: t) ∧ UnderscoresFollowed (N.oneof o)
  packages : ∀ n, PlainPackage (N.package n)
  enumPackages : ∀ f, FieldOf d f → PlainPackage (N.enum f).package

/-- An enum of the file's package, or one around it, in whose name Go changes nothing. -/
def PlainEnum (e : EnumType) : Prop := e.visible = true ∧ ∀ p ∈ e.path, upperCamel p = p

/-! ### Constants -/

/-- An integer that C++ has a decimal literal for. -/
def CppInt (i : Int) : Prop := -2 ^ 63 < i ∧ i < 2 ^ 63

/-- A number that C++ has a literal for. -/
def CppNumber : Num → Prop
  | .int i => CppInt i
  | x => FiniteNum x

/-- The number that a run of hexadecimal digits after `n` makes. -/
def hexNumber (n : Nat) (ds : Bytes) : Nat := ds.foldl (fun n d => n * 16 + (hexVal d).getD 0) n

/-- Text for which Go's quotes make a C++ literal: where a control character that Go writes as `\xhh` comes before
hexadecimal digits, C++ reads all of them as one number, which must be below 256. -/
def CLiteral (s : Bytes) : Prop :=
  ∀ a c t, s = a ++ c :: t → HexEscaped c → hexNumber c.toNat (t.takeWhile fun d => (hexVal d).isSome) < 256

/-- What Go's `strconv.IsPrint` says of ASCII. -/
def PrintsAscii (isPrint : Nat → Bool) : Prop := ∀ c, c < 0x80 → (isPrint c = true ↔ 0x20 ≤ c ∧ c < 0x7F)

/-- The number is written in the code: only one upper and one lower limit are. -/
def NumberWritten (r : NumRules) (x : Num) : Prop :=
  r.const = some x ∨ r.lt = some x ∨ (r.lt = none ∧ r.lte = some x) ∨ r.gt = some x ∨ (r.gt = none ∧ r.gte = some x) ∨
  x ∈ r.ins ∨ x ∈ r.notIns

/-- The limits on a length: an exact one makes the others go. -/
def LengthLimits (len min max : Option Nat) : Prop :=
  IntLimit len ∧ (len = none → IntLimit min ∧ IntLimit max)

/-- The constants in the rules can be written in C++. -/
def CppConstants : TypeRules → Prop
  | .num _ r => ∀ x, NumberWritten r x → CppNumber x
  | .string r => LengthLimits r.len r.minLen r.maxLen ∧ LengthLimits r.lenBytes r.minBytes r.maxBytes ∧
    (∀ s, StringIn r s → CLiteral s) ∧ ∀ p, r.pattern = some p → CLiteral p
  | .bytes r => LengthLimits r.len r.minLen r.maxLen ∧ ∀ p, r.pattern = some p → CLiteral p
  | .repeated r _ => IntLimit r.minItems ∧ IntLimit r.maxItems
  | .map r _ _ => IntLimit r.minPairs ∧ IntLimit r.maxPairs
  | .any r => ∀ s, s ∈ r.ins ∨ s ∈ r.notIns → CLiteral s
  | .duration r => ∀ x, DurationIn r x → CppInt x.seconds
  | _ => True

/-- The rules of the field can be written in C++. -/
structure CppWritable (N : Names) (f : FieldDesc) : Prop where
  constants : ∀ t r, RuleAt f t r → CppConstants r.type
  tables : TablesSupported f
  /-- The name of an enum with a list is the same in Go and C++. -/
  enums : ∀ vs, f.typ = .one (.enum vs) → HasList f.rules.type → PlainEnum (N.enum f)
  /-- So is the one of an enum in a list, which must also be in the same Go package. -/
  itemEnums : ∀ vs r items, f.typ = .rep (.enum vs) → f.rules.type = .repeated r items → HasList items.type →
    PlainEnum (N.enum f) ∧ (N.enum f).sameGo = true
  /-- Lists without duplicates are not of enums. -/
  unique : ∀ e r items, f.typ = .rep e → f.rules.type = .repeated r items → r.unique = some true →
    e.isEmbed = false ∧ ∀ vs, e ≠ .enum vs

/-- Strings in rules are UTF-8. -/
def TextRules : TypeRules → Prop
  | .string r => ∀ s, StringIn r s → Utf8 s
  | .any r => ∀ s, s ∈ r.ins ∨ s ∈ r.notIns → Utf8 s
  | _ => True

/-- The rules fit their fields: each is on a type it is for, with values in the ranges of their types. Patterns on the
keys of a map and on values that are bytes are left out: their code compiles, but uses the pattern of the keys for
both. -/
structure CppTyped (d : MsgDesc) : Prop where
  suits : ∀ f, FieldOf d f → ∀ t r, RuleAt f t r → Suits t r.type
  ranges : ∀ f, FieldOf d f → ∀ t r, RuleAt f t r → ProtoRanges r.type ∧ TextRules r.type
  patterns : ∀ f, FieldOf d f → ∀ r keys values, f.rules.type = .map r keys values →
    HasPattern keys.type → HasPattern values.type → IsString keys.type ∧ IsString values.type

end PGV.Spec.Cpp
