import Verif.Spec.GoCompile
import Verif.Spec.JavaLiteral
import Verif.Spec.Portable

/-!
Rules for which the generated Java code compiles, said without the templates.
-/

namespace PGV.Spec
open PGV

/-- A Java `int`. -/
def JavaInt (i : Int) : Prop := -2 ^ 31 ≤ i ∧ i < 2 ^ 31

/-- A Java `long`. -/
def JavaLong (i : Int) : Prop := -2 ^ 63 ≤ i ∧ i < 2 ^ 63

/-- Kinds whose Java type is `int` (the other integer kinds are `long`). -/
def NumKind32 (k : NumKind) : Prop :=
  k = .int32 ∨ k = .uint32 ∨ k = .sint32 ∨ k = .fixed32 ∨ k = .sfixed32

/-- The number can be written as a Java literal of the field's type: unsigned ones must be in the range of the signed
type, floats must be finite. -/
def JavaNumber (k : NumKind) : Num → Prop
  | .int i => (NumKind32 k → JavaInt i) ∧ (¬ NumKind32 k → JavaLong i)
  | x => FiniteNum x

/-- A limit on a length or count fits a Java `int`. -/
def JavaCount (n : Option Nat) : Prop := ∀ k, n = some k → k < 2 ^ 31

/-- Put between quotes, the text is one Java string literal. -/
def JavaText (s : Bytes) : Prop := javaString (0x22 :: s ++ [0x22]) ≠ none

/-- The string is written in the rules. -/
def StringIn (r : StringRules) (s : Bytes) : Prop :=
  r.const = some s ∨ r.pfx = some s ∨ r.sfx = some s ∨ r.contains = some s ∨ r.notContains = some s ∨ s ∈ r.ins ∨
  s ∈ r.notIns

/-- The duration is written in the rules. -/
def DurationIn (r : DurationRules) (x : PDur) : Prop := DurBound r x ∨ x ∈ r.ins ∨ x ∈ r.notIns

/-- The timestamp is written in the rules. -/
def TimestampIn (r : TimestampRules) (x : PTime) : Prop :=
  r.const = some x ∨ r.lt = some x ∨ r.lte = some x ∨ r.gt = some x ∨ r.gte = some x

/-- Patterns whose literal Java reads (C74). -/
def ReadablePattern (isPrint : Nat → Bool) (p : Bytes) : Prop :=
  ∃ cs : List Nat, (∀ c ∈ cs, ScalarValue c) ∧ p = cs.flatMap encodeRune ∧ JavaPattern isPrint cs

/-- The values in rules are in the ranges of their types; that is protobuf's doing. -/
def ProtoRanges : TypeRules → Prop
  | .string r => ∀ p, r.pattern = some p → Utf8 p
  | .bytes r => ∀ p, r.pattern = some p → Utf8 p
  | .num k r => ∀ x, NumberIn r x → k.inRange x = true
  | .enum r => ∀ i, r.const = some i ∨ i ∈ r.ins ∨ i ∈ r.notIns → JavaInt i
  | .duration r => ∀ x, DurationIn r x → JavaInt x.nanos
  | .timestamp r => (∀ x, TimestampIn r x → JavaInt x.nanos) ∧ ∀ x, r.within = some x → JavaInt x.nanos
  | _ => True

/-- The constants in the rules can be written in Java: numbers fit the signed type and are finite, lengths and counts
fit an `int`, strings are literals as they stand, patterns are those Java reads, seconds of times fit an `int`. -/
def JavaConstants (Pattern : Bytes → Prop) : TypeRules → Prop
  | .unset => True
  | .num k r => ∀ x, NumberIn r x → JavaNumber k x
  | .bool _ => True
  | .string r => JavaCount r.len ∧ JavaCount r.minLen ∧ JavaCount r.maxLen ∧ JavaCount r.lenBytes ∧
    JavaCount r.minBytes ∧ JavaCount r.maxBytes ∧ (∀ s, StringIn r s → JavaText s) ∧ ∀ p, r.pattern = some p → Pattern p
  | .bytes r => JavaCount r.len ∧ JavaCount r.minLen ∧ JavaCount r.maxLen ∧ ∀ p, r.pattern = some p → Pattern p
  | .enum _ => True
  | .repeated r _ => JavaCount r.minItems ∧ JavaCount r.maxItems
  | .map r _ _ => JavaCount r.minPairs ∧ JavaCount r.maxPairs
  | .any r => ∀ s, s ∈ r.ins ∨ s ∈ r.notIns → JavaText s
  | .duration r => ∀ x, DurationIn r x → JavaInt x.seconds
  | .timestamp r => (∀ x, TimestampIn r x → JavaInt x.seconds) ∧ ∀ x, r.within = some x → JavaInt x.seconds

/-- The rules of the field can be written in Java. -/
structure JavaWritable (Pattern : Bytes → Prop) (f : FieldDesc) : Prop where
  constants : ∀ t r, RuleAt f t r → JavaConstants Pattern r.type
  /-- Enum values of maps are not compared with constants. -/
  mapEnums : ∀ k v m r keys values e, f.typ = .map k v → f.rules = .mk m (.map r keys values) →
    values.type = .enum e → e.const = none ∧ e.ins = [] ∧ e.notIns = []

/-- The rules fit their fields: each is on a type it is for, with values in the ranges of their types, and elements of
lists and maps are no wrappers with rules (generation fails for those). Map keys are never messages or enums, and
field names are distinct: that is protobuf's doing. -/
structure JavaTyped (d : MsgDesc) : Prop where
  suits : ∀ f, FieldOf d f → ∀ t r, RuleAt f t r → Suits t r.type
  ranges : ∀ f, FieldOf d f → ∀ t r, RuleAt f t r → ProtoRanges r.type
  elems : ∀ f, FieldOf d f → ¬ WrappedElems f
  scalarKeys : ∀ f, FieldOf d f → ∀ k v, f.typ = .map k v → k.isEmbed = false ∧ ∀ vs, k ≠ .enum vs
  names : (d.fields.map (·.name) ++ d.oneofs.flatMap fun o => o.fields.map (·.name)).Nodup

end PGV.Spec
