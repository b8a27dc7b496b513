import Verif.Spec.Emit
import Verif.Go.Static

/-!
Rules for which the generated Go code compiles, said without the templates.
-/

namespace PGV.Spec
open PGV

/-- Neither an infinity nor NaN: not all bits of the exponent are set. -/
def FiniteNum : Num → Prop
  | .int _ => True
  | .f32 b => b.toNat / 2 ^ 23 % 2 ^ 8 ≠ 2 ^ 8 - 1
  | .f64 b => b.toNat / 2 ^ 52 % 2 ^ 11 ≠ 2 ^ 11 - 1

/-- The number is written in the rules. -/
def NumberIn (r : NumRules) (x : Num) : Prop :=
  r.const = some x ∨ r.lt = some x ∨ r.lte = some x ∨ r.gt = some x ∨ r.gte = some x ∨ x ∈ r.ins ∨ x ∈ r.notIns

/-- No two members of the list are the same. -/
def NoRepeats {α : Type} (Same : α → α → Prop) (l : List α) : Prop := l.Pairwise fun a b => ¬ Same a b

/-- A limit on a length fits Go's `int`. -/
def IntLimit (n : Option Nat) : Prop := ∀ k, n = some k → k < 2 ^ 63

/-- The duration is written as a bound. -/
def DurBound (r : DurationRules) (x : PDur) : Prop :=
  r.const = some x ∨ r.lt = some x ∨ r.lte = some x ∨ r.gt = some x ∨ r.gte = some x

/-- The length of a duration as Go's 64-bit nanoseconds hold it: the nearest one they can hold. -/
def heldLength (x : PDur) : Int := max (-9223372036854775808) (min 9223372036854775807 (length x))

/-- The constants in the rules can be written in Go at type `t`: numbers are finite, lists have no repeated
member, lengths fit an `int`, durations used as bounds fit 64 bits of nanoseconds, lists of bytes are on bytes fields
(not on `BytesValue`) and have no bytes below 16. For bytes, `len` hides `min_len` and `max_len`. That numbers are in
the range of their kind is protobuf's doing. -/
def GoConstants (t : FieldT) : TypeRules → Prop
  | .unset => True
  | .num k r => (∀ x, NumberIn r x → k.inRange x = true ∧ FiniteNum x) ∧ NoRepeats SameNum r.ins ∧
    NoRepeats SameNum r.notIns
  | .bool _ => True
  | .string r => IntLimit r.len ∧ IntLimit r.minLen ∧ IntLimit r.maxLen ∧ IntLimit r.lenBytes ∧
    IntLimit r.minBytes ∧ IntLimit r.maxBytes ∧ r.ins.Nodup ∧ r.notIns.Nodup
  | .bytes r => IntLimit r.len ∧ (r.len = none → IntLimit r.minLen ∧ IntLimit r.maxLen) ∧ r.ins.Nodup ∧
    r.notIns.Nodup ∧ (r.ins ≠ [] ∨ r.notIns ≠ [] → t = .one .bytes) ∧
    ∀ b, b ∈ r.ins ∨ b ∈ r.notIns → ∀ x ∈ b, 16 ≤ x
  | .enum r => (∀ i, r.const = some i ∨ i ∈ r.ins ∨ i ∈ r.notIns → -2 ^ 31 ≤ i ∧ i < 2 ^ 31) ∧ r.ins.Nodup ∧
    r.notIns.Nodup
  | .repeated r _ => IntLimit r.minItems ∧ IntLimit r.maxItems
  | .map r _ _ => IntLimit r.minPairs ∧ IntLimit r.maxPairs
  | .any r => r.ins.Nodup ∧ r.notIns.Nodup
  | .duration r => (∀ x, DurBound r x → InInt64 (length x)) ∧
    (∀ x, x ∈ r.ins ∨ x ∈ r.notIns → ValidDuration x) ∧
    NoRepeats (fun a b => heldLength a = heldLength b) r.ins ∧
    NoRepeats (fun a b => heldLength a = heldLength b) r.notIns
  | .timestamp r => ∀ x, r.within = some x → InInt64 (length x)

/-- Some value is refused with an error by rules of this kind (not looking at whether the bounds leave
anything out). Empty bytes do not count, nor does a well-known format set to false. -/
def Restricts : TypeRules → Prop
  | .unset => False
  | .num _ r => r.const ≠ none ∨ r.lt ≠ none ∨ r.lte ≠ none ∨ r.gt ≠ none ∨ r.gte ≠ none ∨ r.ins ≠ [] ∨
    r.notIns ≠ []
  | .bool r => r.const ≠ none
  | .string r => r.const ≠ none ∨ r.len ≠ none ∨ r.minLen ≠ none ∨ r.maxLen ≠ none ∨ r.lenBytes ≠ none ∨
    r.minBytes ≠ none ∨ r.maxBytes ≠ none ∨ r.pattern ≠ none ∨ r.pfx ≠ none ∨ r.sfx ≠ none ∨ r.contains ≠ none ∨
    r.notContains ≠ none ∨ r.ins ≠ [] ∨ r.notIns ≠ [] ∨
    r.wellKnown ∈ [some (.email true), some (.hostname true), some (.ip true), some (.ipv4 true),
      some (.ipv6 true), some (.uri true), some (.uriRef true), some (.address true), some (.uuid true)]
  | .bytes r => (∃ b, b ≠ [] ∧ (r.const = some b ∨ r.pfx = some b ∨ r.sfx = some b ∨ r.contains = some b)) ∨
    r.len ≠ none ∨ r.minLen ≠ none ∨ r.maxLen ≠ none ∨ r.pattern ≠ none ∨ r.ins ≠ [] ∨ r.notIns ≠ [] ∨
    r.wellKnown ∈ [some (.ip true), some (.ipv4 true), some (.ipv6 true)]
  | .enum r => r.const ≠ none ∨ r.ins ≠ [] ∨ r.notIns ≠ [] ∨ r.definedOnly = some true
  | .any r => r.required = some true ∨ r.ins ≠ [] ∨ r.notIns ≠ []
  | .duration r => r.required = some true ∨ r.const ≠ none ∨ r.lt ≠ none ∨ r.lte ≠ none ∨ r.gt ≠ none ∨
    r.gte ≠ none ∨ r.ins ≠ [] ∨ r.notIns ≠ []
  | .timestamp r => r.required = some true ∨ r.const ≠ none ∨ r.lt ≠ none ∨ r.lte ≠ none ∨ r.gt ≠ none ∨
    r.gte ≠ none ∨ r.ltNow ≠ none ∨ r.gtNow ≠ none ∨ r.within ≠ none
  | .repeated _ _ => False
  | .map _ _ _ => False

/-- `ignore_empty` is set. -/
def IgnoresEmpty : TypeRules → Prop
  | .num _ r => r.ignoreEmpty = some true
  | .string r => r.ignoreEmpty = some true
  | .bytes r => r.ignoreEmpty = some true
  | _ => False

/-- When entries of the map are looked at, something is said about the keys or an entry can be refused:
`no_sparse` is set, the key rules restrict or ignore something, the value rules restrict something, or the
values are messages that are validated or required. -/
def MapKeyMatters (f : FieldDesc) : Prop :=
  ∀ k v m r keys values, f.typ = .map k v → f.rules = .mk m (.map r keys values) →
    r.noSparse = some true ∨ Restricts keys.type ∨ IgnoresEmpty keys.type ∨ Restricts values.type ∨
    (values.type = .unset ∧ v.isEmbed = true ∧ (msgSkip values.message = false ∨ msgRequired values.message = true)) ∨
    (keys.type = .unset ∧ values.type = .unset ∧ v.isEmbed = false)

/-- The tables and patterns the code looks up are declared: inside lists only those of string and enum rules are;
inside maps no lists are, and the patterns of string rules are, under one name for keys and values. -/
def TablesDeclared (f : FieldDesc) : Prop :=
  match f.rules.type with
  | .repeated _ items => HasList items.type ∨ HasPattern items.type → IsString items.type ∨ IsEnum items.type
  | .map _ keys values =>
    ¬ HasList keys.type ∧ ¬ HasList values.type ∧
    (HasPattern keys.type ∨ HasPattern values.type →
      (IsString keys.type ∧ HasPattern keys.type) ∨ (IsString values.type ∧ HasPattern values.type))
  | _ => True

/-- Numbers in rules are in the ranges of their types; that is protobuf's doing. -/
def NumberRanges : TypeRules → Prop
  | .num k r => ∀ x, NumberIn r x → k.inRange x = true
  | .enum r => ∀ i, r.const = some i ∨ i ∈ r.ins ∨ i ∈ r.notIns → -2 ^ 31 ≤ i ∧ i < 2 ^ 31
  | _ => True

/-- The rules fit the field: each is on a type it is for, with values in the ranges of their types, and elements of
lists and maps are no wrappers with rules (generation fails for those). Map keys are never messages: that is
protobuf's doing. -/
structure GoTyped (f : FieldDesc) : Prop where
  suits : ∀ t r, RuleAt f t r → Suits t r.type
  ranges : ∀ t r, RuleAt f t r → NumberRanges r.type
  elems : ¬ WrappedElems f
  scalarKeys : ∀ k v, f.typ = .map k v → k.isEmbed = false

/-- Go has a way to write each constant, each table and each loop of the field's rules. -/
structure GoExpressible (f : FieldDesc) : Prop where
  rules : ∀ t r, RuleAt f t r → GoConstants t r.type
  tables : TablesDeclared f
  keys : MapKeyMatters f

/-- The rules of the field can be written in Go. Map keys are never messages: that is protobuf's doing. -/
structure GoWritable (f : FieldDesc) : Prop where
  /-- Each rule is on a type it is for, with constants Go can express. -/
  rules : ∀ t r, RuleAt f t r → Suits t r.type ∧ GoConstants t r.type
  tables : TablesSupported f
  elems : ¬ WrappedElems f
  keys : MapKeyMatters f
  scalarKeys : ∀ k v, f.typ = .map k v → k.isEmbed = false

/-- Some rule of the message asks for a uuid. -/
def AsksUuid (d : MsgDesc) : Prop :=
  ∃ f t m r, FieldOf d f ∧ RuleAt f t (.mk m (.string r)) ∧ r.wellKnown = some (.uuid true)

/-- The names in the file do not collide with the names the generator makes: field names have no underscore, no
message is called like the error type of another one, no field or oneof is called like a generated method; and
uuids are not asked for in nested messages only. -/
structure GoNames (F : Go.FileDesc) : Prop where
  well : WellNamed F
  noUnderscore : ∀ d ∈ F.all, ∀ f, FieldOf d f → '_' ∉ f.name.toList
  errors : ∀ d ∈ F.all, ∀ e ∈ F.all, e.name ≠ d.name ++ "MultiError" ∧ e.name ≠ d.name ++ "ValidationError"
  methods : ∀ d ∈ F.all, ∀ n, n ∈ d.fields.map (·.name) ∨ n ∈ d.oneofs.map (·.name) →
    n ≠ "Validate" ∧ n ≠ "ValidateAll"
  uuid : (∃ d ∈ F.nested, AsksUuid d) → ∃ d ∈ F.top, AsksUuid d

end PGV.Spec
