import Verif.Spec.Rules
import Verif.Spec.Text
import Verif.Spec.Range

/-!
What the generator is supposed to let through (validate/validate.proto and the README), stated on
rules and declared types only.
-/

namespace PGV.Spec
open PGV

/-- `f` is one of the fields of the message, in a oneof or not. -/
def FieldOf (d : MsgDesc) (f : FieldDesc) : Prop := f ∈ d.fields ∨ ∃ o ∈ d.oneofs, f ∈ o.fields

/-- The rules `r` apply to values of type `t`, at the top of the rules of field `f` or inside
`repeated.items`, `map.keys` or `map.values`. -/
inductive RuleAt (f : FieldDesc) : FieldT → FieldRules → Prop
  | top : RuleAt f f.typ f.rules
  | item {e : ElemT} {m : Option MessageRules} {r : RepeatedRules} {items : FieldRules} :
      RuleAt f (.rep e) (.mk m (.repeated r items)) → RuleAt f (.one e) items
  | key {k v : ElemT} {m : Option MessageRules} {r : MapRules} {keys values : FieldRules} :
      RuleAt f (.map k v) (.mk m (.map r keys values)) → RuleAt f (.one k) keys
  | value {k v : ElemT} {m : Option MessageRules} {r : MapRules} {keys values : FieldRules} :
      RuleAt f (.map k v) (.mk m (.map r keys values)) → RuleAt f (.one v) values

/-- Rules on a constant, ranges and lists that do not contradict each other. -/
structure Consistent {α : Type} (Same : α → α → Prop) (ins notIns : List α)
    (const lt lte gt gte : Option α) : Prop where
  lists : ins = [] ∨ notIns = []
  constAlone : const ≠ none →
    ins = [] ∧ notIns = [] ∧ lt = none ∧ lte = none ∧ gt = none ∧ gte = none
  inAlone : ins ≠ [] → lt = none ∧ lte = none ∧ gt = none ∧ gte = none
  oneUpper : lt = none ∨ lte = none
  oneLower : gt = none ∨ gte = none
  apart : ∀ u l, (lt = some u ∨ lte = some u) → (gt = some l ∨ gte = some l) → ¬ Same u l

/-- Equal as numbers: never NaN; the two zeros are equal. -/
def SameNum (a b : Num) : Prop := ∃ x, a.key = some x ∧ b.key = some x

/-- Numeric rules that do not contradict each other. -/
def NumConsistent (r : NumRules) : Prop :=
  Consistent SameNum r.ins r.notIns r.const r.lt r.lte r.gt r.gte

/-- The type a rule kind is for: a scalar, enum or wrapper with a value of that kind, Any, Duration,
Timestamp, lists and maps. -/
def Suits (t : FieldT) (r : TypeRules) : Prop :=
  match r with
  | .unset => True
  | .num k _ => t = .one (.scalar k) ∨ ∃ n w, t = .one (.embed n (some w)) ∧ w.wrapped = some (.num k)
  | .bool _ => t = .one .bool ∨ ∃ n, t = .one (.embed n (some .boolValue))
  | .string _ => t = .one .string ∨ ∃ n, t = .one (.embed n (some .stringValue))
  | .bytes _ => t = .one .bytes ∨ ∃ n, t = .one (.embed n (some .bytesValue))
  | .enum _ => ∃ vs, t = .one (.enum vs)
  | .repeated _ _ => ∃ e, t = .rep e
  | .map _ _ _ => ∃ k v, t = .map k v
  | .any _ => ∃ n, t = .one (.embed n (some .any))
  | .duration _ => ∃ n, t = .one (.embed n (some .duration))
  | .timestamp _ => ∃ n, t = .one (.embed n (some .timestamp))

/-- A minimum does not exceed a maximum. -/
def Ordered (min max : Option Nat) : Prop := ∀ a b, min = some a → max = some b → a ≤ b

/-- An exact length is not combined with limits. -/
def Exclusive (len min max : Option Nat) : Prop := len ≠ none → min = none ∧ max = none

/-- The number of characters of `p`: its code points if it is UTF-8 (as proto strings are). -/
def CharsAtMost (p : Bytes) (n : Nat) : Prop :=
  ∀ cs : List Nat, (∀ c ∈ cs, CodePoint c) → p = utf8 cs → cs.length ≤ n

/-- Timestamp rules that do not contradict each other; `Same` says when two timestamps are equal. -/
structure TsConsistent (Same : PTime → PTime → Prop) (r : TimestampRules) : Prop where
  valid : ∀ t, r.const = some t ∨ r.lt = some t ∨ r.lte = some t ∨ r.gt = some t ∨ r.gte = some t →
    ValidTimestamp t
  bounds : Consistent Same [] [] r.const r.lt r.lte r.gt r.gte
  nowAlone : r.ltNow ≠ none ∨ r.gtNow ≠ none → r.lt = none ∧ r.lte = none ∧ r.gt = none ∧ r.gte = none
  withinAlone : r.within ≠ none → r.lt = none ∧ r.lte = none ∧ r.gt = none ∧ r.gte = none
  oneNow : r.ltNow = none ∨ r.gtNow = none
  withinPos : ∀ d, r.within = some d → ValidDuration d ∧ 0 < length d

/-- Inside what an int64 can hold in nanoseconds (years 1678 to 2262). -/
def InInt64 (x : Int) : Prop := -9223372036854775808 ≤ x ∧ x ≤ 9223372036854775807

/-- The smallest and largest value of an integer kind. -/
def kindRange : NumKind → Int × Int
  | .int32 | .sint32 | .sfixed32 => (-2147483648, 2147483647)
  | .int64 | .sint64 | .sfixed64 => (-9223372036854775808, 9223372036854775807)
  | .uint32 | .fixed32 => (0, 4294967295)
  | .uint64 | .fixed64 => (0, 18446744073709551615)
  | .float | .double => (0, 0)

/-- The characters of an RFC 7230 token: letters, digits and ``!#$%&'*+-.^_`|~``. -/
def TokenByte (b : UInt8) : Prop :=
  (0x61 ≤ b ∧ b ≤ 0x7A) ∨ (0x41 ≤ b ∧ b ≤ 0x5A) ∨ (0x30 ≤ b ∧ b ≤ 0x39) ∨
  b ∈ [0x21, 0x23, 0x24, 0x25, 0x26, 0x27, 0x2A, 0x2B, 0x2D, 0x2E, 0x5E, 0x5F, 0x60, 0x7C, 0x7E]

/-- A header name: a token, or a colon and a token. -/
def HeaderName (s : Bytes) : Prop :=
  ∃ tok : Bytes, tok ≠ [] ∧ (∀ b ∈ tok, TokenByte b) ∧ (s = tok ∨ s = 0x3A :: tok)

/-- The text of a header value: no control characters other than tab. -/
def HeaderValue (s : Bytes) : Prop := ∀ b ∈ s, (0x20 ≤ b ∧ b ≠ 0x7F) ∨ b = 0x09

/-- Text without NUL, CR and LF. -/
def HeaderString (s : Bytes) : Prop := ∀ b ∈ s, b ≠ 0x00 ∧ b ≠ 0x0D ∧ b ≠ 0x0A

end PGV.Spec
