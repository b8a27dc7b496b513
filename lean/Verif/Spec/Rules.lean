import Verif.Go.Err

/-!
Declarative meaning of validation rules, written from validate/validate.proto's documentation and
independently of the templates. Everything here is a proposition about values. Library behaviour
(regular expressions, address parsing, lower-casing, the clock) comes from the environment `E`.
-/

namespace PGV.Spec
open PGV PGV.Go

/-! ### Numbers -/

/-- Exact value of a float32, scaled by 2^149; infinities take the value the next exponent would
have, which is above all finite values; `none` for NaN. -/
def f32Val (b : BitVec 32) : Option Int :=
  let e := b.toNat / 8388608 % 256
  let m := b.toNat % 8388608
  if e = 255 ∧ m ≠ 0 then none
  else
    let mag : Nat := if e = 0 then m else (8388608 + m) * 2 ^ (e - 1)
    some (if b.toNat / 2147483648 = 1 then -(mag : Int) else mag)

/-- Exact value of a float64, scaled by 2^1074. -/
def f64Val (b : BitVec 64) : Option Int :=
  let e := b.toNat / 4503599627370496 % 2048
  let m := b.toNat % 4503599627370496
  if e = 2047 ∧ m ≠ 0 then none
  else
    let mag : Nat := if e = 0 then m else (4503599627370496 + m) * 2 ^ (e - 1)
    some (if b.toNat / 9223372036854775808 = 1 then -(mag : Int) else mag)

/-- The value of a number; `none` for NaN. Values of different kinds are never compared. -/
def numVal : Num → Option Int
  | .int i => some i
  | .f32 b => f32Val b
  | .f64 b => f64Val b

/-- Numeric equality; NaN equals nothing. -/
def numSame (a b : Num) : Prop := ∃ x, numVal a = some x ∧ numVal b = some x

/-- One side of a range: strict (`lt`, `gt`) or not (`lte`, `gte`). -/
structure Bound where
  strict : Bool
  value : Int

/-- `x` respects the upper bound. -/
def Bound.AsUpper (b : Bound) (x : Int) : Prop := if b.strict then x < b.value else x ≤ b.value
/-- `x` respects the lower bound. -/
def Bound.AsLower (b : Bound) (x : Int) : Prop := if b.strict then b.value < x else b.value ≤ x

/-- Meaning of a pair of bounds: one bound is that bound; an upper bound above the lower bound is
an interval; otherwise the range is inverted and means the complement, i.e. respecting one of the
two bounds. -/
def RangeOk (upper lower : Option Bound) (x : Int) : Prop :=
  match upper, lower with
  | none, none => True
  | some u, none => u.AsUpper x
  | none, some l => l.AsLower x
  | some u, some l =>
    if l.value < u.value then u.AsUpper x ∧ l.AsLower x else u.AsUpper x ∨ l.AsLower x

/-- The upper bound of numeric rules. The checker never lets both `lt` and `lte` through; were both
given, `lt` would win. -/
def numUpper (r : NumRules) : Option Bound :=
  match r.lt with
  | some b => (numVal b).map (Bound.mk true)
  | none => r.lte.bind fun b => (numVal b).map (Bound.mk false)

/-- The lower bound of numeric rules. -/
def numLower (r : NumRules) : Option Bound :=
  match r.gt with
  | some b => (numVal b).map (Bound.mk true)
  | none => r.gte.bind fun b => (numVal b).map (Bound.mk false)

/-- `in` and `not_in` for an equality `same`. (`not_in` is only consulted when there is no `in`;
the checker lets at most one through.) -/
def ListOk {α : Type} (same : α → α → Prop) (ins notIns : List α) (v : α) : Prop :=
  (ins ≠ [] → ∃ k ∈ ins, same v k) ∧ (ins = [] → ∀ k ∈ notIns, ¬ same v k)

/-- Numeric rules. A NaN escapes the range rules (see C11). -/
def NumOk (r : NumRules) (v : Num) : Prop :=
  (r.ignoreEmpty = some true ∧ numVal v = some 0) ∨
  ((∀ k, r.const = some k → numSame v k) ∧
   (∀ x, numVal v = some x → RangeOk (numUpper r) (numLower r) x) ∧
   ListOk numSame r.ins r.notIns v)

/-! ### Strings and bytes -/

/-- Exact, minimal and maximal length. -/
def LenOk (len min max : Option Nat) (n : Nat) : Prop :=
  match len with
  | some k => n = k
  | none => (∀ k, min = some k → k ≤ n) ∧ (∀ k, max = some k → n ≤ k)

/-- A hostname label: 1 to 63 lower-case letters, digits and hyphens, with no hyphen at either
end. -/
def LabelOk (l : Bytes) : Prop :=
  1 ≤ l.length ∧ l.length ≤ 63 ∧
  (∀ b ∈ l, (0x61 ≤ b ∧ b ≤ 0x7A) ∨ (0x30 ≤ b ∧ b ≤ 0x39) ∨ b = 0x2D) ∧
  l.head? ≠ some 0x2D ∧ l.getLast? ≠ some 0x2D

/-- A hostname whose lower-casing is `lower`: at most 253 bytes, and, without one optional trailing
dot, dot-separated labels after lower-casing. -/
def HostnameOk (lower : Bytes → Bytes) (s : Bytes) : Prop :=
  s.length ≤ 253 ∧
  ∃ core : Bytes, (s = core ++ [0x2E] ∨ (s = core ∧ ¬ [0x2E] <:+ s)) ∧
  ∃ labels : List Bytes, labels ≠ [] ∧ lower core = List.intercalate [0x2E] labels ∧
    ∀ l ∈ labels, LabelOk l

/-- Go's `strings.ToLower` with the given per-rune function for non-ASCII runes. -/
def goLower (E : Env) (s : Bytes) : Bytes :=
  if (∀ b ∈ s, b < 0x80) then
    s.map fun b => if 0x41 ≤ b ∧ b ≤ 0x5A then b + 0x20 else b
  else (runes s).flatMap fun r =>
    encodeRune (if r < 0x80 then (if 0x41 ≤ r ∧ r ≤ 0x5A then r + 0x20 else r) else E.lowerRune r)

/-- An e-mail address. -/
def EmailOk (E : Env) (s : Bytes) : Prop :=
  ∃ a, E.parseMail s = .ok a ∧ a.length ≤ 254 ∧
  ∃ loc host : Bytes, a = loc ++ 0x40 :: host ∧ (0x40 : UInt8) ∉ loc ∧ loc.length ≤ 64 ∧
    HostnameOk (goLower E) host

/-- A hexadecimal digit. -/
def HexDigit (b : UInt8) : Prop :=
  (0x30 ≤ b ∧ b ≤ 0x39) ∨ (0x41 ≤ b ∧ b ≤ 0x46) ∨ (0x61 ≤ b ∧ b ≤ 0x66)

/-- `n` hexadecimal digits. -/
def HexRun (n : Nat) (g : Bytes) : Prop := g.length = n ∧ ∀ b ∈ g, HexDigit b

/-- A UUID in 8-4-4-4-12 form. -/
def UuidOk (s : Bytes) : Prop :=
  ∃ g1 g2 g3 g4 g5 : Bytes, s = g1 ++ 0x2D :: (g2 ++ 0x2D :: (g3 ++ 0x2D :: (g4 ++ 0x2D :: g5))) ∧
    HexRun 8 g1 ∧ HexRun 4 g2 ∧ HexRun 4 g3 ∧ HexRun 4 g4 ∧ HexRun 12 g5

/-- An IPv4 address as bytes: 4 bytes, or 16 bytes in IPv4-mapped form. -/
def IPv4Bytes (b : Bytes) : Prop :=
  b.length = 4 ∨ ∃ v4 : Bytes, v4.length = 4 ∧ b = List.replicate 10 0 ++ [0xFF, 0xFF] ++ v4

/-- An IP address as bytes. -/
def IPBytes (b : Bytes) : Prop := b.length = 4 ∨ b.length = 16

/-- The well-known string formats. `well_known_regex` acts through the pattern (C33). -/
def WellKnownOk (E : Env) (w : Option StrWellKnown) (s : Bytes) : Prop :=
  match w with
  | some (.ip true) => ∃ ip, E.parseIP s = some ip
  | some (.ipv4 true) => ∃ ip, E.parseIP s = some ip ∧ IPv4Bytes ip
  | some (.ipv6 true) => ∃ ip, E.parseIP s = some ip ∧ ¬ IPv4Bytes ip
  | some (.email true) => EmailOk E s
  | some (.hostname true) => HostnameOk (goLower E) s
  | some (.address true) => HostnameOk (goLower E) s ∨ ∃ ip, E.parseIP s = some ip
  | some (.uri true) => E.parseURL s = .ok true
  | some (.uriRef true) => ∃ a, E.parseURL s = .ok a
  | some (.uuid true) => UuidOk s
  | _ => True

/-- String rules. -/
def StringOk (E : Env) (r : StringRules) (s : Bytes) : Prop :=
  (r.ignoreEmpty = some true ∧ s = []) ∨
  ((∀ k, r.const = some k → s = k) ∧
   ListOk (· = ·) r.ins r.notIns s ∧
   LenOk r.len r.minLen r.maxLen (runeCount s) ∧
   LenOk r.lenBytes r.minBytes r.maxBytes s.length ∧
   (∀ p, r.pfx = some p → p <+: s) ∧
   (∀ p, r.sfx = some p → p <:+ s) ∧
   (∀ p, r.contains = some p → p <:+: s) ∧
   (∀ p, r.notContains = some p → ¬ p <:+: s) ∧
   WellKnownOk E r.wellKnown s ∧
   (∀ p, r.pattern = some p → E.matchRe p s = true))

/-- Bytes rules. An empty `const` is not enforced (see C19); an empty affix always holds. -/
def BytesOk (E : Env) (r : BytesRules) (s : Bytes) : Prop :=
  (r.ignoreEmpty = some true ∧ s = []) ∨
  (LenOk r.len r.minLen r.maxLen s.length ∧
   (∀ p, r.pfx = some p → p <+: s) ∧
   (∀ p, r.sfx = some p → p <:+ s) ∧
   (∀ p, r.contains = some p → p <:+: s) ∧
   ListOk (· = ·) r.ins r.notIns s ∧
   (∀ k, r.const = some k → k ≠ [] → s = k) ∧
   (match r.wellKnown with
    | some (.ip true) => IPBytes s
    | some (.ipv4 true) => IPv4Bytes s
    | some (.ipv6 true) => IPBytes s ∧ ¬ IPv4Bytes s
    | _ => True) ∧
   (∀ p, r.pattern = some p → E.matchRe p s = true))

/-! ### Enums, well-known messages -/

/-- Enum rules for an enum that declares the numbers `defined`. -/
def EnumOk (defined : List Int) (r : EnumRules) (v : Int) : Prop :=
  (∀ k, r.const = some k → v = k) ∧ ListOk (· = ·) r.ins r.notIns v ∧
  (r.definedOnly = some true → v ∈ defined)

/-- Any rules; `none` is an unset field. -/
def AnyOk (r : AnyRules) (url : Option Bytes) : Prop :=
  match url with
  | none => r.required ≠ some true
  | some u => ListOk (· = ·) r.ins r.notIns u

/-- Does the rule set constrain the duration itself? -/
def DurConstrained (r : DurationRules) : Prop :=
  r.ins ≠ [] ∨ r.notIns ≠ [] ∨ r.lt ≠ none ∨ r.lte ≠ none ∨ r.gt ≠ none ∨ r.gte ≠ none ∨
    r.const ≠ none

/-- The upper bound of duration rules, in nanoseconds as a Go constant. -/
def durUpper (r : DurationRules) : Option (Bool × PDur) :=
  match r.lt with
  | some b => some (true, b)
  | none => r.lte.map fun b => (false, b)

/-- The lower bound of duration rules. -/
def durLower (r : DurationRules) : Option (Bool × PDur) :=
  match r.gt with
  | some b => some (true, b)
  | none => r.gte.map fun b => (false, b)

/-- Range rules on durations, where the order of the two bounds is decided on Go durations
(`time.Duration`, saturating at the int64 limits) and the value compared with exact bounds. See C24
for the statement on exact lengths. -/
def DurRangeOk (upper lower : Option (Bool × PDur)) (x : Int) : Prop :=
  match upper, lower with
  | none, none => True
  | some u, none => (Bound.mk u.1 u.2.exact).AsUpper x
  | none, some l => (Bound.mk l.1 l.2.exact).AsLower x
  | some u, some l =>
    if l.2.asDuration < u.2.asDuration then
      (Bound.mk u.1 u.2.exact).AsUpper x ∧ (Bound.mk l.1 l.2.exact).AsLower x
    else (Bound.mk u.1 u.2.exact).AsUpper x ∨ (Bound.mk l.1 l.2.exact).AsLower x

/-- Duration rules; `none` is an unset field. -/
def DurationOk (r : DurationRules) (d : Option PDur) : Prop :=
  match d with
  | none => r.required ≠ some true
  | some d => DurConstrained r →
      d.valid = true ∧
      (∀ k, r.const = some k → d.asDuration = k.exact) ∧
      DurRangeOk (durUpper r) (durLower r) d.asDuration ∧
      ListOk (fun x k => x = k) (r.ins.map PDur.asDuration) (r.notIns.map PDur.asDuration)
        d.asDuration

/-- Does the rule set constrain the instant itself? -/
def TsConstrained (r : TimestampRules) : Prop :=
  r.lt ≠ none ∨ r.lte ≠ none ∨ r.gt ≠ none ∨ r.gte ≠ none ∨ r.ltNow ≠ none ∨ r.gtNow ≠ none ∨
    r.within ≠ none ∨ r.const ≠ none

/-- Exact nanoseconds since the epoch. -/
def instant (t : PTime) : Int := t.seconds * 1000000000 + t.nanos

/-- The upper bound of timestamp rules. -/
def tsUpper (r : TimestampRules) : Option Bound :=
  match r.lt with
  | some b => some ⟨true, instant b⟩
  | none => r.lte.map fun b => ⟨false, instant b⟩

/-- The lower bound of timestamp rules. -/
def tsLower (r : TimestampRules) : Option Bound :=
  match r.gt with
  | some b => some ⟨true, instant b⟩
  | none => r.gte.map fun b => ⟨false, instant b⟩

/-- Relative rules. Mere presence of `lt_now`/`gt_now` counts, even with the value false (C26). -/
def NowOk (now : Int) (r : TimestampRules) (x : Int) : Prop :=
  match r.ltNow, r.gtNow, r.within with
  | some _, _, none => x < now
  | some _, _, some w => x < now ∧ now - w.exact ≤ x
  | none, some _, none => now < x
  | none, some _, some w => now < x ∧ x ≤ now + w.exact
  | none, none, some w => now - w.exact < x ∧ x < now + w.exact
  | none, none, none => True

/-- Timestamp rules; `none` is an unset field. Relative rules are only consulted when there are no
absolute bounds; the checker rejects the combination. -/
def TimestampOk (now : Int) (r : TimestampRules) (t : Option PTime) : Prop :=
  match t with
  | none => r.required ≠ some true
  | some t => TsConstrained r →
      t.valid = true ∧
      (∀ k, r.const = some k → instant t = instant k) ∧
      RangeOk (tsUpper r) (tsLower r) (instant t) ∧
      (tsUpper r = none → tsLower r = none → NowOk now r (instant t))

/-! ### Elements, fields, messages -/

/-- Rules on a scalar value; combinations of another kind cannot occur (C31). -/
def ScalarOk (E : Env) (e : ElemT) (t : TypeRules) (v : Scalar) : Prop :=
  match t, v with
  | .num _ r, .num n => NumOk r n
  | .bool r, .bool b => ∀ k, r.const = some k → b = k
  | .string r, .str s => StringOk E r s
  | .bytes r, .bytes b => BytesOk E r b
  | .enum r, .enum i =>
    match e with
    | .enum defined => EnumOk defined r i
    | _ => True
  | _, _ => True

/-- An embedded message is acceptable: its type has no validation code, or its validation
succeeds (`ok`), or its older generated `Validate` succeeds. -/
def EmbeddedOk (E : Env) (S : Schema) (ok : Val → Prop) (v : Val) : Prop :=
  match v with
  | .msg typ _ _ =>
    match S typ with
    | .generated d => d.ignored = false → ok v
    | .legacy => E.legacy v = none
    | .foreign => True
  | _ => True

/-- Rule kinds that apply to a wrapper message's value. -/
def WrapperKind : TypeRules → Prop
  | .num k _ => k ∈ [NumKind.float, .double, .int32, .int64, .uint32, .uint64]
  | .bool _ | .string _ | .bytes _ => True
  | _ => False

/-- A non-repeated value (field, list item, map value) satisfies its rules. -/
def ValueOk (E : Env) (S : Schema) (ok : Val → Prop) (e : ElemT) (rules : FieldRules) (v : Val) :
    Prop :=
  match rules.type with
  | .unset =>
    e.isEmbed = true →
      (msgRequired rules.message = true → v ≠ .null) ∧
      (msgSkip rules.message = false → EmbeddedOk E S ok v)
  | .any r =>
    match v with
    | .any url _ => AnyOk r (some url)
    | .null => AnyOk r none
    | _ => True
  | .duration r =>
    match v with
    | .dur d => DurationOk r (some d)
    | .null => DurationOk r none
    | _ => True
  | .timestamp r =>
    match v with
    | .ts t => TimestampOk E.now r (some t)
    | .null => TimestampOk E.now r none
    | _ => True
  | t =>
    (e.isEmbed = true ∧ WrapperKind t →
      match v with
      | .wrapper s => ScalarOk E e t s
      | .null => msgRequired rules.message = false
      | _ => True) ∧
    (¬ (e.isEmbed = true ∧ WrapperKind t) →
      match v with
      | .sc s => ScalarOk E e t s
      | _ => True)

/-- Item or pair count. -/
def CountOk (min max : Option Nat) (n : Nat) : Prop :=
  (∀ k, min = some k → k ≤ n) ∧ (∀ k, max = some k → n ≤ k)

/-- Equality of list elements as `unique` means it. -/
def SameItem : Val → Val → Prop
  | .sc (.num a), .sc (.num b) => numSame a b
  | .sc (.bool a), .sc (.bool b) => a = b
  | .sc (.str a), .sc (.str b) => a = b
  | .sc (.bytes a), .sc (.bytes b) => a = b
  | .sc (.enum a), .sc (.enum b) => a = b
  | _, _ => False

/-- Repeated rules. -/
def RepeatedOk (E : Env) (S : Schema) (ok : Val → Prop) (e : ElemT) (r : RepeatedRules)
    (items : FieldRules) (vs : List Val) : Prop :=
  (r.ignoreEmpty = some true ∧ vs = []) ∨
  (CountOk r.minItems r.maxItems vs.length ∧
   (r.unique = some true → vs.Pairwise fun a b => ¬ SameItem a b) ∧
   ∀ v ∈ vs, ValueOk E S ok e items v)

/-- Map rules. -/
def MapOk (E : Env) (S : Schema) (ok : Val → Prop) (kt vt : ElemT) (r : MapRules)
    (keys values : FieldRules) (kvs : List (Scalar × Val)) : Prop :=
  (r.ignoreEmpty = some true ∧ kvs = []) ∨
  (CountOk r.minPairs r.maxPairs kvs.length ∧
   ∀ kv ∈ kvs, (r.noSparse = some true → kv.2 ≠ .null) ∧ ScalarOk E kt keys.type kv.1 ∧
     ValueOk E S ok vt values kv.2)

/-- A field satisfies its rules. Fields without rules impose nothing, except that embedded messages
(in lists and maps too) must be acceptable. -/
def FieldOk (E : Env) (S : Schema) (ok : Val → Prop) (f : FieldDesc) (v : Val) : Prop :=
  match f.typ, v with
  | .one e, v => ValueOk E S ok e f.rules v
  | .rep e, .list vs =>
    match f.rules.type with
    | .repeated r items => RepeatedOk E S ok e r items vs
    | .unset => ∀ v ∈ vs, e.isEmbed = true → EmbeddedOk E S ok v
    | _ => True
  | .map kt vt, .map kvs =>
    match f.rules.type with
    | .map r keys values => MapOk E S ok kt vt r keys values kvs
    | .unset => ∀ kv ∈ kvs, vt.isEmbed = true → EmbeddedOk E S ok kv.2
    | _ => True
  | _, _ => True

/-- A oneof with the given member set. -/
def OneofOk (E : Env) (S : Schema) (ok : Val → Prop) (o : OneofDesc)
    (set : Option (String × Val)) : Prop :=
  match set with
  | none => o.required = false
  | some (member, v) => ∀ f, o.fields.find? (fun f => f.name == member) = some f → FieldOk E S ok f v

/-- A message is valid, where `ok` tells which embedded messages are. -/
def MessageOk (E : Env) (S : Schema) (ok : Val → Prop) (v : Val) : Prop :=
  match v with
  | .msg typ fs os =>
    match S typ with
    | .generated d => d.disabled = false →
        (∀ f ∈ d.fields, FieldOk E S ok f (getField fs f)) ∧
        (∀ o ∈ d.oneofs, OneofOk E S ok o (os.lookup o.name))
    | _ => True
  | _ => True

end PGV.Spec
