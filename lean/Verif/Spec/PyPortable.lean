import Verif.Spec.Portable
import Verif.Py.Templates

/-!
The part of the rule language and of the value space on which Go and Python are claimed to agree.
Python has a narrower part than Java: see the conditions one by one. That each of them is needed is
shown next to the properties.
-/

namespace PGV.Spec.Python
open PGV PGV.Go PGV.Checker PGV.Spec
open PGV.Py (PEnv pstr)

/-! ### Texts and libraries -/

/-- Text that can stand between quotes in a program: no control characters, quotes, backslashes or
line separators. -/
def SafeText (s : Bytes) : Prop :=
  Utf8 s ∧ ∀ c ∈ runes s, 0x20 ≤ c ∧ c ∉ [0x22, 0x27, 0x5C, 0x85, 0x2028, 0x2029]

/-- A number other than NaN and the infinities. -/
def Finite : Num → Prop
  | .int _ => True
  | .f32 b => b.toNat / 8388608 % 256 ≠ 255
  | .f64 b => b.toNat / 4503599627370496 % 2048 ≠ 2047

/-- The patterns on which the regular expression libraries agree, for each format the strings on
which the checks agree, and two sorts of message types: those of the package `google.protobuf`, and
those whose fields are `key` and `value`, in this order. -/
structure Common where
  pattern : Bytes → Prop
  format : StrWellKnown → Bytes → Prop
  google : String → Prop
  pair : String → Prop

/-- The format checks of the two languages agree on a string. -/
def FormatAgrees (E : Env) (P : PEnv) (w : StrWellKnown) (s : Bytes) : Prop :=
  match w with
  | .email true => Py.validateEmail P (pstr s) = some true ↔ EmailOk E s
  | .hostname true => Py.validateHostName (pstr s) = true ↔ HostnameOk (goLower E) s
  | .ip true => P.ipAddress (pstr s) = true ↔ ∃ ip, E.parseIP s = some ip
  | .ipv4 true => P.ipv4Address (pstr s) = true ↔ ∃ ip, E.parseIP s = some ip ∧ IPv4Bytes ip
  | .ipv6 true => P.ipv6Address (pstr s) = true ↔ ∃ ip, E.parseIP s = some ip ∧ ¬ IPv4Bytes ip
  | .address true => (P.ipAddress (pstr s) || Py.validateHostName (pstr s)) = true ↔
      (HostnameOk (goLower E) s ∨ ∃ ip, E.parseIP s = some ip)
  | .uri true => (∃ u, P.urlparse (pstr s) = some u ∧ u.scheme = true ∧ u.netloc = true ∧ u.path = true) ↔
      E.parseURL s = .ok true
  | .uriRef true => (∃ u, P.urlparse (pstr s) = some u ∧
      (u.fragment = true → u.scheme = true ∧ u.path = true)) ↔ ∃ a, E.parseURL s = .ok a
  | .uuid true => Py.uuidOk P (pstr s) = true ↔ UuidOk s
  | .regex k => k = .unknown
  | _ => True

/-- The text libraries agree on the common patterns and formats. -/
structure TextLibs (C : Common) (E : Env) (P : PEnv) : Prop where
  pattern : ∀ p, C.pattern p → p ≠ [] ∧ ∀ s, Utf8 s → P.search p (pstr s) = some (E.matchRe p s)
  format : ∀ w s, C.format w s → FormatAgrees E P w s

/-- Besides, the clocks agree, and so does what happens to messages of types from elsewhere; and the
descriptors are as stated. -/
structure LibsAgree (C : Common) (E : Env) (P : PEnv) (S : Schema) : Prop extends TextLibs C E P where
  google : ∀ n, P.google n = true → C.google n
  pair : ∀ n k v, P.fieldsOf n = [("key", k), ("value", v)] → C.pair n
  clock : P.now * 1000000000 = E.now * 2 ^ 1074
  other : ∀ v, Spec.Outside S v → (P.other v = .ok () ↔ EmbeddedOk E S (fun _ => True) v)

/-! ### Rules -/

/-- Numeric rules: `ignore_empty` is not set to false, and all numbers are finite. -/
def PortNum (r : NumRules) : Prop :=
  checkNum r = true ∧ r.ignoreEmpty ≠ some false ∧ ∀ b ∈ numbersOf r, Finite b

/-- String rules: no limit of zero, texts that need no escaping, common patterns. -/
def PortString (C : Common) (r : StringRules) : Prop :=
  checkLen r.len r.minLen r.maxLen = true ∧ checkLen r.lenBytes r.minBytes r.maxBytes = true ∧
  checkIns r.ins.length r.notIns.length = true ∧
  r.len ≠ some 0 ∧ r.maxLen ≠ some 0 ∧ r.lenBytes ≠ some 0 ∧ r.maxBytes ≠ some 0 ∧
  (∀ s, r.const = some s ∨ r.pfx = some s ∨ r.sfx = some s ∨ r.contains = some s ∨
    r.notContains = some s → SafeText s) ∧
  r.notContains ≠ some [] ∧
  (∀ s ∈ r.ins, Utf8 s) ∧ (∀ s ∈ r.notIns, Utf8 s) ∧
  (∀ p, r.pattern = some p → C.pattern p) ∧ r.getRegex = .unknown

/-- Bytes rules: no limit of zero, no empty constant, no pattern, of the formats only `ip`. -/
def PortBytes (r : BytesRules) : Prop :=
  checkIns r.ins.length r.notIns.length = true ∧
  r.pattern = none ∧ (∀ w, r.wellKnown = some w → ∃ b, w = .ip b) ∧
  (r.len = none ∨ (r.minLen = none ∧ r.maxLen = none)) ∧
  r.len ≠ some 0 ∧ r.maxLen ≠ some 0 ∧ r.const ≠ some []

/-- Enum rules: no constant zero. -/
def PortEnum (r : EnumRules) : Prop :=
  checkIns r.ins.length r.notIns.length = true ∧ r.const ≠ some 0

/-- A valid duration of whole seconds, and of less than about 292 years. -/
def WholeDur (d : PDur) : Prop := PortDur d ∧ d.nanos = 0
/-- A valid instant at a whole second. -/
def WholeTime (t : PTime) : Prop := t.valid = true ∧ t.nanos = 0

/-- Python holds times in doubles. Two times of `s` and `s'` seconds and `n` and `n'` nanoseconds
compare correctly if both are whole seconds, or if both are below `2^k` seconds and more than
`2^k / 2^51` seconds apart (less than a microsecond for `k = 31`, until the year 2038). -/
def Comparable (s n s' n' : Int) : Prop :=
  (n = 0 ∧ n' = 0) ∨
  ∃ k, 2 ≤ k ∧ s.natAbs < 2 ^ k ∧ s'.natAbs < 2 ^ k ∧
    1000000000 * 2 ^ k < ((s * 1000000000 + n) - (s' * 1000000000 + n')).natAbs * 2 ^ 51

/-- Duration rules: valid durations below about 292 years; an upper and a lower bound compare
correctly. -/
def PortDuration (r : DurationRules) : Prop :=
  checkDuration r = true ∧
  (∀ d, r.const = some d ∨ r.lt = some d ∨ r.lte = some d ∨ r.gt = some d ∨ r.gte = some d →
    PortDur d) ∧ (∀ d ∈ r.ins, PortDur d) ∧ (∀ d ∈ r.notIns, PortDur d) ∧
  (∀ u l, (r.lt = some u ∨ r.lte = some u) → (r.gt = some l ∨ r.gte = some l) →
    Comparable u.seconds u.nanos l.seconds l.nanos)

/-- A duration that compares correctly with those in the rules. -/
def ClearDur (r : DurationRules) (d : PDur) : Prop :=
  PortDur d ∧
  ∀ b, (r.const = some b ∨ r.lt = some b ∨ r.lte = some b ∨ r.gt = some b ∨ r.gte = some b) ∨
    b ∈ r.ins ∨ b ∈ r.notIns → Comparable d.seconds d.nanos b.seconds b.nanos

/-- Timestamp rules without `within`; an upper and a lower bound compare correctly. -/
def PortTimestamp (r : TimestampRules) : Prop :=
  checkTimestamp r = true ∧ r.within = none ∧
  (∀ d, r.const = some d ∨ r.lt = some d ∨ r.lte = some d ∨ r.gt = some d ∨ r.gte = some d →
    d.valid = true) ∧
  (∀ u l, (r.lt = some u ∨ r.lte = some u) → (r.gt = some l ∨ r.gte = some l) →
    Comparable u.seconds u.nanos l.seconds l.nanos)

/-- A timestamp that compares correctly with those in the rules; at a whole second, if the rules are
about the present. -/
def ClearTime (r : TimestampRules) (t : PTime) : Prop :=
  t.valid = true ∧
  (∀ b, r.const = some b ∨ r.lt = some b ∨ r.lte = some b ∨ r.gt = some b ∨ r.gte = some b →
    Comparable t.seconds t.nanos b.seconds b.nanos) ∧
  (r.ltNow ≠ none ∨ r.gtNow ≠ none → t.nanos = 0)

/-- Rules on one value. -/
def PortType (C : Common) : TypeRules → Prop
  | .num _ r => PortNum r
  | .string r => PortString C r
  | .bytes r => PortBytes r
  | .enum r => PortEnum r
  | .any r => checkIns r.ins.length r.notIns.length = true ∧ (∀ s ∈ r.ins, Utf8 s) ∧
      (∀ s ∈ r.notIns, Utf8 s)
  | .duration r => PortDuration r
  | .timestamp r => PortTimestamp r
  | _ => True

/-- The rules are about the element type (C31 states what the generator checks of this). -/
def KindOf : ElemT → TypeRules → Prop
  | _, .unset => True
  | .scalar k, .num k' _ => k = k'
  | .bool, .bool _ => True
  | .string, .string _ => True
  | .bytes, .bytes _ => True
  | .enum _, .enum _ => True
  | .embed _ _, .any _ => True
  | .embed _ _, .duration _ => True
  | .embed _ _, .timestamp _ => True
  | .embed _ _, t => WrapperKind t
  | _, _ => False

/-- A scalar of the kind the rules are about, in the claimed part of its values. -/
def FitsScalar (C : Common) (t : TypeRules) (s : Scalar) : Prop :=
  match t, s with
  | .num _ _, .num _ => True
  | .bool _, .bool _ => True
  | .string r, .str s => Utf8 s ∧ ∀ w, r.wellKnown = some w → C.format w s
  | .bytes _, .bytes _ => True
  | .enum _, .enum _ => True
  | _, _ => False

/-- A value of an element under rules. -/
def FitsVal (C : Common) (S : Schema) (e : ElemT) (t : TypeRules) (v : Val) : Prop :=
  match t with
  | .unset => (∃ n w, e = .embed n (some w)) ∨ (∃ n w, e = .embed n w ∧ C.google n) →
      ∀ typ fs os, v = .msg typ fs os → S typ = .foreign
  | .any _ => v = .null ∨ ∃ u b, v = .any u b ∧ Utf8 u
  | .duration r => v = .null ∨ ∃ d, v = .dur d ∧ ClearDur r d
  | .timestamp r => v = .null ∨ ∃ t, v = .ts t ∧ ClearTime r t
  | t =>
    if e.isEmbed then v = .null ∨ ∃ s, v = .wrapper s ∧ FitsScalar C t s
    else ∃ s, v = .sc s ∧ FitsScalar C t s

/-- Rules on Any, Duration and Timestamp messages. -/
def WellKnownKind : TypeRules → Prop
  | .any _ | .duration _ | .timestamp _ => True
  | _ => False

/-- A singular field: message rules only on messages, and not together with Any, Duration and
Timestamp rules. -/
def PortOne (C : Common) (S : Schema) (e : ElemT) (rules : FieldRules) (v : Val) : Prop :=
  KindOf e rules.type ∧ PortType C rules.type ∧ FitsVal C S e rules.type v ∧
  (e.isEmbed = false → rules.message = none) ∧ (WellKnownKind rules.type → rules.message = none)

/-- `required` in the rules of an item or map value. -/
def NoRequired : TypeRules → Prop
  | .any r => r.required ≠ some true
  | .duration r => r.required ≠ some true
  | .timestamp r => r.required ≠ some true
  | _ => True

/-- A list item or map value: of the message rules only `skip`; nothing required; no rules on bytes
and on the values of wrappers. -/
def PortItem (C : Common) (S : Schema) (e : ElemT) (rules : FieldRules) (v : Val) : Prop :=
  KindOf e rules.type ∧ PortType C rules.type ∧ FitsVal C S e rules.type v ∧ NoRequired rules.type ∧
  (∀ r, rules.type ≠ .bytes r) ∧ NoWrapper e rules ∧
  (rules.message = none ∨ (rules.type = .unset ∧ e.isEmbed = true ∧ msgSkip rules.message = true ∧
    msgRequired rules.message = false))

/-- A map key. -/
def PortKey (C : Common) (kt : ElemT) (keys : FieldRules) (k : Scalar) : Prop :=
  KindOf kt keys.type ∧ PortType C keys.type ∧ keys.message = none ∧
  (keys.type = .unset ∨ FitsScalar C keys.type k) ∧
  (∀ r, keys.type ≠ .num .float r) ∧ (∀ r, keys.type ≠ .bytes r) ∧ (∀ r, keys.type ≠ .enum r)

/-- Scalars in lists with unique items. -/
def FitsItem (e : ElemT) (v : Val) : Prop :=
  match e, v with
  | .scalar _, .sc (.num _) => True
  | .bool, .sc (.bool _) => True
  | .string, .sc (.str s) => Utf8 s
  | .bytes, .sc (.bytes _) => True
  | .enum _, .sc (.enum _) => True
  | _, _ => False

/-- A field's rules and its value are portable. -/
def PortField (C : Common) (S : Schema) (f : FieldDesc) (v : Val) : Prop :=
  match f.typ with
  | .one e => PortOne C S e f.rules v
  | .rep e =>
    f.rules.message = none ∧ ∃ vs, v = .list vs ∧
    match f.rules.type with
    | .repeated r items =>
      r.maxItems ≠ some 0 ∧ (∀ v ∈ vs, PortItem C S e items v) ∧
      (r.unique = some true → ∀ v ∈ vs, FitsItem e v)
    | .unset => (∀ v ∈ vs, FitsVal C S e .unset v) ∧ ∀ n, e = .embed n none → ¬ C.pair n
    | _ => False
  | .map kt vt =>
    f.rules.message = none ∧ ∃ kvs, v = .map kvs ∧
    match f.rules.type with
    | .map r keys values =>
      r.maxPairs ≠ some 0 ∧ r.noSparse ≠ some true ∧
      (∀ kv ∈ kvs, PortKey C kt keys kv.1 ∧ PortItem C S vt values kv.2) ∧
      (vt.isEmbed = true → values.type = .unset →
        (keys = .absent ∧ values = .absent) ∨ msgSkip values.message = true)
    | .unset => True
    | _ => False

/-- Making and parsing the text of the validator succeeds, whatever validating embedded messages
does. -/
def Parses (P : PEnv) (d : MsgDesc) : Prop := ∀ rec, (Py.msgCode P rec d).isSome = true

/-- Every message in `v`, at any depth, has Python code that parses and portable rules and values in
its fields and in the members set of its oneofs; members of a oneof have different names, and a set
member is one of them. -/
def Portable (C : Common) (P : PEnv) (S : Schema) (v : Val) : Prop :=
  ∀ typ fs os d, Part (.msg typ fs os) v → S typ = .generated d →
    Parses P d ∧ (d.disabled = false → d.ignored = false →
      (∀ f ∈ d.fields, PortField C S f (getField fs f)) ∧
      (∀ o ∈ d.oneofs, (o.fields.map (·.name)).Nodup ∧ ∀ m u, os.lookup o.name = some (m, u) →
        ∃ f, f ∈ o.fields ∧ f.name = m ∧ PortField C S f u))

/-- Python's `validate` accepts a message of the one-field type `typ` whose field has the value
`v`. -/
def PyAccepts (P : PEnv) (S : Schema) (typ : String) (f : FieldDesc) (v : Val) : Prop :=
  Py.validate P S (.msg typ [(f.name, v)] []) = .ok ()

end PGV.Spec.Python
