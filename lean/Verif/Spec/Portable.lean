import Verif.Spec.Rules
import Verif.Checker.Check
import Verif.Java.Templates
import Verif.Spec.Checks
import Verif.Spec.Api

/-!
The part of the rule language and of the value space on which the generated validators of different
languages are claimed to agree.
-/

namespace PGV.Spec
open PGV PGV.Go PGV.Checker
open PGV.Java (JEnv jstr patternText)

/-- Kinds that Java represents as `int`. -/
def narrow (k : NumKind) : Prop := k ∈ [NumKind.int32, .sint32, .sfixed32, .uint32, .fixed32]
/-- Kinds that Java represents as `long`. -/
def wide (k : NumKind) : Prop := k ∈ [NumKind.int64, .sint64, .sfixed64, .uint64, .fixed64]
/-- Signed integer kinds. -/
def signed (k : NumKind) : Prop :=
  k ∈ [NumKind.int32, .sint32, .sfixed32, .int64, .sint64, .sfixed64]
/-- Unsigned integer kinds. -/
def unsigned (k : NumKind) : Prop := k ∈ [NumKind.uint32, .fixed32, .uint64, .fixed64]

/-- A number that signed integer types of the kind's width can hold (all numbers of signed kinds,
the lower half of unsigned kinds), or a float other than NaN and negative zero. -/
def Plain (k : NumKind) : Num → Prop
  | .int i =>
    (narrow k ∧ -2147483648 ≤ i ∧ i ≤ 2147483647) ∨
    (wide k ∧ -9223372036854775808 ≤ i ∧ i ≤ 9223372036854775807)
  | .f32 b => k = .float ∧ f32Val b ≠ none ∧ b ≠ 0x80000000#32
  | .f64 b => k = .double ∧ f64Val b ≠ none ∧ b ≠ 0x8000000000000000#64

/-- All the numbers in numeric rules are plain. -/
def PlainRules (k : NumKind) (r : NumRules) : Prop :=
  (∀ b, r.const = some b ∨ r.lt = some b ∨ r.lte = some b ∨ r.gt = some b ∨ r.gte = some b →
    Plain k b) ∧ (∀ b ∈ r.ins, Plain k b) ∧ (∀ b ∈ r.notIns, Plain k b)

/-- A Unicode scalar value: a code point that is not a surrogate. -/
def ScalarValue (c : Nat) : Prop := c < 0x110000 ∧ ¬ (0xD800 ≤ c ∧ c < 0xE000)

/-- Valid UTF-8: the encoding of some scalar values. Both protobuf-go and protobuf-java refuse to
parse a proto3 string field with other bytes. -/
def Utf8 (s : Bytes) : Prop := ∃ cs : List Nat, (∀ c ∈ cs, ScalarValue c) ∧ s = cs.flatMap encodeRune

/-! ### Libraries -/

/-- The patterns and string formats on which the libraries of the two languages agree. -/
structure Common where
  pattern : Bytes → Prop
  format : StrWellKnown → Prop

/-- The format checks of the two languages agree on a string. (UUIDs need no library.) -/
def FormatAgrees (E : Env) (J : JEnv) (w : StrWellKnown) (s : Bytes) : Prop :=
  match w with
  | .email true => Java.emailValid J (jstr s) = true ↔ EmailOk E s
  | .hostname true => Java.hostName J (jstr s) = true ↔ HostnameOk (goLower E) s
  | .ip true => J.ip (jstr s) = true ↔ ∃ ip, E.parseIP s = some ip
  | .ipv4 true => J.ipv4 (jstr s) = true ↔ ∃ ip, E.parseIP s = some ip ∧ IPv4Bytes ip
  | .ipv6 true => J.ipv6 (jstr s) = true ↔ ∃ ip, E.parseIP s = some ip ∧ ¬ IPv4Bytes ip
  | .address true => (Java.hostName J (jstr s) = true ∨ J.ip (jstr s) = true) ↔
      (HostnameOk (goLower E) s ∨ ∃ ip, E.parseIP s = some ip)
  | .uri true => J.uri (jstr s) = some true ↔ E.parseURL s = .ok true
  | .uriRef true => (∃ a, J.uri (jstr s) = some a) ↔ ∃ a, E.parseURL s = .ok a
  | _ => True

/-- The value is not a message whose type has generated validators. -/
def Outside (S : Schema) (v : Val) : Prop :=
  ∀ typ fs os d, v = .msg typ fs os → S typ = .generated d → d.ignored = true

/-- The text libraries agree on the common patterns (as Java is given them, which is C74) and formats. -/
structure TextLibs (C : Common) (E : Env) (J : JEnv) : Prop where
  pattern : ∀ p, C.pattern p → ∀ s, Utf8 s → J.matches_ (patternText J p) (jstr s) = E.matchRe p s
  format : ∀ w, C.format w → ∀ s, Utf8 s → FormatAgrees E J w s

/-- The libraries agree on the common patterns and formats, the clocks agree (and show a time that
protobuf can represent), and so do validators of types from elsewhere. -/
structure LibsAgree (C : Common) (E : Env) (J : JEnv) (S : Schema) : Prop extends TextLibs C E J where
  clock : E.now = J.nowMs * 1000000
  clock_valid : (Java.fromMillis J.nowMs).valid = true
  other : ∀ v, Outside S v → (J.other v = .ok () ↔ EmbeddedOk E S (fun _ => True) v)

/-! ### Rules that mean the same in Go and Java -/

/-- Text without quotes, backslashes and ends of lines (the generator puts it between quotes as it is). -/
def PortText (s : Bytes) : Prop := Utf8 s ∧ JavaPlain s

/-- String rules. -/
def PortString (C : Common) (r : StringRules) : Prop :=
  (∀ s, r.const = some s ∨ r.pfx = some s ∨ r.sfx = some s ∨ r.contains = some s ∨
    r.notContains = some s → PortText s) ∧ (∀ s ∈ r.ins, PortText s) ∧ (∀ s ∈ r.notIns, PortText s) ∧
  (∀ p, r.pattern = some p → C.pattern p) ∧ (∀ w, r.wellKnown = some w → C.format w)

/-- Bytes rules: no pattern, of the formats only `ip`, and not both an exact length and others. -/
def PortBytes (r : BytesRules) : Prop :=
  r.pattern = none ∧ (∀ w, r.wellKnown = some w → ∃ b, w = .ip b) ∧
  (r.len = none ∨ (r.minLen = none ∧ r.maxLen = none))

/-- Enum rules that only name declared values. -/
def PortEnum (declared : List Int) (r : EnumRules) : Prop :=
  (∀ c, r.const = some c → c ∈ declared) ∧ (∀ c ∈ r.ins, c ∈ declared) ∧
  (∀ c ∈ r.notIns, c ∈ declared)

/-- Any rules. -/
def PortAny (r : AnyRules) : Prop := (∀ s ∈ r.ins, PortText s) ∧ (∀ s ∈ r.notIns, PortText s)

/-- A valid duration of less than about 292 years. -/
def PortDur (d : PDur) : Prop := d.valid = true ∧ minInt64 ≤ d.exact ∧ d.exact ≤ maxInt64

/-- Duration rules. -/
def PortDuration (r : DurationRules) : Prop :=
  (∀ d, r.const = some d ∨ r.lt = some d ∨ r.lte = some d ∨ r.gt = some d ∨ r.gte = some d →
    PortDur d) ∧ (∀ d ∈ r.ins, PortDur d) ∧ (∀ d ∈ r.notIns, PortDur d)

/-- Rules on one value: the generator accepts them (only what matters of that is asked for), and
they are portable. -/
def PortType (C : Common) (e : ElemT) : TypeRules → Prop
  | .num k r => checkNum r = true ∧ PlainRules k r
  | .string r => checkLen r.len r.minLen r.maxLen = true ∧
      checkLen r.lenBytes r.minBytes r.maxBytes = true ∧
      checkIns r.ins.length r.notIns.length = true ∧ PortString C r
  | .bytes r => checkBytes (fun _ => true) r = true ∧ PortBytes r
  | .enum r =>
    match e with
    | .enum declared => checkEnum (.elem e) r = true ∧ PortEnum declared r
    | _ => True
  | .any r => checkIns r.ins.length r.notIns.length = true ∧ PortAny r
  | .duration r => checkDuration r = true ∧ PortDuration r
  | .timestamp r => checkTimestamp r = true ∧ r.within = none
  | _ => True

/-- Rules on a message-typed value: `skip` and `required` are not combined. -/
def PortMessage (m : Option MessageRules) : Prop := ¬ (msgSkip m = true ∧ msgRequired m = true)

/-- Rules of an element. -/
def PortElem (C : Common) (e : ElemT) (rules : FieldRules) : Prop :=
  PortType C e rules.type ∧ PortMessage rules.message

/-- Rules on a wrapper's value inside a list or a map: their Java code does not compile. -/
def NoWrapper (e : ElemT) (rules : FieldRules) : Prop :=
  e.isEmbed = true → ¬ WrapperKind rules.type

/-! ### Values -/

/-- A scalar under rules. -/
def FitsScalar (t : TypeRules) (s : Scalar) : Prop :=
  match t, s with
  | .num k _, .num n => Plain k n
  | .string _, .str s => Utf8 s
  | _, _ => True

/-- A value under rules. -/
def FitsVal (t : TypeRules) (v : Val) : Prop :=
  match t, v with
  | .any _, .any url _ => Utf8 url
  | .duration _, .dur d => PortDur d
  | .timestamp _, .ts t => t.valid = true
  | t, .sc s => FitsScalar t s
  | t, .wrapper s => FitsScalar t s
  | _, _ => True

/-- An item of a list with unique items. -/
def FitsItem (e : ElemT) (v : Val) : Prop :=
  match e, v with
  | .scalar k, .sc (.num n) => Plain k n
  | .bool, .sc (.bool _) => True
  | .string, .sc (.str s) => Utf8 s
  | .bytes, .sc (.bytes _) => True
  | .enum declared, .sc (.enum i) => i ∈ declared
  | _, _ => False

/-- A field's rules and its value are portable. -/
def PortField (C : Common) (f : FieldDesc) (v : Val) : Prop :=
  match f.typ, v with
  | .one e, v => PortElem C e f.rules ∧ FitsVal f.rules.type v
  | .rep e, .list vs =>
    match f.rules.type with
    | .repeated r items =>
      r.maxItems ≠ some 0 ∧ PortElem C e items ∧
      NoWrapper e items ∧
      (∀ v ∈ vs, FitsVal items.type v) ∧ (r.unique = some true → ∀ v ∈ vs, FitsItem e v)
    | _ => True
  | .map kt vt, .map kvs =>
    match f.rules.type with
    | .map r keys values =>
      r.maxPairs ≠ some 0 ∧ r.noSparse ≠ some true ∧
      PortType C kt keys.type ∧ PortElem C vt values ∧ NoWrapper vt values ∧
      (∀ kv ∈ kvs, FitsScalar keys.type kv.1 ∧ FitsVal values.type kv.2)
    | _ => True
  | _, _ => True

/-- `Part w v`: `w` occurs in `v`. -/
inductive Part (w : Val) : Val → Prop
  | self : Part w w
  | item {u vs} : u ∈ vs → Part w u → Part w (.list vs)
  | entry {kv : Scalar × Val} {kvs} : kv ∈ kvs → Part w kv.2 → Part w (.map kvs)
  | field {n u t fs os} : (n, u) ∈ fs → Part w u → Part w (.msg t fs os)
  | member {n m u t fs os} : (n, m, u) ∈ os → Part w u → Part w (.msg t fs os)

/-- Every message in `v`, at any depth, has portable rules and values in its fields and in the
members set of its oneofs. -/
def Portable (C : Common) (S : Schema) (v : Val) : Prop :=
  ∀ typ fs os d, Part (.msg typ fs os) v → S typ = .generated d → d.disabled = false →
    (∀ f ∈ d.fields, PortField C f (getField fs f)) ∧
    (∀ o ∈ d.oneofs, ∀ m u f, os.lookup o.name = some (m, u) →
      o.fields.find? (fun f => f.name == m) = some f → PortField C f u)

/-! ### The Java API -/

/-- The generator writes a validator for the type (it is not marked `ignored`). -/
def NotIgnored (S : Schema) (typ : String) : Prop := ∀ d, S typ = .generated d → d.ignored = false

/-- The Java validator accepts a message of the one-field type `typ` whose field has the value `v`:
`assertValid` returns without throwing anything. -/
def JavaAccepts (J : JEnv) (S : Schema) (typ : String) (f : FieldDesc) (v : Val) : Prop :=
  Java.assertValid J S (.msg typ [(f.name, v)] []) = .ok ()

/-- All the numbers written in numeric rules. -/
def numbersOf (r : NumRules) : List Num :=
  r.const.toList ++ r.lt.toList ++ r.lte.toList ++ r.gt.toList ++ r.gte.toList ++ r.ins ++ r.notIns

/-- An integer that the kind can hold. -/
def IntOf (k : NumKind) (i : Int) : Prop := (kindRange k).1 ≤ i ∧ i ≤ (kindRange k).2

/-- The numbers of the rules are integers of the kind. -/
def IntRules (k : NumKind) (r : NumRules) : Prop := ∀ b ∈ numbersOf r, ∃ i, b = .int i ∧ IntOf k i

/-- The Java literals for the numbers of the rules compile. -/
def LiteralsCompile (k : NumKind) (r : NumRules) : Prop :=
  ∀ b ∈ numbersOf r, Java.litCompiles k b = true

/-- An unsigned integer read as the signed integer with the same bits. -/
def signedView (k : NumKind) (x : Int) : Int :=
  match k with
  | .uint32 | .fixed32 => if x < 2147483648 then x else x - 4294967296
  | .uint64 | .fixed64 => if x < 9223372036854775808 then x else x - 18446744073709551616
  | _ => x

end PGV.Spec
