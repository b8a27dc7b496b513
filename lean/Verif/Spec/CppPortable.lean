import Verif.Spec.Portable
import Verif.Cpp.Templates

/-!
The part of the rule language and of the value space on which generated C++ validators are claimed
to agree with generated Go validators.
-/

namespace PGV.Spec.Cpp
open PGV PGV.Go
open PGV.Cpp (CEnv)
open PGV.Spec hiding FormatAgrees TextLibs LibsAgree PortString PortBytes PortEnum PortAny PortDuration
  PortType PortElem FitsScalar FitsVal FitsItem PortField Portable Outside

/-! ### Literals -/

/-- Characters that Go writes as `\xhh` in a quoted string: control characters without an escape
letter. -/
def HexEscaped (b : UInt8) : Prop := (b.toNat < 0x20 ∧ ¬ (7 ≤ b.toNat ∧ b.toNat ≤ 13)) ∨ b.toNat = 0x7F

/-- Text that survives the trip from Go quotes to a C++ compiler: valid UTF-8 in which no character
written as `\xhh` is followed by a hexadecimal digit. -/
def CText (s : Bytes) : Prop :=
  Utf8 s ∧ ∀ a c d t, s = a ++ c :: d :: t → HexEscaped c → ¬ HexDigit d

/-- Text that also survives as a `const char*`. -/
def CString (s : Bytes) : Prop := CText s ∧ (0 : UInt8) ∉ s

/-- No zero byte. -/
def NoNul (s : Bytes) : Prop := (0 : UInt8) ∉ s

/-! ### Numbers -/

/-- A number of the kind. -/
def NumOf (k : NumKind) : Num → Prop
  | .int i => k ≠ .float ∧ k ≠ .double ∧ IntOf k i
  | .f32 _ => k = .float
  | .f64 _ => k = .double

/-- Neither infinite nor NaN. -/
def Finite32 (b : BitVec 32) : Prop := b.toNat / 8388608 % 256 ≠ 255
def Finite64 (b : BitVec 64) : Prop := b.toNat / 4503599627370496 % 2048 ≠ 2047

/-- A limit that C++ reads as the number it is: an integer literal that fits in 64 bits, a `double`,
or a `float` whose printed decimal is its exact value. -/
def LimitOk (P : CEnv) (k : NumKind) (n : Num) : Prop :=
  NumOf k n ∧
  match n with
  | .int i => i.natAbs < 9223372036854775808
  | .f32 b => Finite32 b ∧ 0 < (P.dec32 b).2 ∧
      ∀ x, f32Val b = some x → (P.dec32 b).1 * 2 ^ 149 = x * (P.dec32 b).2
  | .f64 b => Finite64 b

/-- A constant that C++ reads as the number it is: `float`s must have at most six decimals. -/
def ConstOk (k : NumKind) (n : Num) : Prop :=
  NumOf k n ∧
  match n with
  | .int i => i.natAbs < 9223372036854775808
  | .f32 b => Finite32 b ∧ ∀ x, f32Val b = some x → (2 ^ 149 : Int) ∣ x * 1000000
  | .f64 b => Finite64 b

/-- The numbers in numeric rules. -/
def PortNum (P : CEnv) (k : NumKind) (r : NumRules) : Prop :=
  (∀ b, r.const = some b → ConstOk k b) ∧
  (∀ b, r.lt = some b ∨ r.lte = some b ∨ r.gt = some b ∨ r.gte = some b → LimitOk P k b) ∧
  (∀ b ∈ r.ins, ConstOk k b) ∧ (∀ b ∈ r.notIns, ConstOk k b)

/-! ### Libraries -/

/-- The part of a string before its first NUL. -/
def upToNul (s : Bytes) : Bytes := s.takeWhile (· != 0)

/-- Go's lower-casing keeps non-ASCII characters of the string outside ASCII. -/
def LowersSafely (E : Env) (s : Bytes) : Prop := ∀ r ∈ runes s, 0x80 ≤ r → 0x80 ≤ E.lowerRune r

/-- The format checks agree on a string. (E-mail addresses and URIs are not implemented in C++; UUIDs
need no library.) -/
def FormatAgrees (E : Env) (P : CEnv) (w : StrWellKnown) (s : Bytes) : Prop :=
  match w with
  | .ip true => (P.pton4 (upToNul s) = true ∨ P.pton6 (upToNul s) = true) ↔ ∃ ip, E.parseIP s = some ip
  | .ipv4 true => P.pton4 (upToNul s) = true ↔ ∃ ip, E.parseIP s = some ip ∧ IPv4Bytes ip
  | .ipv6 true => P.pton6 (upToNul s) = true ↔ ∃ ip, E.parseIP s = some ip ∧ ¬ IPv4Bytes ip
  | .hostname true => LowersSafely E s
  | .address true => LowersSafely E s ∧
      ((P.pton4 (upToNul s) = true ∨ P.pton6 (upToNul s) = true) ↔ ∃ ip, E.parseIP s = some ip)
  | .email true | .uri true | .uriRef true => False
  | _ => True

/-- The type of the message has no validator generated in C++: another one may be registered. -/
def Outside (S : Schema) (v : Val) : Prop :=
  ∀ typ fs os d, v = .msg typ fs os → S typ = .generated d → d.ignored = true ∨ d.disabled = true

/-- Go prints `float64` numbers so that reading them back gives the number, control characters are
not printable, and validators of types from elsewhere agree. -/
structure LibsAgree (E : Env) (P : CEnv) (S : Schema) : Prop where
  isPrint : ∀ r, P.isPrint r = true → 0x20 ≤ r
  dec64 : ∀ b x, Finite64 b → f64Val b = some x → Cpp.readDouble (P.dec64 b).1 (P.dec64 b).2 = x
  other : ∀ v, Outside S v → (P.other v = .ok () ↔ EmbeddedOk E S (fun _ => True) v)
  /-- …and do not throw. -/
  other_calm : ∀ v w, Outside S v → P.other v ≠ .error (.unimplemented w)

/-! ### Rules and values that mean the same in Go and C++ -/

/-- String rules. -/
def PortString (r : StringRules) : Prop :=
  (∀ s, r.const = some s ∨ r.pfx = some s ∨ r.sfx = some s ∨ r.contains = some s ∨
    r.notContains = some s → CString s) ∧ (∀ s ∈ r.ins, CString s) ∧ (∀ s ∈ r.notIns, CString s) ∧
  (∀ p, r.pattern = some p → CText p)

/-- A string under string rules: the pattern matches all of it when it matches a part of it. -/
def FitsString (E : Env) (P : CEnv) (r : StringRules) (s : Bytes) : Prop :=
  Utf8 s ∧ (∀ p, r.pattern = some p → P.fullMatch p s = E.matchRe p s) ∧
  (∀ w, r.wellKnown = some w → FormatAgrees E P w s)

/-- Bytes rules: no zero bytes, no formats. -/
def PortBytes (r : BytesRules) : Prop :=
  (∀ s, r.const = some s ∨ r.pfx = some s ∨ r.sfx = some s ∨ r.contains = some s → NoNul s) ∧
  (∀ s ∈ r.ins, NoNul s) ∧ (∀ s ∈ r.notIns, NoNul s) ∧ (∀ p, r.pattern = some p → CText p) ∧
  (∀ w, r.wellKnown = some w → w = .ip false ∨ w = .ipv4 false ∨ w = .ipv6 false)

/-- Any rules. -/
def PortAny (r : AnyRules) : Prop := (∀ s ∈ r.ins, CString s) ∧ (∀ s ∈ r.notIns, CString s)

/-- Duration rules. -/
def PortDuration (r : DurationRules) : Prop :=
  (∀ d, r.const = some d ∨ r.lt = some d ∨ r.lte = some d ∨ r.gt = some d ∨ r.gte = some d →
    PortDur d) ∧ (∀ d ∈ r.ins, PortDur d) ∧ (∀ d ∈ r.notIns, PortDur d)

/-- Seconds and nanoseconds have the same sign, and a valid duration is less than about 292 years. -/
def FitsDuration (d : PDur) : Prop :=
  ¬ (0 < d.seconds ∧ d.nanos < 0) ∧ ¬ (d.seconds < 0 ∧ 0 < d.nanos) ∧
  (d.valid = true → minInt64 ≤ d.exact ∧ d.exact ≤ maxInt64)

/-- Rules on one value. Of the rules for timestamps only `required` is implemented. -/
def PortType (P : CEnv) : TypeRules → Prop
  | .num k r => PortNum P k r
  | .string r => PortString r
  | .bytes r => PortBytes r
  | .any r => PortAny r
  | .duration r => PortDuration r
  | .timestamp r => ¬ TsConstrained r
  | _ => True

/-- A scalar under rules. NaN is in every C++ set. -/
def FitsScalar (E : Env) (P : CEnv) (t : TypeRules) (s : Scalar) : Prop :=
  match t, s with
  | .num k r, .num n => NumOf k n ∧ (r.ins ≠ [] ∨ r.notIns ≠ [] → numVal n ≠ none)
  | .string r, .str s => FitsString E P r s
  | .bytes r, .bytes s => ∀ p, r.pattern = some p → P.fullMatch p s = E.matchRe p s
  | _, _ => True

/-- A value under rules. -/
def FitsVal (E : Env) (P : CEnv) (t : TypeRules) (v : Val) : Prop :=
  match t, v with
  | .duration _, .dur d => FitsDuration d
  | t, .sc s => FitsScalar E P t s
  | t, .wrapper s => FitsScalar E P t s
  | _, _ => True

/-- An item of a list with unique items. -/
def FitsItem (e : ElemT) (v : Val) : Prop :=
  match e, v with
  | .scalar k, .sc (.num n) => NumOf k n
  | .bool, .sc (.bool _) | .string, .sc (.str _) | .bytes, .sc (.bytes _)
  | .enum _, .sc (.enum _) => True
  | _, _ => False

/-- A field's rules and its value are portable. -/
def PortField (E : Env) (P : CEnv) (f : FieldDesc) (v : Val) : Prop :=
  match f.typ, v with
  | .one _, v => PortType P f.rules.type ∧ FitsVal E P f.rules.type v
  | .rep e, .list vs =>
    match f.rules.type with
    | .repeated r items =>
      PortType P items.type ∧ (∀ v ∈ vs, FitsVal E P items.type v) ∧
      (r.unique = some true → ∀ v ∈ vs, FitsItem e v)
    | _ => True
  | .map _ _, .map kvs =>
    match f.rules.type with
    | .map r keys values =>
      r.noSparse ≠ some true ∧ PortType P keys.type ∧ PortType P values.type ∧
      (∀ kv ∈ kvs, FitsScalar E P keys.type kv.1 ∧ FitsVal E P values.type kv.2)
    | _ => True
  | _, _ => True

/-- Every message in `v`, at any depth, has portable rules and values in its fields and in the
members set of its oneofs. -/
def Portable (E : Env) (P : CEnv) (S : Schema) (v : Val) : Prop :=
  ∀ typ fs os d, Part (.msg typ fs os) v → S typ = .generated d → d.disabled = false →
    (∀ f ∈ d.fields, PortField E P f (getField fs f)) ∧
    (∀ o ∈ d.oneofs, ∀ m u f, os.lookup o.name = some (m, u) →
      o.fields.find? (fun f => f.name == m) = some f → PortField E P f u)

/-! ### The C++ API -/

/-- The validator returns `true` on a message of the one-field type `typ` whose field has the value
`v`. -/
def Accepts (P : CEnv) (S : Schema) (typ : String) (f : FieldDesc) (v : Val) : Prop :=
  Cpp.checkMessage P S (.msg typ [(f.name, v)] []) = .ok ()

/-- It returns `false`. -/
def Rejects (P : CEnv) (S : Schema) (typ : String) (f : FieldDesc) (v : Val) : Prop :=
  ∃ e, Cpp.checkMessage P S (.msg typ [(f.name, v)] []) = .error (.invalid e)

/-- It throws `UnimplementedException`. -/
def Throws (P : CEnv) (S : Schema) (typ : String) (f : FieldDesc) (v : Val) : Prop :=
  ∃ w, Cpp.checkMessage P S (.msg typ [(f.name, v)] []) = .error (.unimplemented w)

end PGV.Spec.Cpp
