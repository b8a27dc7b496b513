import Verif.Spec.Reason
import Verif.Spec.Api
import Verif.Spec.JavaBlame

/-!
What the reason of a Java `ValidationException` says, read as a requirement on the value that the
accessor of the field returns.
-/

namespace PGV.Spec
open PGV PGV.Java

/-- The order of boxed Java numbers of one type: negative zero is below zero, and NaN above every number. -/
def NumBelow : JNum → JNum → Prop
  | .int a, .int b => a < b
  | .long a, .long b => a < b
  | .float a, .float b =>
    match f32Key a, f32Key b with
    | some x, some y => x < y ∨ (a = 0x80000000#32 ∧ b = 0#32)
    | some _, none => True
    | none, _ => False
  | .double a, .double b =>
    match f64Key a, f64Key b with
    | some x, some y => x < y ∨ (a = 0x8000000000000000#64 ∧ b = 0#64)
    | some _, none => True
    | none, _ => False
  | _, _ => False

/-- Equal boxed numbers: those of which none is below the other. -/
def NumSame : JNum → JNum → Prop
  | .int a, .int b => a = b
  | .long a, .long b => a = b
  | .float a, .float b => a = b ∨ (f32Key a = none ∧ f32Key b = none)
  | .double a, .double b => a = b ∨ (f64Key a = none ∧ f64Key b = none)
  | _, _ => False

/-- One value is below the other. -/
def Below : JItem → JItem → Prop
  | .num a, .num b => NumBelow a b
  | .dur a, .dur b => a.exact < b.exact
  | .ts a, .ts b => instant a < instant b
  | _, _ => False

/-- Equal values. -/
def Same : JItem → JItem → Prop
  | .num a, .num b => NumSame a b
  | a, b => a = b

/-- `x` lies between `l` and `u`, in the notation of intervals. -/
def Between (opening : String) (l u : JItem) (closing : String) (x : JItem) : Prop :=
  (if opening = "[" then ¬ Below x l else Below l x) ∧ (if closing = "]" then ¬ Below u x else Below x u)

/-- Texts that mention nothing but the kind of requirement. Which address is in a value with a display name
is the subject of C83. -/
def bareText (J : JEnv) (t : String) (x : JItem) : Prop :=
  match t with
  | "should be a valid email" => ∀ s, x = .str s → J.email (emailAddress s) = true
  | "should be a valid host, or an ip address." =>
    ∀ s, x = .str s → ((∀ c ∈ s, c ≤ 127) ∧ J.domain s = true) ∨ J.ip s = true
  | "should be a valid host containing only ascii characters" =>
    ∀ s, x = .str s → (∀ c ∈ s, c ≤ 127) ∧ J.domain s = true
  | "should be a valid host" => ∀ s, x = .str s → J.domain s = true
  | "should be a valid ip address" => ∀ s, x = .str s → J.ip s = true
  | "should be a valid ipv4 address" => ∀ s, x = .str s → J.ipv4 s = true
  | "should be a valid ipv6 address" => ∀ s, x = .str s → J.ipv6 s = true
  | "should be a valid absolute uri" => ∀ s, x = .str s → J.uri s = some true
  | "invalid UUID string" => ∀ s, x = .str s → ∃ b, s = b.map UInt8.toNat ∧ UuidOk b
  | _ => True

/-- Texts that end in a value. -/
def valueText (J : JEnv) (t : String) (k x : JItem) : Prop :=
  match t with
  | "must equal " => Same x k
  | "must be less than " => Below x k
  | "must be less than or equal to " => ¬ Below k x
  | "must be greater than " => Below k x
  | "must be greater than or equal to " => ¬ Below x k
  | "must match pattern " =>
    ∀ p, k = .bytes p → (∀ s, x = .str s → J.matches_ p s = true) ∧ ∀ b, x = .bytes b → J.matches_ p (jstr b) = true
  | "should start with " =>
    (∀ p s, k = .str p → x = .str s → p <+: s) ∧ ∀ p b, k = .bytes p → x = .bytes b → p <+: b
  | "should contain " =>
    (∀ p s, k = .str p → x = .str s → p <:+: s) ∧ ∀ p b, k = .bytes p → x = .bytes b → p <:+: b
  | "should not contain " => ∀ p s, k = .str p → x = .str s → ¬ p <:+: s
  | "should end with " =>
    (∀ p s, k = .str p → x = .str s → p <:+ s) ∧ ∀ p b, k = .bytes p → x = .bytes b → p <:+ b
  | "should be valid ip address " => ∀ b, x = .bytes b → b.length = 4 ∨ b.length = 16
  | "should be valid ipv4 address " => ∀ b, x = .bytes b → b.length = 4
  | "should be valid ipv6 address " => ∀ b, x = .bytes b → b.length = 16
  | "value is not a defined Enum value " => x ≠ .enum (some .unrecognized)
  | _ => True

/-- Texts about a number of bytes. -/
def bytesText (t : String) (n : Nat) (x : JItem) : Prop :=
  match t with
  | "bytes length must be " => ∀ s, x = .str s → (getBytes s).length = n
  | "bytes length must be at least " => ∀ s, x = .str s → n ≤ (getBytes s).length
  | "bytes length must be at most " => ∀ s, x = .str s → (getBytes s).length ≤ n
  | "length must be " => ∀ b, x = .bytes b → b.length = n
  | "length must be at least " => ∀ b, x = .bytes b → n ≤ b.length
  | "length must be at most " => ∀ b, x = .bytes b → b.length ≤ n
  | _ => True

/-- Texts about a number of characters. -/
def charsText (t : String) (n : Nat) (x : JItem) : Prop :=
  match t with
  | "length must be " => ∀ s, x = .str s → codePointCount s = n
  | "length must be at least " => ∀ s, x = .str s → n ≤ codePointCount s
  | "length must be at most " => ∀ s, x = .str s → codePointCount s ≤ n
  | _ => True

/-- The requirement that a reason states of a number, a text, an enum constant, a duration, or a time. Other
texts state nothing. -/
def itemReading (J : JEnv) (reason : Reason) (x : JItem) : Prop :=
  match reason with
  | [.s t] => bareText J t x
  | [.s t, .item k] => valueText J t k x
  | [.s t, .nat n] => bytesText t n x
  | [.s t, .nat n, .s " but got: ", .nat _] => charsText t n x
  | [.s "must be in ", .items l] => ∃ k ∈ l, Same x k
  | [.s "must not be in ", .items l] => ∀ k ∈ l, ¬ Same x k
  | [.s "must be in the range ", .s o, .item l, .s ", ", .item u, .s c] => Between o l u c x
  | [.s "must be outside the range ", .s o, .item l, .s ", ", .item u, .s c] => ¬ Between o l u c x
  | [.s "value must be within ", .item d, .s " of ", .item n] =>
    ∀ w now t, d = .dur w → n = .ts now → x = .ts t → (instant t - instant now).natAbs ≤ w.exact.natAbs
  | _ => True

/-- What the accessor of a scalar field returns. -/
def scalarView (k : Option NumKind) (e : ElemT) : Scalar → Option JItem
  | .num n => k.map fun k => .num (jnum k n)
  | .bool b => some (.bool b)
  | .str s => some (.str (jstr s))
  | .bytes b => some (.bytes b)
  | .enum i =>
    match e with
    | .enum declared => some (.enum (some (jenum declared i)))
    | _ => none

/-- The kind of number that the rules are about. -/
def ruledKind : TypeRules → Option NumKind
  | .num k _ => some k
  | _ => none

/-- The kind of number of a scalar type. -/
def numKind : ElemT → Option NumKind
  | .scalar k => some k
  | _ => none

/-- The Java value of a field; of an `Any` it is the type URL that the rules are about. -/
def javaView (e : ElemT) (t : TypeRules) : Val → Option JItem
  | .sc s => scalarView (ruledKind t) e s
  | .wrapper s => scalarView (ruledKind t) e s
  | .dur d => some (.dur d)
  | .ts t => some (.ts t)
  | .any url _ => some (.str (jstr url))
  | _ => none

/-- Items that are equal in Java. All undeclared numbers of an enum are the constant `UNRECOGNIZED`. -/
def SameJava (e : ElemT) : Val → Val → Prop
  | .sc a, .sc b => ∃ x y, scalarView (numKind e) e a = some x ∧ scalarView (numKind e) e b = some y ∧ Same x y
  | _, _ => False

/-- The requirement that a reason states of a value of type `e` with the rules `t`. -/
def JReading (J : JEnv) (e : ElemT) (t : TypeRules) (reason : Reason) : Val → Prop
  | .null => reason ≠ [.s "is required"]
  | .list vs =>
    match reason with
    | [.s "must have at least ", .nat n, .s " items"] => n ≤ vs.length
    | [.s "must have at most ", .nat n, .s " items"] => vs.length ≤ n
    | [.s "must have all unique values"] => vs.Pairwise fun a b => ¬ SameJava e a b
    | _ => True
  | .map kvs =>
    match reason with
    | [.s "value size must be at least ", .nat n] => n ≤ kvs.length
    | [.s "value size must not exceed ", .nat n] => kvs.length ≤ n
    | _ => True
  | v => ∀ x, javaView e t v = some x → itemReading J reason x

/-- What a reason says of the value itself: its length, its bytes, the enum constant. -/
def Describes (reason : Reason) (x : JItem) : Prop :=
  match reason with
  | [.s _, .nat _, .s " but got: ", .nat m] => ∀ s, x = .str s → m = codePointCount s
  | [.s "should be valid ip address ", .item k] => k = x
  | [.s "should be valid ipv4 address ", .item k] => k = x
  | [.s "should be valid ipv6 address ", .item k] => k = x
  | [.s "value is not a defined Enum value ", .item k] => k = x
  | _ => True

/-- Empty values, which `ignore_empty` exempts from the rules. -/
def JExempt (e : ElemT) (t : TypeRules) (v : Val) : Prop :=
  match t with
  | .num _ r => r.ignoreEmpty = some true ∧ ∃ n, javaView e t v = some (.num n) ∧
      (n = .int 0 ∨ n = .long 0 ∨ n = .float 0#32 ∨ n = .float 0x80000000#32 ∨ n = .double 0#64 ∨
        n = .double 0x8000000000000000#64)
  | .string r => r.ignoreEmpty = some true ∧ javaView e t v = some (.str [])
  | .bytes r => r.ignoreEmpty = some true ∧ javaView e t v = some (.bytes [])
  | .repeated r _ => r.ignoreEmpty = some true ∧ v = .list []
  | .map r _ _ => r.ignoreEmpty = some true ∧ v = .map []
  | _ => False

/-- Reasons that state more than the rule: `uri_ref` accepts relative references and asks for an absolute uri,
and a time exactly 2^63 nanoseconds before the clock passes for being within any distance. -/
def Overstated (t : TypeRules) (reason : Reason) (v : Val) : Prop :=
  (∃ r, t = .string r ∧ r.wellKnown = some (.uriRef true) ∧ reason = [.s "should be a valid absolute uri"]) ∨
  ∃ r d now x, t = .timestamp r ∧ reason = [.s "value must be within ", .item (.dur d), .s " of ", .item (.ts now)] ∧
    v = .ts x ∧ instant x - instant now = -9223372036854775808

/-- `JTarget f v g e w`: an exception about the field `f` with the value `v` can be about `w`, of type `e`, which is
`v`, or an item, key or value of it, and has the rules of the field `g`. -/
inductive JTarget (f : FieldDesc) : Val → FieldDesc → ElemT → Val → Prop
  | field {e v} : f.typ = .one e → JTarget f v f e v
  | list {e vs} : f.typ = .rep e → JTarget f (.list vs) f e (.list vs)
  | map {kt e kvs} : f.typ = .map kt e → JTarget f (.map kvs) f e (.map kvs)
  | item {e vs rules w} : f.typ = .rep e → itemRules f.rules = some rules → w ∈ vs →
      JTarget f (.list vs) { name := f.name, typ := .one e, rules := rules } e w
  | key {kt e kvs key w r keys values} : f.typ = .map kt e → f.rules.type = .map r keys values → (key, w) ∈ kvs →
      JTarget f (.map kvs) { name := f.name, typ := .one kt, rules := keys } kt (.sc key)
  | value {kt e kvs key rules w} : f.typ = .map kt e → valueRules f.rules = some rules → (key, w) ∈ kvs →
      JTarget f (.map kvs) { name := f.name, typ := .one e, rules := rules } e w

/-- `Grounds J typ f v reason`: the reason states a requirement that the value `v` of the field `f`, or an item, key
or value of it, does not meet; it describes that value; and it is a requirement of the rules: whatever the rules
accept on their own meets it, but for the exemptions. -/
def Grounds (J : JEnv) (typ : String) (f : FieldDesc) (v : Val) (reason : Reason) : Prop :=
  ∃ g e w, JTarget f v g e w ∧ ¬ JReading J e g.rules.type reason w ∧
    (∀ x, javaView e g.rules.type w = some x → Describes reason x) ∧
    ∀ u, Alike w u → fieldAlone J typ g u = .ok () →
      JExempt e g.rules.type u ∨ Overstated g.rules.type reason u ∨ JReading J e g.rules.type reason u

/-- What protoc and the generator see to: the rules of every field pass the generator's checks, and the keys of maps
are no messages. -/
def Sane (S : Schema) : Prop :=
  ∀ typ d f, S typ = .generated d → (f ∈ d.fields ∨ ∃ o ∈ d.oneofs, f ∈ o.fields) →
    Checked f ∧ ∀ k e, f.typ = .map k e → k.isEmbed = false

end PGV.Spec
