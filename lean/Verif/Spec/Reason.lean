import Verif.Spec.Rules
import Verif.Spec.Range
import Verif.Spec.Nesting

/-!
What the reason in a Go violation says, read as a requirement on a value. Texts such as "value does
not have prefix x" describe the violation; the requirement is then the opposite, to have the prefix.
-/

namespace PGV.Spec
open PGV PGV.Go

/-- A wrapper message is read like the value it wraps. -/
def content : Val → Val
  | .wrapper s => .sc s
  | v => v

/-- What a printed limit stands for: the number, nanoseconds, nanoseconds since the epoch. -/
def limit : Piece → Option Int
  | .num n => numVal n
  | .dur d => some d.exact
  | .ts t => some (instant t)
  | _ => none

/-- The value as a number of the same unit. A NaN is no such number. Durations count as Go's
`time.Duration` (C24). -/
def amount : Val → Option Int
  | .sc (.num n) => numVal n
  | .dur d => some d.asDuration
  | .ts t => some (instant t)
  | _ => none

/-- "value must equal k". -/
def EqualTo : Piece → Val → Prop
  | .num k, .sc (.num n) => numSame n k
  | .bool k, .sc (.bool b) => b = k
  | .bytes k, .sc (.str s) => s = k
  | .bytes k, .sc (.bytes s) => s = k
  | .int k, .sc (.enum i) => i = k
  | .dur k, .dur d => d.asDuration = k.exact
  | .ts k, .ts t => instant t = instant k
  | _, _ => True

/-- The value is in the printed list. `none`: the value is not of the kind of the list. -/
def listed : Piece → Val → Option Prop
  | .nums l, .sc (.num n) => some (∃ k ∈ l, numSame n k)
  | .bytess l, .sc (.str s) => some (s ∈ l)
  | .bytess l, .sc (.bytes s) => some (s ∈ l)
  | .bytess l, .any url _ => some (url ∈ l)
  | .ints l, .sc (.enum i) => some (i ∈ l)
  | .durs l, .dur d => some (∃ k ∈ l, d.asDuration = k.asDuration)
  | _, _ => none

/-- The bytes of a string or bytes value. -/
def textOf : Val → Option Bytes
  | .sc (.str s) => some s
  | .sc (.bytes s) => some s
  | _ => none

/-- The size of a value, in the unit that ends the text. -/
def size : String → Val → Option Nat
  | " runes", .sc (.str s) => some (runeCount s)
  | " bytes", .sc (.str s) => some s.length
  | " bytes", .sc (.bytes s) => some s.length
  | " item(s)", .list vs => some vs.length
  | " pair(s)", .map kvs => some kvs.length
  | " runes, inclusive", .sc (.str s) => some (runeCount s)
  | " bytes, inclusive", .sc (.str s) => some s.length
  | " bytes, inclusive", .sc (.bytes s) => some s.length
  | " items, inclusive", .list vs => some vs.length
  | " pairs, inclusive", .map kvs => some kvs.length
  | _, _ => none

/-- Texts that mention nothing but the kind of requirement. -/
def bareReading (E : Env) (e : ElemT) (t : String) (v : Val) : Prop :=
  match t with
  | "value is required" => v ≠ .null
  | "value is required and must not be nil." => v ≠ .null
  | "value cannot be sparse, all pairs must be non-nil" => v ≠ .null
  | "repeated value must contain unique items" =>
    ∀ vs, v = .list vs → vs.Pairwise fun a b => ¬ SameItem a b
  | "value must be a valid IP address" =>
    (∀ s, v = .sc (.str s) → ∃ ip, E.parseIP s = some ip) ∧ (∀ s, v = .sc (.bytes s) → IPBytes s)
  | "value must be a valid IPv4 address" =>
    (∀ s, v = .sc (.str s) → ∃ ip, E.parseIP s = some ip ∧ IPv4Bytes ip) ∧
    (∀ s, v = .sc (.bytes s) → IPv4Bytes s)
  | "value must be a valid IPv6 address" =>
    (∀ s, v = .sc (.str s) → ∃ ip, E.parseIP s = some ip ∧ ¬ IPv4Bytes ip) ∧
    (∀ s, v = .sc (.bytes s) → IPBytes s ∧ ¬ IPv4Bytes s)
  | "value must be a valid email address" => ∀ s, v = .sc (.str s) → EmailOk E s
  | "value must be a valid hostname" => ∀ s, v = .sc (.str s) → HostnameOk (goLower E) s
  | "value must be a valid hostname, or ip address" =>
    ∀ s, v = .sc (.str s) → HostnameOk (goLower E) s ∨ ∃ ip, E.parseIP s = some ip
  | "value must be a valid URI" => ∀ s, v = .sc (.str s) → ∃ a, E.parseURL s = .ok a
  | "value must be absolute" => ∀ s, v = .sc (.str s) → E.parseURL s = .ok true
  | "value must be a valid UUID" => ∀ s, v = .sc (.str s) → UuidOk s
  | "value must be one of the defined enum values" =>
    ∀ l i, e = .enum l → v = .sc (.enum i) → i ∈ l
  | "value is not a valid duration" => ∀ d, v = .dur d → ValidDuration d
  | "value is not a valid timestamp" => ∀ t, v = .ts t → ValidTimestamp t
  | "value must be less than now" => ∀ x, amount v = some x → x < E.now
  | "value must be greater than now" => ∀ x, amount v = some x → E.now < x
  | _ => True

/-- Texts that end in a value. -/
def valueReading (E : Env) (t : String) (k : Piece) (v : Val) : Prop :=
  match t with
  | "value must equal " => EqualTo k v
  | "value must be less than " => ∀ x b, amount v = some x → limit k = some b → x < b
  | "value must be less than or equal to " => ∀ x b, amount v = some x → limit k = some b → x ≤ b
  | "value must be greater than " => ∀ x b, amount v = some x → limit k = some b → b < x
  | "value must be greater than or equal to " => ∀ x b, amount v = some x → limit k = some b → b ≤ x
  | "value must be in list " => ∀ P, listed k v = some P → P
  | "value must not be in list " => ∀ P, listed k v = some P → ¬ P
  | "type URL must be in list " => ∀ P, listed k v = some P → P
  | "type URL must not be in list " => ∀ P, listed k v = some P → ¬ P
  | "value does not have prefix " => ∀ p s, k = .bytes p → textOf v = some s → p <+: s
  | "value does not have suffix " => ∀ p s, k = .bytes p → textOf v = some s → p <:+ s
  | "value does not contain substring " => ∀ p s, k = .bytes p → textOf v = some s → p <:+: s
  | "value does not contain " => ∀ p s, k = .bytes p → textOf v = some s → p <:+: s
  | "value contains substring " => ∀ p s, k = .bytes p → textOf v = some s → ¬ p <:+: s
  | "value does not match regex pattern " =>
    ∀ p s, k = .bytes p → textOf v = some s → E.matchRe p s = true
  | "value must be less than now within " =>
    ∀ x b, amount v = some x → limit k = some b → E.now - b ≤ x ∧ x < E.now
  | "value must be greater than now within " =>
    ∀ x b, amount v = some x → limit k = some b → E.now < x ∧ x ≤ E.now + b
  | _ => True

/-- Texts about one size. -/
def sizeReading (t : String) (n : Nat) (u : String) (v : Val) : Prop :=
  match t with
  | "value length must be " => ∀ k, size u v = some k → k = n
  | "value length must be at least " => ∀ k, size u v = some k → n ≤ k
  | "value length must be at most " => ∀ k, size u v = some k → k ≤ n
  | "value must contain exactly " => ∀ k, size u v = some k → k = n
  | "value must contain at least " => ∀ k, size u v = some k → n ≤ k
  | "value must contain no more than " => ∀ k, size u v = some k → k ≤ n
  | _ => True

/-- Texts about two limits, in the notation of intervals. A limit that is NaN limits nothing. -/
def rangeReading (t : String) (a b : Piece) (u : String) (v : Val) : Prop :=
  let above := ∀ x y, amount v = some x → limit a = some y → y < x
  let atLeast := ∀ x y, amount v = some x → limit a = some y → y ≤ x
  let below := ∀ x y, amount v = some x → limit b = some y → x < y
  let atMost := ∀ x y, amount v = some x → limit b = some y → x ≤ y
  match t, u with
  | "value must be inside range (", ")" => above ∧ below
  | "value must be inside range (", "]" => above ∧ atMost
  | "value must be inside range [", ")" => atLeast ∧ below
  | "value must be inside range [", "]" => atLeast ∧ atMost
  | "value must be outside range (", ")" =>
    ∀ x l r, amount v = some x → limit a = some l → limit b = some r → ¬ (l < x ∧ x < r)
  | "value must be outside range (", "]" =>
    ∀ x l r, amount v = some x → limit a = some l → limit b = some r → ¬ (l < x ∧ x ≤ r)
  | "value must be outside range [", ")" =>
    ∀ x l r, amount v = some x → limit a = some l → limit b = some r → ¬ (l ≤ x ∧ x < r)
  | "value must be outside range [", "]" =>
    ∀ x l r, amount v = some x → limit a = some l → limit b = some r → ¬ (l ≤ x ∧ x ≤ r)
  | _, _ => True

/-- The requirement that a reason states, for a value of type `e`. Other texts state nothing. -/
def Reading (E : Env) (e : ElemT) (reason : List Piece) (v : Val) : Prop :=
  match reason with
  | [.s t] => bareReading E e t (content v)
  | [.s t, k] => valueReading E t k (content v)
  | [.s t, .nat n, .s u] => sizeReading t n u (content v)
  | [.s "value must be within ", .dur w, .s " of now"] =>
    ∀ x, amount (content v) = some x → E.now - w.exact < x ∧ x < E.now + w.exact
  | [.s "value length must be between ", .nat a, .s " and ", .nat b, .s u] =>
    ∀ k, size u (content v) = some k → a ≤ k ∧ k ≤ b
  | [.s "value must contain between ", .nat a, .s " and ", .nat b, .s u] =>
    ∀ k, size u (content v) = some k → a ≤ k ∧ k ≤ b
  | [.s t, a, .s ", ", b, .s u] => rangeReading t a b u (content v)
  | _ => True

/-- Empty values, which `ignore_empty` exempts from the rules. -/
def Exempt (t : TypeRules) (v : Val) : Prop :=
  match t with
  | .num _ r => r.ignoreEmpty = some true ∧ amount (content v) = some 0
  | .string r => r.ignoreEmpty = some true ∧ textOf (content v) = some []
  | .bytes r => r.ignoreEmpty = some true ∧ textOf (content v) = some []
  | .repeated r _ => r.ignoreEmpty = some true ∧ v = .list []
  | .map r _ _ => r.ignoreEmpty = some true ∧ v = .map []
  | _ => False

/-- Two values that one field could hold: of one kind, or absent. -/
def Alike : Val → Val → Prop
  | .sc (.num _), .sc (.num _) => True
  | .sc (.bool _), .sc (.bool _) => True
  | .sc (.str _), .sc (.str _) => True
  | .sc (.bytes _), .sc (.bytes _) => True
  | .sc (.enum _), .sc (.enum _) => True
  | .wrapper (.num _), .wrapper (.num _) => True
  | .wrapper (.bool _), .wrapper (.bool _) => True
  | .wrapper (.str _), .wrapper (.str _) => True
  | .wrapper (.bytes _), .wrapper (.bytes _) => True
  | .dur _, .dur _ => True
  | .ts _, .ts _ => True
  | .any _ _, .any _ _ => True
  | .list _, .list _ => True
  | .map _, .map _ => True
  | .null, _ => True
  | _, .null => True
  | _, _ => False

/-- `Target … v i e t ok w`: an error of field `f`, whose value is `v`, with index or key `i`, can be
about `w`, of type `e`, with rules `t`, which are met when `ok`. The index of a wrapper message in a
list or map is not reported. -/
inductive Target (E : Env) (S : Schema) (valid : Val → Prop) (f : FieldDesc) :
    Val → Option Idx → ElemT → TypeRules → (Val → Prop) → Val → Prop
  | field {e v} : f.typ = .one e →
      Target E S valid f v none e f.rules.type (ValueOk E S valid e f.rules) v
  | item {e vs n rules w} : f.typ = .rep e → itemRules f.rules = some rules → vs[n]? = some w →
      Target E S valid f (.list vs) (some (.pos n)) e rules.type (ValueOk E S valid e rules) w
  | wrappedItem {e vs rules s} {n : Nat} : f.typ = .rep e → itemRules f.rules = some rules →
      vs[n]? = some (Val.wrapper s) →
      Target E S valid f (.list vs) none e rules.type (ValueOk E S valid e rules) (.wrapper s)
  | value {kt e kvs key rules w} : f.typ = .map kt e → valueRules f.rules = some rules →
      (key, w) ∈ kvs →
      Target E S valid f (.map kvs) (some (.key key)) e rules.type (ValueOk E S valid e rules) w
  | wrappedValue {kt e kvs key rules s} : f.typ = .map kt e → valueRules f.rules = some rules →
      (key, Val.wrapper s) ∈ kvs →
      Target E S valid f (.map kvs) none e rules.type (ValueOk E S valid e rules) (.wrapper s)
  | key {kt e kvs key w r keys values} : f.typ = .map kt e → f.rules.type = .map r keys values →
      (key, w) ∈ kvs →
      Target E S valid f (.map kvs) (some (.key key)) kt keys.type
        (fun u => ∀ k, u = .sc k → ScalarOk E kt keys.type k) (.sc key)
  | sparse {kt e kvs key w r keys values} : f.typ = .map kt e → f.rules.type = .map r keys values →
      r.noSparse = some true → (key, w) ∈ kvs →
      Target E S valid f (.map kvs) (some (.key key)) e .unset (· ≠ .null) w
  | list {e vs} : f.typ = .rep e →
      Target E S valid f (.list vs) none e f.rules.type (FieldOk E S valid f) (.list vs)
  | duplicate {e vs m n u w} : f.typ = .rep e → m < n → vs[m]? = some u → vs[n]? = some w →
      SameItem u w →
      Target E S valid f (.list vs) (some (.pos n)) e f.rules.type (FieldOk E S valid f) (.list vs)
  | map {kt e kvs} : f.typ = .map kt e →
      Target E S valid f (.map kvs) none e f.rules.type (FieldOk E S valid f) (.map kvs)

/-- The error `x` is `e`, or one of those collected in `e` if `e` is a multi-error. -/
inductive Reported (x : Err) : Err → Prop
  | alone : (∀ n es, x ≠ .multi n es) → Reported x x
  | among {n es} : x ∈ es → Reported x (.multi n es)

end PGV.Spec
