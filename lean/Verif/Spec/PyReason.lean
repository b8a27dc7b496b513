import Verif.Spec.Email
import Verif.Spec.PyPortable
import Verif.Spec.JavaBlame

/-!
What the message of a Python `ValidationFailed` says, read as a requirement on the value that the
generated code looks at.
-/

namespace PGV.Spec.PyReason
open PGV PGV.Py PGV.Spec

/-- `a == b` for values of one type: NaN equals nothing, and negative zero equals zero. -/
def Same : PItem → PItem → Prop
  | .num a, .num b => ∃ k, a.key = some k ∧ b.key = some k
  | a, b => a = b

/-- `a < b` for numbers and for seconds. -/
def Below : PItem → PItem → Prop
  | .num a, .num b => ∃ k l, a.key = some k ∧ b.key = some l ∧ k < l
  | .secs a, .secs b => a < b
  | _, _ => False

/-- What the words of a message leave open: whether a range includes its lower and its upper end, and
whether a length is in characters or in bytes. -/
structure Sense where
  low : Bool := false
  high : Bool := false
  bytes : Bool := false

/-- Between a lower and an upper end. -/
def Between (s : Sense) (l u x : PItem) : Prop :=
  (Below l x ∨ s.low = true ∧ Same x l) ∧ (Below x u ∨ s.high = true ∧ Same x u)

/-- The addresses that count as valid, see C83. -/
def EmailText (P : PEnv) (t : PStr) : Prop :=
  ∃ a, PyAddress t a ∧ P.validateEmail a = true ∧ a.length ≤ 254 ∧
    ∃ l host, AtParts a l (pstr host) ∧ l.length ≤ 64 ∧ Hostname host

/-- The text matches an expression that is known by its name, but for a newline at the end. -/
def KnownText (name : String) (t : PStr) : Prop :=
  ∃ u, (t = u ∨ t = u ++ [0x0A]) ∧
    match name with
    | "HTTP_HEADER_NAME" => ∃ r, (u = r ∨ u = 0x3A :: r) ∧ r ≠ [] ∧ ∀ c ∈ r, headerNameChar c = true
    | "HTTP_HEADER_VALUE" => ∀ c ∈ u, c = 9 ∨ (0x20 ≤ c ∧ c ≠ 0x7F)
    | "HEADER_STRING" => ∀ c ∈ u, c ≠ 0 ∧ c ≠ 0x0A ∧ c ≠ 0x0D
    | _ => False

/-- Messages that consist of words only. -/
def bareText (P : PEnv) (e : ElemT) (t : String) (x : PItem) : Prop :=
  match t with
  | "is not a valid email" => ∀ s, x = .str s → EmailText P s
  | "is not a valid address" => ∀ s, x = .str s → P.ipAddress s = true ∨ ∃ h, Hostname h ∧ s = pstr h
  | "is not a valid ip" =>
    (∀ s, x = .str s → P.ipAddress s = true) ∧ ∀ b, x = .bytes b → b.length = 4 ∨ b.length = 16
  | "is not a valid ipv4" => (∀ s, x = .str s → P.ipv4Address s = true) ∧ ∀ b, x = .bytes b → b.length = 4
  | "is not a valid ipv6" => (∀ s, x = .str s → P.ipv6Address s = true) ∧ ∀ b, x = .bytes b → b.length = 16
  | "is not a valid uri" => ∀ s, x = .str s → ∃ u, P.urlparse s = some u ∧ u.scheme = true
  | "is not a valid uri ref" => ∀ s, x = .str s → ∃ u, P.urlparse s = some u
  | "is not a valid UUID" => ∀ s, x = .str s → ∃ b, UuidOk b ∧ s = pstr b
  | "is not lesser than now" => ∀ t, x = .secs t → t < P.now
  | "is not greater than now" => ∀ t, x = .secs t → P.now < t
  | "is not defined" => ∀ i, x = .enum i → ∃ declared, e = .enum declared ∧ i ∈ declared
  | _ => True

/-- Messages that end in a value. The distance from the clock is computed in doubles. -/
def valueText (P : PEnv) (t : String) (k x : PItem) : Prop :=
  match t with
  | "not equal to " => Same x k
  | "is not equal to " => Same x k
  | "is not lesser than " => Below x k
  | "is not lesser than or equal to " => Below x k ∨ Same x k
  | "is not greater than " => Below k x
  | "is not greater than or equal to " => Below k x ∨ Same x k
  | "is not within range " =>
    ∀ w t, k = .secs w → x = .secs t → roundDouble (P.now - w) < t ∧ t < roundDouble (P.now + w)
  | "does not start with prefix " =>
    (∀ p s, k = .str p → x = .str s → p <+: s) ∧ ∀ p b, k = .bytes p → x = .bytes b → p <+: b
  | "does not end with suffix " =>
    (∀ p s, k = .str p → x = .str s → p <:+ s) ∧ ∀ p b, k = .bytes p → x = .bytes b → p <:+ b
  | "does not contain " =>
    (∀ p s, k = .str p → x = .str s → p <:+: s) ∧ ∀ p b, k = .bytes p → x = .bytes b → p <:+: b
  | "contains " => ∀ p s, k = .str p → x = .str s → ¬ p <:+: s
  | _ => True

/-- The length of a text or of bytes. -/
def lengthOf (s : Sense) : PItem → Option Nat
  | .str t => some (if s.bytes then byteLen t else t.length)
  | .bytes b => some b.length
  | _ => none

/-- Messages about a length. -/
def sizeText (s : Sense) (t : String) (n : Nat) (x : PItem) : Prop :=
  match t with
  | "length does not equal " => ∀ m, lengthOf s x = some m → m = n
  | "length is less than " => ∀ m, lengthOf s x = some m → n ≤ m
  | "length is more than " => ∀ m, lengthOf s x = some m → m ≤ n
  | "length is greater than " => ∀ m, lengthOf s x = some m → m ≤ n
  | _ => True

/-- Messages that end in a list. -/
def listText (t : String) (l : List PItem) (x : PItem) : Prop :=
  match t with
  | "not in " => ∃ k ∈ l, Same x k
  | "is not in " => ∃ k ∈ l, Same x k
  | "in " => ∀ k ∈ l, ¬ Same x k
  | _ => True

/-- The requirement that a message states of a number, a text, an enum value, a duration or a time: the opposite of
what it says. A range is printed with its upper end first. Other texts state nothing. -/
def itemReading (P : PEnv) (e : ElemT) (s : Sense) (text : Text) (x : PItem) : Prop :=
  match text with
  | [.s t] => bareText P e t x
  | [.s t, .item k] => valueText P t k x
  | [.s t, .nat n] => sizeText s t n x
  | [.s t, .items l] => listText t l x
  | [.s "is not in range ", .pair u l] => Between s l u x
  | [.s "pattern does not match ", .pattern p] => ∀ t, x = .str t → P.search p t = some true
  | [.s "pattern does not match ", .known n] => ∀ t, x = .str t → KnownText n t
  | _ => True

/-- What the generated code sees of a scalar. -/
def scalarView : Scalar → PItem
  | .num n => .num n
  | .bool b => .bool b
  | .str s => .str (pstr s)
  | .bytes b => .bytes b
  | .enum i => .enum i

/-- What the generated code looks at: the value, that inside a wrapper, the seconds of a duration or time as a
double, or the type URL of an `Any`. -/
def pyView : Val → Option PItem
  | .sc s => some (scalarView s)
  | .wrapper s => some (scalarView s)
  | .dur d => some (.secs (valueSecs d.seconds d.nanos))
  | .ts t => some (.secs (valueSecs t.seconds t.nanos))
  | .any url _ => some (.str (pstr url))
  | _ => none

/-- Equal items of a list. -/
def SameItem (v w : Val) : Prop := ∃ a b, v = .sc a ∧ w = .sc b ∧ Same (scalarView a) (scalarView b)

/-- The items of a list. -/
def items : Val → List Val
  | .list vs => vs
  | _ => []

/-- The entries of a map. -/
def entries : Val → List (Scalar × Val)
  | .map kvs => kvs
  | _ => []

/-- The type of the elements. -/
def elemOf : FieldT → ElemT
  | .one e => e
  | .rep e => e
  | .map _ e => e

/-- The requirement that a message states of a value of type `ty`. -/
def Reading (P : PEnv) (ty : FieldT) (s : Sense) (text : Text) (v : Val) : Prop :=
  match ty, text with
  | .rep _, [.s "needs to contain at least ", .nat n, .s " items"] => n ≤ (items v).length
  | .rep _, [.s "needs to contain at most ", .nat n, .s " items"] => (items v).length ≤ n
  | .rep _, [.s "must contain unique items. ", .item _, .s " has been repeated."] =>
    (items v).Pairwise fun a b => ¬ SameItem a b
  | .map _ _, [.s "needs to contain at least ", .nat n, .s " items"] => n ≤ (entries v).length
  | .map _ _, [.s "can contain at most ", .nat n, .s " items"] => (entries v).length ≤ n
  | _, [.s "is required."] => v ≠ .null
  | _, _ => ∀ x, pyView v = some x → itemReading P (elemOf ty) s text x

/-- What a message says of the value itself: which item has been repeated. -/
def Describes (text : Text) (v : Val) : Prop :=
  match text with
  | [.s "must contain unique items. ", .item k, .s " has been repeated."] =>
    ∃ a b, [a, b].Sublist (items v) ∧ SameItem a b ∧ pyView b = some k
  | _ => True

/-- Messages that compare numbers by size. NaN is neither below nor above anything, and passes. -/
def ByOrder (text : Text) : Prop :=
  ∃ t rest, text = .s t :: rest ∧ t ∈ ["is not lesser than ", "is not lesser than or equal to ", "is not greater than ",
    "is not greater than or equal to ", "is not in range "]

/-- What passes although it does not meet the requirement as stated: empty values under `ignore_empty` (for numbers,
also if it is set to false), NaN under limits, and whatever else Python's `uuid` module reads as a UUID. -/
def Exempt (P : PEnv) (t : TypeRules) (text : Text) (v : Val) : Prop :=
  (match t with
    | .num _ r => ∃ n, pyView v = some (.num n) ∧
        ((r.ignoreEmpty ≠ none ∧ n.key = some 0) ∨ (ByOrder text ∧ n.key = none))
    | .string r => (r.ignoreEmpty = some true ∧ pyView v = some (.str [])) ∨
        (text = [.s "is not a valid UUID"] ∧ ∃ s, pyView v = some (.str s) ∧ uuidOk P s = true)
    | .bytes r => r.ignoreEmpty = some true ∧ pyView v = some (.bytes [])
    | .repeated r _ => r.ignoreEmpty = some true ∧ items v = []
    | .map r _ _ => r.ignoreEmpty = some true ∧ entries v = []
    | _ => False)

/-- The lower limit is not below the upper one, which asks for values outside of the range. -/
def Inverted {α : Type} (below : α → α → Prop) (lt lte gt gte : Option α) : Prop :=
  ∃ u l, (lt = some u ∨ lte = some u) ∧ (gt = some l ∨ gte = some l) ∧ ¬ below l u

/-- Seconds of limits. -/
def DurBelow (a b : PDur) : Prop := litSecs a.seconds a.nanos < litSecs b.seconds b.nanos
@[inherit_doc DurBelow]
def TimeBelow (a b : PTime) : Prop := litSecs a.seconds a.nanos < litSecs b.seconds b.nanos

/-- Messages that do not say what is wrong: `is not in range` for rules that ask for values outside of it, "email" for
host names, "uri" for URIs without a host or without a path, "uri ref" for references to a fragment, the source
code of an expression in place of the pattern of bytes, `is not in` for durations that are in a list and should not be,
and times within a distance of the clock that are on its wrong side. -/
def Misstated (P : PEnv) (t : TypeRules) (text : Text) (v : Val) : Prop :=
  match t with
  | .num _ r => (∃ a b, text = [.s "is not in range ", .pair a b]) ∧
      Inverted (fun a b => Below (.num a) (.num b)) r.lt r.lte r.gt r.gte
  | .duration r =>
    ((∃ a b, text = [.s "is not in range ", .pair a b]) ∧ Inverted DurBelow r.lt r.lte r.gt r.gte) ∨
    (r.notIns ≠ [] ∧ text = [.s "is not in ", .items (r.notIns.map fun d => .secs (litSecs d.seconds d.nanos))])
  | .timestamp r =>
    ((∃ a b, text = [.s "is not in range ", .pair a b]) ∧ Inverted TimeBelow r.lt r.lte r.gt r.gte) ∨
    ((r.ltNow ≠ none ∨ r.gtNow ≠ none) ∧ ∃ w, text = [.s "is not within range ", .item w])
  | .string r =>
    (r.wellKnown = some (.hostname true) ∧ text = [.s "is not a valid email"]) ∨
    (r.wellKnown = some (.uri true) ∧ text = [.s "is not a valid uri"] ∧
      ∃ s u, pyView v = some (.str s) ∧ P.urlparse s = some u ∧ u.scheme = true) ∨
    (r.wellKnown = some (.uriRef true) ∧ text = [.s "is not a valid uri ref"])
  | .bytes _ => text = [.s "pattern does not match b['pattern'].encode('unicode-escape')"]
  | _ => False

/-- The places that a message can be about. -/
inductive Spot
  | whole
  | item
  | key
  | value
  deriving DecidableEq

/-- `Target f spot v ty t w`: at that place of the value `v` of the field `f` there is `w`, of type `ty`, with the
rules `t`. -/
inductive Target (f : FieldDesc) : Spot → Val → FieldT → TypeRules → Val → Prop
  | whole {v} : Target f .whole v f.typ f.rules.type v
  | item {e v rules w} : f.typ = .rep e → itemRules f.rules = some rules → w ∈ items v →
      Target f .item v (.one e) rules.type w
  | key {kt e v key w r keys values} : f.typ = .map kt e → f.rules.type = .map r keys values → (key, w) ∈ entries v →
      Target f .key v (.one kt) keys.type (.sc key)
  | value {kt e v key rules w} : f.typ = .map kt e → valueRules f.rules = some rules → (key, w) ∈ entries v →
      Target f .value v (.one e) rules.type w

/-- How a message calls the place: fields by the expression for them, wrapped values likewise, and message fields
that are required but absent by their name; items and keys have no better name than `item` and `key`. -/
def Names (f : FieldDesc) (n : String) (text : Text) (w : Val) : Spot → Prop
  | .whole => n = "p." ++ f.name ∨ (n = "p." ++ f.name ++ ".value" ∧ ∃ s, w = .wrapper s) ∨
      (n = f.name ∧ text = [.s "is required."])
  | .item => n = "item"
  | .key => n = "key"
  | .value => n = "p." ++ f.name ++ "[key]"

/-- The same libraries, with every validator of other types accepting. -/
def lenient (P : PEnv) : PEnv := { P with other := fun _ => .ok () }

/-- Python accepts the value `v` in the field `f` of the type `typ`, when there are no other rules. -/
def Alone (P : PEnv) (typ : String) (f : FieldDesc) (v : Val) : Prop :=
  PGV.Spec.Python.PyAccepts (lenient P) (soleField typ f) typ f v

/-- Python's `validate` raises `ValidationFailed` with this message for the value `v` in the field `f` of the type
`typ`, when there are no other rules. -/
def Raises (P : PEnv) (typ : String) (f : FieldDesc) (v : Val) (n : String) (text : Text) : Prop :=
  Py.validate P (soleField typ f) (.msg typ [(f.name, v)] []) = .error (.failed n text)

/-- `Grounds P typ f v n text`: the message with the name `n` and the text `text` is about a place in the value `v` of
the field `f`, and calls it by its name; and it states a requirement that the value at that place does not meet and
that is one of the rules: what the rules of the field accept, on their own, meets it at every such place, but for the
exemptions. Or else it is one of the messages that do not say what is wrong, or about the items of a list or the
values of a map, which pass for absent when they are required. -/
def Grounds (P : PEnv) (typ : String) (f : FieldDesc) (v : Val) (n : String) (text : Text) : Prop :=
  ∃ spot ty t w, Target f spot v ty t w ∧ Names f n text w spot ∧
    (Misstated P t text w ∨ (spot ≠ .whole ∧ text = [.s "is required."]) ∨
      ∃ s, ¬ Reading P ty s text w ∧ Describes text w ∧
        ∀ u w', Alone P typ f u → Target f spot u ty t w' → Exempt P t text w' ∨ Reading P ty s text w')

/-- The fields of a message that count: those outside oneofs, and the set members of oneofs. -/
inductive Live (d : MsgDesc) (fs : List (String × Val)) (os : List (String × String × Val)) : FieldDesc → Val → Prop
  | field {f} : f ∈ d.fields → Live d fs os f (getField fs f)
  | member {o f v} : o ∈ d.oneofs → f ∈ o.fields → os.lookup o.name = some (f.name, v) → Live d fs os f v

/-- `Inside S v w`: the message `v` is, or embeds at some depth and without `skip`, the message `w`. -/
inductive Inside (S : Schema) : Val → Val → Prop
  | self (v : Val) : Inside S v v
  | inner {typ fs os d f v i rules w u} : S typ = .generated d → d.disabled = false → d.ignored = false →
      Live d fs os f v → HeldBy f v i rules w → msgSkip rules.message = false → Inside S w u →
      Inside S (.msg typ fs os) u

/-- The message is of a type with rules. -/
def Ruled (S : Schema) (w : Val) : Prop := ∃ typ fs os d, w = .msg typ fs os ∧ S typ = .generated d

end PGV.Spec.PyReason
