import Verif.Java.Lib
import Verif.Java.Literal
import Verif.Spec.JavaLiteral
import Verif.Go.Validate

/-!
The Java code the generator emits (templates/java): what `assertValid` of a generated validator
does. Strings and patterns in rules are what the literals written for them denote (Java/Literal.lean); numbers, bytes
and times are taken at their rule values (`litCompiles`, `secCompiles` in Java/Lib.lean say when these literals compile;
for bytes C74 says that they denote them).
-/

namespace PGV.Java
open PGV
open PGV.Go (resolve Resolved elemTypNotNone depth)

/-- What Java validators call outside this project, and the clock
(the calls are in java/pgv-java-stub/src/main/java/io/envoyproxy/pgv/StringValidation.java and TimestampValidation.java:42). -/
structure JEnv where
  /-- `System.currentTimeMillis()`; one reading per run (the real code reads it per rule). -/
  nowMs : Int
  /-- The generator's `strconv.IsPrint`, on which the literals of patterns depend. -/
  isPrint : Nat → Bool
  /-- `com.google.re2j.Pattern.matches`: the whole subject must match. -/
  matches_ : Bytes → JString → Bool
  /-- commons-validator `EmailValidator.isValid` (StringValidation.java:121). -/
  email : JString → Bool
  /-- commons-validator `DomainValidator.isValid` (StringValidation.java:127,141). -/
  domain : JString → Bool
  /-- `InetAddressValidator.isValid` and its two variants. -/
  ip : JString → Bool
  ipv4 : JString → Bool
  ipv6 : JString → Bool
  /-- `new URI(value)`: syntax error, or whether the result is absolute. -/
  uri : JString → Option Bool
  /-- Validators for message types that have no validator generated here (an index's fallback). -/
  other : Val → Run
  /-- Iteration orders of `keySet()` and `values()` of a map. -/
  order : List (Scalar × Val) → List (Scalar × Val)
  /-- Every entry is visited exactly once. -/
  order_perm : ∀ l, (order l).Perm l
  /-- What Go's `fmt` prints between the braces of a field descriptor; it contains pointers (wrapper.go:11). -/
  printed : String → String

/-- The loop of `email` over the characters from the last but one to the first: it collects characters
until a `<` outside quotes (StringValidation.java:108-117). -/
def cutLoop : Bool → JString → JString
  | _, [] => []
  | insideQuotes, c :: rest =>
    if c = 0x3C then
      if !insideQuotes then [] else c :: cutLoop insideQuotes rest
    else if c = 0x22 then c :: cutLoop (!insideQuotes) rest
    else c :: cutLoop insideQuotes rest

/-- The second pass of the JDK's `StringBuilder.reverse()` (called in StringValidation.java:118): a low
surrogate followed by a high one changes places with it. -/
def swapPairs : JString → JString
  | a :: b :: rest =>
    if isLow a && isHigh b then b :: a :: swapPairs rest else a :: swapPairs (b :: rest)
  | l => l

/-- The value that `email` hands to the library (StringValidation.java:105-119). -/
def emailAddress (v : JString) : JString :=
  if !v.isEmpty && v.getLast? == some 0x3E then swapPairs (cutLoop false v.dropLast.reverse).reverse
  else v

/-- `email` does not throw (StringValidation.java:104-124). -/
def emailValid (J : JEnv) (v : JString) : Bool := J.email (emailAddress v)

/-- `isAscii` (StringValidation.java:215-222). -/
def isAscii (v : JString) : Bool := v.all fun c => !decide (c > 127)

/-- `hostName` does not throw, and the host part of `address` (StringValidation.java:126-144). -/
def hostName (J : JEnv) (v : JString) : Bool := isAscii v && J.domain v

/-- The comparator of numbers never throws (templates/java/num.go:36-56). -/
def numCmp : Cmp JNum := fun a b => .ok (jcmp a b)

/-- The range part shared by numTpl (templates/java/num.go:41-57), durationTpl
(templates/java/duration.go:46-62) and timestampTpl (templates/java/timestamp.go:31-47). -/
def ltgt {α : Type} [Shown α] (f : String) (lt lte gt gte : Option α) (c : Cmp α) (v : α) : Run :=
  if (lt.isSome || lte.isSome) && (gt.isSome || gte.isSome) then range f v lt lte gt gte c
  else
    (match lt with | some b => lessThan f v b c | none => .ok ()) ⊳
    (match lte with | some b => lessThanOrEqual f v b c | none => .ok ()) ⊳
    (match gt with | some b => greaterThan f v b c | none => .ok ()) ⊳
    (match gte with | some b => greaterThanOrEqual f v b c | none => .ok ())

/-- A rule with an optional limit (templates/java/num.go:36-56). -/
def withOpt {α : Type} (o : Option α) (k : α → Run) : Run :=
  match o with
  | some a => k a
  | none => .ok ()

/-- templates/java/num.go:34-66 (numTpl). -/
def numTpl (f : String) (k : NumKind) (r : NumRules) (n : Num) : Run :=
  let v := jnum k n
  let body :=
    withOpt r.const (fun c => constant f v (jnum k c) jeq) ⊳
    ltgt f (r.lt.map (jnum k)) (r.lte.map (jnum k)) (r.gt.map (jnum k)) (r.gte.map (jnum k)) numCmp v ⊳
    when (!r.ins.isEmpty) (isIn f v (r.ins.map (jnum k)) jeq) ⊳
    when (!r.notIns.isEmpty) (notIn f v (r.notIns.map (jnum k)) jeq)
  if optB r.ignoreEmpty then when (jnonzero v) body else body

/-- templates/java/bool.go:3-6 (boolTpl). -/
def boolTpl (f : String) (r : BoolRules) (b : Bool) : Run :=
  withOpt r.const fun c => constant f b c (· == ·)

/-- The length rules of templates/java/string.go:35-52. -/
def strLen (f : String) (r : StringRules) (s : JString) : Run :=
  withOpt r.len (fun n => check (codePointCount s == n) f
    [.s "length must be ", .nat n, .s " but got: ", .nat (codePointCount s)]) ⊳
  withOpt r.minLen (fun n => check (!decide (codePointCount s < n)) f
    [.s "length must be at least ", .nat n, .s " but got: ", .nat (codePointCount s)]) ⊳
  withOpt r.maxLen (fun n => check (!decide (codePointCount s > n)) f
    [.s "length must be at most ", .nat n, .s " but got: ", .nat (codePointCount s)]) ⊳
  withOpt r.lenBytes (fun n => check ((getBytes s).length == n) f [.s "bytes length must be ", .nat n]) ⊳
  withOpt r.minBytes (fun n => check (!decide ((getBytes s).length < n)) f
    [.s "bytes length must be at least ", .nat n]) ⊳
  withOpt r.maxBytes (fun n => check (!decide ((getBytes s).length > n)) f [.s "bytes length must be at most ", .nat n])

/-- The string that a literal written for a string rule denotes (templates/java/string.go:7,14,27,57-66, any.go:7,14).
Literals that do not compile denote nothing. -/
def constStr (s : Bytes) : JString := jstr ((Spec.javaString (rawString s)).getD [])

/-- The pattern that the literal written for it denotes (templates/java/string.go:19, bytes.go:22). -/
def patternText (J : JEnv) (p : Bytes) : Bytes := (Spec.javaString (javaStringEscape J.isPrint p)).getD []

/-- The pattern and affix rules of templates/java/string.go:53-67. -/
def strAffix (J : JEnv) (f : String) (r : StringRules) (s : JString) : Run :=
  withOpt r.pattern (fun p => check (J.matches_ (patternText J p) s) f
    [.s "must match pattern ", .item (.bytes (patternText J p))]) ⊳
  withOpt r.pfx (fun p => check (startsWith s (constStr p)) f [.s "should start with ", shown (constStr p)]) ⊳
  withOpt r.contains (fun p => check (jcontains (constStr p) s) f [.s "should contain ", shown (constStr p)]) ⊳
  withOpt r.notContains (fun p => check (!jcontains (constStr p) s) f [.s "should not contain ", shown (constStr p)]) ⊳
  withOpt r.sfx (fun p => check (endsWith s (constStr p)) f [.s "should end with ", shown (constStr p)])

/-- The well-known formats of templates/java/string.go:68-94. `well_known_regex` has no Java rule
of its own: it acts through the pattern the generator stored. -/
def strWellKnown (J : JEnv) (f : String) (r : StringRules) (s : JString) : Run :=
  when r.getEmail (check (emailValid J s) f "should be a valid email") ⊳
  when r.getAddress (check (hostName J s || J.ip s) f "should be a valid host, or an ip address.") ⊳
  when r.getHostname (check (isAscii s) f "should be a valid host containing only ascii characters" ⊳
    check (J.domain s) f "should be a valid host") ⊳
  when r.getIp (check (J.ip s) f "should be a valid ip address") ⊳
  when r.getIpv4 (check (J.ipv4 s) f "should be a valid ipv4 address") ⊳
  when r.getIpv6 (check (J.ipv6 s) f "should be a valid ipv6 address") ⊳
  when r.getUri (check (J.uri s == some true) f "should be a valid absolute uri") ⊳
  when r.getUriRef (check (J.uri s).isSome f "should be a valid absolute uri") ⊳
  when r.getUuid (uuid f s)

/-- templates/java/string.go:22-98 (stringTpl). -/
def stringTpl (J : JEnv) (f : String) (r : StringRules) (b : Bytes) : Run :=
  let s := jstr b
  let body :=
    withOpt r.const (fun c => constant f s (constStr c) (· == ·)) ⊳
    when (!r.ins.isEmpty) (isIn f s (r.ins.map constStr) (· == ·)) ⊳
    when (!r.notIns.isEmpty) (notIn f s (r.notIns.map constStr) (· == ·)) ⊳
    strLen f r s ⊳ strAffix J f r s ⊳ strWellKnown J f r s
  if optB r.ignoreEmpty then when (!s.isEmpty) body else body

/-- templates/java/bytes.go:35-80 (bytesTpl) with BytesValidation.java:16-75. An absent affix is a
nil slice, which the template tests as false, and so is an empty one. -/
def bytesTpl (J : JEnv) (f : String) (r : BytesRules) (b : Bytes) : Run :=
  let body :=
    (if optS r.const = [] then .ok () else constant f b (optS r.const) (· == ·)) ⊳
    withOpt r.len (fun n => check (b.length == n) f [.s "length must be ", .nat n]) ⊳
    withOpt r.minLen (fun n => check (!decide (b.length < n)) f [.s "length must be at least ", .nat n]) ⊳
    withOpt r.maxLen (fun n => check (!decide (b.length > n)) f [.s "length must be at most ", .nat n]) ⊳
    withOpt r.pattern (fun p => check (J.matches_ (patternText J p) (jstr b)) f
      [.s "must match pattern ", .item (.bytes (patternText J p))]) ⊳
    (if optS r.pfx = [] then .ok () else check ((optS r.pfx).isPrefixOf b) f
      [.s "should start with ", shown (optS r.pfx)]) ⊳
    (if optS r.contains = [] then .ok () else check (jcontains (optS r.contains) b) f
      [.s "should contain ", shown (optS r.contains)]) ⊳
    (if optS r.sfx = [] then .ok ()
      else check ((optS r.sfx).reverse.isPrefixOf b.reverse) f [.s "should end with ", shown (optS r.sfx)]) ⊳
    when r.getIp (check (b.length == 4 || b.length == 16) f [.s "should be valid ip address ", shown b]) ⊳
    when r.getIpv4 (check (b.length == 4) f [.s "should be valid ipv4 address ", shown b]) ⊳
    when r.getIpv6 (check (b.length == 16) f [.s "should be valid ipv6 address ", shown b]) ⊳
    when (!r.ins.isEmpty) (isIn f b r.ins (· == ·)) ⊳
    when (!r.notIns.isEmpty) (notIn f b r.notIns (· == ·))
  if optB r.ignoreEmpty then when (!b.isEmpty) body else body

/-- templates/java/enum.go:20-33 (enumTpl). -/
def enumTpl (f : String) (declared : List Int) (r : EnumRules) (n : Int) : Run :=
  let v := jenum declared n
  withOpt r.const (fun c => enumConstant f v (forNumber declared c)) ⊳
  when (optB r.definedOnly) (definedOnly f v) ⊳
  when (!r.ins.isEmpty)
    (check ((r.ins.map (forNumber declared)).any (enumEq v)) f
      [.s "must be in ", .items (r.ins.map fun n => .enum (forNumber declared n))]) ⊳
  when (!r.notIns.isEmpty)
    (check (!(r.notIns.map (forNumber declared)).any (enumEq v)) f
      [.s "must not be in ", .items (r.notIns.map fun n => .enum (forNumber declared n))])

/-- templates/java/any.go:20-28 (anyTpl) with required.go:3-11; `none` is an absent message. -/
def anyTpl (f : String) (r : AnyRules) (url : Option Bytes) : Run :=
  when (optB r.required) (required f url.isSome) ⊳
  match url with
  | none => .ok ()
  | some u =>
    when (!r.ins.isEmpty) (isIn f (jstr u) (r.ins.map constStr) (· == ·)) ⊳
    when (!r.notIns.isEmpty) (notIn f (jstr u) (r.notIns.map constStr) (· == ·))

/-- templates/java/duration.go:37-62 (durationTpl). `equals` compares seconds and nanos. -/
def durationTpl (f : String) (r : DurationRules) (d : Option PDur) : Run :=
  when (optB r.required) (required f d.isSome) ⊳
  match d with
  | none => .ok ()
  | some d =>
    withOpt r.const (fun c => constant f d c (· == ·)) ⊳
    ltgt f r.lt r.lte r.gt r.gte durCmp d ⊳
    when (!r.ins.isEmpty) (isIn f d r.ins (· == ·)) ⊳
    when (!r.notIns.isEmpty) (notIn f d r.notIns (· == ·))

/-- templates/java/timestamp.go:23-54 (timestampTpl). `lt_now` and `gt_now` are tested as pointers:
their presence counts, whatever their value. -/
def timestampTpl (J : JEnv) (f : String) (r : TimestampRules) (t : Option PTime) : Run :=
  when (optB r.required) (required f t.isSome) ⊳
  match t with
  | none => .ok ()
  | some t =>
    withOpt r.const (fun c => constant f t c (· == ·)) ⊳
    ltgt f r.lt r.lte r.gt r.gte tsCmp t ⊳
    when r.ltNow.isSome (lessThan f t (fromMillis J.nowMs) tsCmp) ⊳
    when r.gtNow.isSome (greaterThan f t (fromMillis J.nowMs) tsCmp) ⊳
    withOpt r.within (fun d => within f t d (fromMillis J.nowMs))

/-- Templates for scalar values; the kinds always fit in code that compiles (templates/shared/context.go:119-177). -/
def scalarTpl (J : JEnv) (f : String) (e : ElemT) (t : TypeRules) (v : Scalar) : Run :=
  match t, v with
  | .num k r, .num n => numTpl f k r n
  | .bool r, .bool b => boolTpl f r b
  | .string r, .str s => stringTpl J f r s
  | .bytes r, .bytes b => bytesTpl J f r b
  | .enum r, .enum i =>
    match e with
    | .enum declared => enumTpl f declared r i
    | _ => .ok ()
  | _, _ => .ok ()

/-- Is the value an absent message? (templates/java/register.go:317-324). -/
def isNull : Val → Bool
  | .null => true
  | _ => false

/-- templates/java/message.go:3-13 (messageTpl): `skip` also drops `required`. `rec v` is
`index.validatorFor(v).assertValid(v)`. -/
def messageTpl (rec : Val → Run) (f : String) (m : Option MessageRules) (v : Val) : Run :=
  if msgSkip m then .ok ()
  else when (msgRequired m) (required f (!isNull v)) ⊳ when (!isNull v) (rec v)

/-- `{{ $f }}` of templates/java/wrapper.go:11: the field's descriptor, a Go struct, as `fmt` prints it (other
templates write `{{ $f.FullyQualifiedName }}`). -/
def printedField (J : JEnv) (f : String) : String := "{" ++ J.printed f ++ "}"

/-- templates/java/wrapper.go:6-12 (wrapperTpl). -/
def wrapperTpl (J : JEnv) (f : String) (e : ElemT) (t : TypeRules) (m : Option MessageRules)
    (v : Val) : Run :=
  match v with
  | .wrapper s => scalarTpl J f e t s
  | .null => when (msgRequired m) (.error (.validation (printedField J f) "is required"))
  | _ => .ok ()

/-- Rendering of an element context (templates/java/repeated.go:19; map.go:25,28). -/
def elemTpl (J : JEnv) (rec : Val → Run) (f : String) (e : ElemT) (rules : FieldRules) (v : Val) :
    Run :=
  match resolve e rules with
  | .none => .ok ()
  | .message m => messageTpl rec f m v
  | .wrapper t m => wrapperTpl J f e t m v
  | .plain t =>
    match t, v with
    | .any r, .any url _ => anyTpl f r (some url)
    | .any r, .null => anyTpl f r none
    | .duration r, .dur d => durationTpl f r (some d)
    | .duration r, .null => durationTpl f r none
    | .timestamp r, .ts t => timestampTpl J f r (some t)
    | .timestamp r, .null => timestampTpl J f r none
    | t, .sc s => scalarTpl J f e t s
    | _, _ => .ok ()

/-- `equals` on the elements of a repeated field that may carry `unique` (the checker refuses it on
messages). The kind of a number is given by the element type
(called in java/pgv-java-stub/src/main/java/io/envoyproxy/pgv/RepeatedValidation.java:26-34). -/
def itemEq (e : ElemT) : Val → Val → Bool
  | .sc (.num a), .sc (.num b) =>
    match e with
    | .scalar k => jeq (jnum k a) (jnum k b)
    | _ => false
  | .sc (.bool a), .sc (.bool b) => a == b
  | .sc (.str a), .sc (.str b) => jstr a == jstr b
  | .sc (.bytes a), .sc (.bytes b) => a == b
  | .sc (.enum a), .sc (.enum b) =>
    match e with
    | .enum declared => jenum declared a == jenum declared b
    | _ => false
  | _, _ => false

/-- templates/java/repeated.go:5-24 (repeatedTpl). The counts are tested with `{{ if }}`, so zero is
the same as absent. -/
def repeatedTpl (J : JEnv) (rec : Val → Run) (f : String) (e : ElemT) (r : RepeatedRules)
    (items : FieldRules) (vs : List Val) : Run :=
  let body :=
    when (optN r.minItems != 0) (minItems f vs.length (optN r.minItems)) ⊳
    when (optN r.maxItems != 0) (maxItems f vs.length (optN r.maxItems)) ⊳
    when (optB r.unique) (unique f (itemEq e) vs) ⊳
    forEach vs (fun v => elemTpl J rec f e items v)
  if optB r.ignoreEmpty then when (!vs.isEmpty) body else body

/-- `render (.Key …)` (templates/shared/context.go:47-65). -/
def keyTpl (J : JEnv) (f : String) (e : ElemT) (rules : FieldRules) (k : Scalar) : Run :=
  match rules.type with
  | .unset => .ok ()
  | t => scalarTpl J f e t k

/-- templates/java/map.go:10-34 (mapTpl). -/
def mapTpl (J : JEnv) (rec : Val → Run) (f : String) (kt vt : ElemT) (r : MapRules)
    (keys values : FieldRules) (kvs : List (Scalar × Val)) : Run :=
  let body :=
    when (optN r.minPairs != 0) (minPairs f kvs.length (optN r.minPairs)) ⊳
    when (optN r.maxPairs != 0) (maxPairs f kvs.length (optN r.maxPairs)) ⊳
    when (optB r.noSparse) (noSparse f) ⊳
    when (elemTypNotNone vt values || elemTypNotNone kt keys)
      (forEach (J.order kvs) (fun kv => keyTpl J f kt keys kv.1) ⊳
       forEach (J.order kvs) (fun kv => elemTpl J rec f vt values kv.2))
  if optB r.ignoreEmpty then when (!kvs.isEmpty) body else body

/-- `{{ $f.FullyQualifiedName }}` of a field or oneof of the message type `typ` (templates/java/num.go:39,
templates/java/oneof.go:16). -/
def fullyQualified (typ name : String) : String := "." ++ typ ++ "." ++ name

/-- `render (context .)` for a field of the message type `typ`; rule resolution is shared with Go
(templates/shared/context.go:26-45,119-177). -/
def renderField (J : JEnv) (rec : Val → Run) (typ : String) (f : FieldDesc) (v : Val) : Run :=
  match f.typ, v with
  | .one e, v => elemTpl J rec (fullyQualified typ f.name) e f.rules v
  | .rep e, .list vs =>
    match f.rules.type with
    | .repeated r items => repeatedTpl J rec (fullyQualified typ f.name) e r items vs
    | .unset => repeatedTpl J rec (fullyQualified typ f.name) e {} .absent vs
    | _ => .ok ()
  | .map kt vt, .map kvs =>
    match f.rules.type with
    | .map r keys values => mapTpl J rec (fullyQualified typ f.name) kt vt r keys values kvs
    | .unset => if vt.isEmbed then mapTpl J rec (fullyQualified typ f.name) kt vt {} .absent .absent kvs else .ok ()
    | _ => .ok ()
  | _, _ => .ok ()

/-- templates/java/oneof.go:7-19 (oneOfTpl). -/
def oneofTpl (J : JEnv) (rec : Val → Run) (typ : String) (o : OneofDesc) (set : Option (String × Val)) : Run :=
  match set with
  | some (member, v) =>
    match o.fields.find? (fun f => f.name == member) with
    | some f => renderField J rec typ f v
    | none => .ok ()
  | none => when o.required (required (fullyQualified typ o.name) false)

/-- `assertValid` of the validator of a message type (templates/java/msg.go:14-35), or the fallback
for types without one. In single-file mode, `ignored` messages have no validator (file.go:15,
msg.go:4). -/
def assertStep (J : JEnv) (S : Schema) (rec : Val → Run) (v : Val) : Run :=
  match v with
  | .msg typ fs os =>
    match S typ with
    | .generated d =>
      if d.ignored then J.other v
      else if d.disabled then .ok ()
      else
        forEach d.fields (fun f => renderField J rec typ f (getField fs f)) ⊳
        forEach d.oneofs (fun o => oneofTpl J rec typ o (os.lookup o.name))
    | _ => J.other v
  | _ => J.other v

/-- Calls nested at most `n` deep (templates/java/message.go:10; msg.go:22-34). -/
def assertFuel (J : JEnv) (S : Schema) : Nat → Val → Run
  | 0 => fun _ => .ok ()
  | n + 1 => assertStep J S (assertFuel J S n)

/-- `index.validatorFor(v).assertValid(v)`; the nesting depth of the value bounds the recursion
(templates/java/message.go:10). -/
def assertValid (J : JEnv) (S : Schema) (v : Val) : Run := assertFuel J S (depth v) v

end PGV.Java
