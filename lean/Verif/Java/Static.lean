import Verif.Java.Emit
import Verif.Java.Templates

/-!
The Java source the generator writes for a message, as far as the Java compiler's types go: the constants each
template declares, the calls it writes, and the compiler's checks on them. Class, accessor and constant names are
modelled in Java/Names.lean; here a constant is known by its field, index and rule.
-/

namespace PGV.Java
open PGV
open PGV.Go (resolve Resolved elemTypNotNone allFields)

/-! ### Types and expressions -/

/-- The primitive types that occur in generated code (templates/java/register.go:379-399). -/
inductive Prim
  | int | long | float | double | boolean
  deriving DecidableEq, Repr

/-- Java types as the generated code uses them (templates/java/register.go:330-399). Messages are known by their
name, the well-known ones by which they are. -/
inductive JT
  | prim (p : Prim) | boxed (p : Prim)
  | string | bytes | byteArray | pattern | object
  | enum (values : List Int)
  | message (name : String)
  | known (w : WKT)
  | list | map
  | array (t : JT)
  deriving DecidableEq, Repr

/-- The primitive type protoc gives a numeric field (for templates/java/register.go:382-389). -/
def primOf : NumKind → Prim
  | .int32 | .uint32 | .sint32 | .fixed32 | .sfixed32 => .int
  | .int64 | .uint64 | .sint64 | .fixed64 | .sfixed64 => .long
  | .double => .double
  | .float => .float

/-- The class of a message type (templates/java/register.go:192-219). -/
def classOf (n : String) (w : Option WKT) : JT :=
  match w with
  | some w => .known w
  | none => .message n

/-- What protoc's getter of a singular field returns (called through templates/java/register.go:304-315). -/
def getterType : ElemT → JT
  | .scalar k => .prim (primOf k)
  | .bool => .prim .boolean
  | .string => .string
  | .bytes => .bytes
  | .enum vs => .enum vs
  | .embed n w => classOf n w

/-- Type arguments are reference types (for the lambdas of templates/java/repeated.go:18 and map.go:24-27). -/
def boxT : JT → JT
  | .prim p => .boxed p
  | t => t

/-- What `getValue()` of a wrapper returns (called through templates/java/register.go:505-506). -/
def wrappedType : WKT → JT
  | .floatValue => .prim .float
  | .doubleValue => .prim .double
  | .int32Value | .uint32Value => .prim .int
  | .int64Value | .uint64Value => .prim .long
  | .boolValue => .prim .boolean
  | .stringValue => .string
  | .bytesValue => .bytes
  | w => .known w

/-- The accessor of a context: the field's getter, the variable of a lambda, or the value of a wrapper
(`AccessorOverride`, templates/java/register.go:297-302,500-508; repeated.go:19; map.go:25-28). -/
inductive Acc
  | field | item | key | value | wrapped
  deriving DecidableEq, Repr

/-- A rendering context (templates/shared/context.go:12-24). -/
structure JCtx where
  field : String
  typ : FieldT
  acc : Acc

/-- `ctx.Index` (templates/java/map.go:5-6,25-28; repeated.go:3,19). -/
def JCtx.index (c : JCtx) : String :=
  match c.acc with
  | .key => "Key"
  | .value => "Value"
  | _ => ""

/-- The type of `{{ accessor . }}` (templates/java/register.go:297-315). -/
def JCtx.valueType (c : JCtx) : JT :=
  match c.typ, c.acc with
  | .one (.embed _ (some w)), .wrapped => wrappedType w
  | .one e, _ => getterType e
  | .rep e, .item => boxT (getterType e)
  | .rep _, _ => .list
  | .map k _, .key => boxT (getterType k)
  | .map _ v, .value => boxT (getterType v)
  | .map _ _, _ => .map

/-- `{{ hasAccessor . }}` names a method that exists, or is `true` (templates/java/register.go:317-324): protoc writes
`hasX()` for singular message fields. Simplification: the `hasX()` of proto2 scalars is left out. -/
def JCtx.hasOk (c : JCtx) : Bool :=
  match c.typ, c.acc with
  | .one (.embed _ _), .field => true
  | _, .field => false
  | _, _ => true

/-- `javaTypeForProtoType` (templates/java/register.go:379-399). -/
def typeForProto : ElemT → JT
  | .scalar k => .boxed (primOf k)
  | .bool => .boxed .boolean
  | .string => .string
  | .bytes => .bytes
  | _ => .object

/-- `javaTypeFor` (templates/java/register.go:330-377). -/
def JCtx.declType (c : JCtx) : JT :=
  match c.typ, c.acc with
  | .map k _, .key => typeForProto k
  | .map _ v, .value => typeForProto v
  | .one (.embed _ (some w)), _ =>
    match w with
    | .any => .string
    | .duration => .known .duration
    | .timestamp => .known .timestamp
    | .int32Value | .uint32Value => .boxed .int
    | .int64Value | .uint64Value => .boxed .long
    | .doubleValue => .boxed .double
    | .floatValue => .boxed .float
    | _ => .object
  | .rep (.embed n w), _ => classOf n w
  | .rep (.enum vs), _ => .enum vs
  | .rep e, _ => typeForProto e
  | .one (.enum vs), _ => .enum vs
  | .one e, _ => typeForProto e
  | .map _ _, _ => .object

/-- The suffix of a numeric literal (templates/java/register.go:401-440). -/
inductive Suffix
  | none | L | F | D
  deriving DecidableEq, Repr

/-- `javaTypeLiteralSuffixForPrototype` (templates/java/register.go:429-440). -/
def suffixForProto : ElemT → Suffix
  | .scalar .int64 | .scalar .uint64 | .scalar .sint64 | .scalar .fixed64 | .scalar .sfixed64 => .L
  | .scalar .float => .F
  | .scalar .double => .D
  | _ => .none

/-- `javaTypeLiteralSuffixFor` (templates/java/register.go:401-427). -/
def JCtx.suffix (c : JCtx) : Suffix :=
  match c.typ, c.acc with
  | .map k _, .key => suffixForProto k
  | .map _ v, .value => suffixForProto v
  | .one (.embed _ (some w)), _ =>
    match w with
    | .int64Value | .uint64Value => .L
    | .floatValue => .F
    | .doubleValue => .D
    | _ => .none
  | .one e, _ => suffixForProto e
  | .rep e, _ => suffixForProto e
  | .map _ _, _ => .none

/-- A constant: its field, index and rule (`constantName`, templates/java/register.go:530-532, without `strcase`). -/
structure CName where
  field : String
  index : String
  rule : String
  deriving DecidableEq, Repr

/-- `constantName` (templates/java/register.go:530-532). -/
def JCtx.const (c : JCtx) (rule : String) : CName := ⟨c.field, c.index, rule⟩

/-- The expressions the templates write (templates/java/num.go:3-66, string.go:3-98, bytes.go:3-80, enum.go:3-33, any.go:3-28, duration.go:3-62,
timestamp.go:3-54). String literals are source text. -/
inductive Ex
  | value (t : JT)
  | const (n : CName)
  | num (n : Num) (s : Suffix)
  | nat (n : Nat)
  | bool (b : Bool)
  | text (src : Bytes)
  | bytesOf (src : Bytes)
  | copyFrom (src : Bytes)
  | compile (src : Bytes)
  | forNumber (t : JT) (i : Int)
  | duration (d : PDur)
  | timestamp (t : PTime)
  | typeUrl (t : JT)
  | now

/-- Integer literals of type `int` (JLS 3.10.1, for templates/java/num.go:5-29 and register.go:467-477). -/
def intLit (i : Int) : Bool := decide (-2147483648 ≤ i) && decide (i ≤ 2147483647)

/-- Integer literals of type `long` (JLS 3.10.1, for templates/java/num.go:5-29). -/
def longLit (i : Int) : Bool := decide (-9223372036854775808 ≤ i) && decide (i ≤ 9223372036854775807)

/-- The type of a printed number with a suffix; `none` if that is no literal: out of range, infinite or NaN
(JLS 3.10.1-3.10.2, templates/java/num.go:5-29). Simplification: a float with the suffix of another type, which no
template writes, counts as no literal. -/
def numLitType : Num → Suffix → Option Prim
  | .int i, .none => if intLit i then some .int else Option.none
  | .int i, .L => if longLit i then some .long else Option.none
  | .int _, .F => some .float
  | .int _, .D => some .double
  | .f32 b, .F => if litCompiles .float (.f32 b) then some .float else Option.none
  | .f64 b, .D => if litCompiles .double (.f64 b) then some .double else Option.none
  | _, _ => Option.none

/-- The type of an expression, given the declared constants; `none` if it does not compile. `toDuration(long, long)`
and `toTimestamp(long, int)` get `int` literals (TimestampValidation.java:24,34; register.go:467-477); `forNumber` is
a method of enum classes (enum.go:7,14,22); `getTypeUrl` one of `Any` (any.go:23,26). -/
def Ex.type (G : CName → Option JT) : Ex → Option JT
  | .value t => some t
  | .const n => G n
  | .num n s => (numLitType n s).map .prim
  | .nat n => if intLit n then some (.prim .int) else none
  | .bool _ => some (.prim .boolean)
  | .text src => if (Spec.javaString src).isSome then some .string else none
  | .bytesOf src => if (Spec.javaByteArray src).isSome then some .byteArray else none
  | .copyFrom src => if (Spec.javaByteArray src).isSome then some .bytes else none
  | .compile src => if (Spec.javaString src).isSome then some .pattern else none
  | .forNumber (.enum vs) i => if intLit i then some (.enum vs) else none
  | .forNumber _ _ => none
  | .duration d => if intLit d.seconds && intLit d.nanos then some (.known .duration) else none
  | .timestamp t => if intLit t.seconds && intLit t.nanos then some (.known .timestamp) else none
  | .typeUrl (.known .any) => some .string
  | .typeUrl _ => none
  | .now => some (.known .timestamp)

/-- Assigning a value of type `s` to a variable of type `t` (JLS 5.2): the same type, boxing of the same primitive,
anything to `Object` (for templates/java/num.go:5-29, string.go:5-15, enum.go:5-15). -/
def assignable (t s : JT) : Bool := t == s || t == boxT s || t == .object

/-! ### Constants -/

/-- The initialiser of a constant: an expression, or `new T[]{…}` (templates/java/num.go:5-31). -/
inductive Init
  | one (e : Ex)
  | many (t : JT) (es : List Ex)

/-- `private final T NAME = …;` (templates/java/num.go:5-31). -/
structure Decl where
  name : CName
  type : JT
  init : Init

/-- The expression, which mentions no constant, can initialise a variable of type `t` (JLS 5.2, for
templates/java/num.go:5-31). -/
def Ex.fits (t : JT) (e : Ex) : Bool :=
  match e.type (fun _ => none) with
  | some s => assignable t s
  | none => false

/-- The declaration compiles (JLS 8.3, 10.6, for templates/java/num.go:5-31). -/
def Decl.ok (d : Decl) : Bool :=
  match d.init with
  | .one e => e.fits d.type
  | .many t es => d.type == .array t && es.all (Ex.fits t)

/-! ### Calls -/

/-- The comparator passed to ComparativeValidation (templates/java/num.go:42-54, duration.go:41-53,
timestamp.go:30-49). -/
inductive Order
  | natural | durations | timestamps

/-- The types a comparator compares (JLS, com.google.protobuf.util.Durations and Timestamps; for
templates/java/num.go:42-54, duration.go:41-53, timestamp.go:30-49). -/
def Order.on : Order → JT → Bool
  | .natural, .boxed _ => true
  | .durations, t => t == .known .duration
  | .timestamps, t => t == .known .timestamp
  | _, _ => false

/-- Parameter types of the stub library's methods that are not generic
(java/pgv-java-stub/src/main/java/io/envoyproxy/pgv/StringValidation.java:34-191, BytesValidation.java:16-70,
EnumValidation.java:12, MapValidation.java:13-25, RepeatedValidation.java:14-26, RequiredValidation.java:12,
TimestampValidation.java:14). -/
inductive Param
  | int | string | bytes | byteArray | pattern | enum | message | duration | timestamp | list | map

/-- An argument of type `t` can be passed (JLS 5.3; `GeneratedMessageV3` takes every generated message, and `null`;
java/pgv-java-stub/src/main/java/io/envoyproxy/pgv/RequiredValidation.java:12). -/
def Param.takes : Param → JT → Bool
  | .int, t => t == .prim .int
  | .string, t => t == .string
  | .bytes, t => t == .bytes
  | .byteArray, t => t == .byteArray
  | .pattern, t => t == .pattern
  | .enum, .enum _ => true
  | .message, .message _ => true
  | .message, .known _ => true
  | .duration, t => t == .known .duration
  | .timestamp, t => t == .known .timestamp
  | .list, t => t == .list
  | .map, t => t == .map
  | _, _ => false

/-- What the templates write in method bodies (templates/java/num.go:3-66, string.go:3-98, bytes.go:3-80, enum.go:3-33, any.go:3-28, duration.go:3-62,
timestamp.go:3-54, repeated.go:5-24, map.go:10-34, required.go:3-11, message.go:3-13). -/
inductive Stmt
  /-- The condition `hasAccessor`. -/
  | has (ok : Bool)
  /-- `if (e != 0)` (num.go:36). -/
  | nonZero (e : Ex)
  /-- `if (!e.isEmpty())` (string.go:24, bytes.go:36, repeated.go:7, map.go:12). -/
  | nonEmpty (e : Ex)
  /-- `constant(field, T value, T expected)` (ConstantValidation.java:10). -/
  | constant (v e : Ex)
  /-- `lessThan(field, T value, T limit, Comparator<T>)` and the like (ComparativeValidation.java:12-30). -/
  | compare (v e : Ex) (o : Order)
  /-- `range(field, T value, T lt, T lte, T gt, T gte, Comparator<T>)` (ComparativeValidation.java:36). -/
  | range (v : Ex) (limits : List (Option Ex)) (o : Order)
  /-- `in(field, T value, T[] set)` and `notIn` (CollectiveValidation.java:12,22). -/
  | member (v e : Ex)
  /-- A method that is not generic, after its `field` argument. -/
  | call (args : List (Param × Ex))
  /-- `required(field, null)` (required.go:8, oneof.go:16). -/
  | requiredNull
  /-- `index.validatorFor(e).assertValid(e)` (message.go:10). -/
  | assertValid (e : Ex)

/-- The statement compiles, given the declared constants (JLS 15.12; T is inferred: `Object` will do where there is no
comparator; java/pgv-java-stub/src/main/java/io/envoyproxy/pgv/ComparativeValidation.java:12-36,
CollectiveValidation.java:12-22, ConstantValidation.java:10, ValidatorIndex.java). -/
def Stmt.ok (G : CName → Option JT) : Stmt → Bool
  | .has b => b
  | .nonZero e =>
    match e.type G with
    | some (.prim p) | some (.boxed p) => p != .boolean
    | _ => false
  | .nonEmpty e =>
    match e.type G with
    | some .string | some .bytes | some .list | some .map => true
    | _ => false
  | .constant v e => (v.type G).isSome && (e.type G).isSome
  | .compare v e o =>
    match v.type G, e.type G with
    | some s, some t => o.on (boxT s) && boxT s == boxT t
    | _, _ => false
  | .range v limits o =>
    match v.type G with
    | some s => o.on (boxT s) && limits.all fun
      | none => true
      | some e => match e.type G with
        | some t => boxT s == boxT t
        | none => false
    | none => false
  | .member v e =>
    match v.type G, e.type G with
    | some _, some (.array _) => true
    | _, _ => false
  | .call args => args.all fun (p, e) =>
    match e.type G with
    | some t => p.takes t
    | none => false
  | .requiredNull => true
  | .assertValid e => (e.type G).isSome

/-- The constants and the code of a template (templates/java/register.go:510-528). -/
structure Code where
  decls : List Decl := []
  body : List Stmt := []

/-- Text after text (templates/java/msg.go:15-33). -/
def Code.append (a b : Code) : Code := ⟨a.decls ++ b.decls, a.body ++ b.body⟩

instance : Append Code := ⟨Code.append⟩

/-! ### The templates -/

/-- Something written only if a rule is there (`{{ if $r.X }}`, templates/java/num.go:4-30). -/
def opt {α β : Type} (o : Option α) (k : α → β) : List β :=
  match o with
  | some a => [k a]
  | none => []

/-- Something written only under a condition (`{{ if }}`, templates/java/num.go:35). -/
def onlyIf {β : Type} (c : Bool) (b : List β) : List β := if c then b else []

/-- A list constant, written only if there are members (templates/java/num.go:19-31, string.go:4-17). -/
def listDecl {α : Type} (n : CName) (t : JT) (k : α → Ex) (l : List α) : List Decl :=
  onlyIf (!l.isEmpty) [⟨n, .array t, .many t (l.map k)⟩]

/-- The range part shared by templates/java/num.go:41-56, duration.go:40-55 and timestamp.go:29-44. -/
def rangeCode (c : JCtx) (o : Order) {α : Type} (lt lte gt gte : Option α) : List Stmt :=
  let v := Ex.value c.valueType
  let arg (r : String) (x : Option α) : Option Ex := x.map fun _ => Ex.const (c.const r)
  if (lt.isSome || lte.isSome) && (gt.isSome || gte.isSome) then
    [.range v [arg "Lt" lt, arg "Lte" lte, arg "Gt" gt, arg "Gte" gte] o]
  else
    opt lt (fun _ => .compare v (.const (c.const "Lt")) o) ++
    opt lte (fun _ => .compare v (.const (c.const "Lte")) o) ++
    opt gt (fun _ => .compare v (.const (c.const "Gt")) o) ++
    opt gte (fun _ => .compare v (.const (c.const "Gte")) o)

/-- The list rules at the end of templates/java/num.go:57-62 and others. -/
def listCode {α : Type} (c : JCtx) (v : Ex) (ins notIns : List α) : List Stmt :=
  onlyIf (!ins.isEmpty) [.member v (.const (c.const "In"))] ++
  onlyIf (!notIns.isEmpty) [.member v (.const (c.const "NotIn"))]

/-- numConstTpl and numTpl (templates/java/num.go:3-66). -/
def numCode (c : JCtx) (r : NumRules) : Code where
  decls :=
    let one (rule : String) (n : Num) : Decl := ⟨c.const rule, c.declType, .one (.num n c.suffix)⟩
    opt r.const (one "Const") ++ opt r.lt (one "Lt") ++ opt r.lte (one "Lte") ++ opt r.gt (one "Gt") ++
    opt r.gte (one "Gte") ++ listDecl (c.const "In") c.declType (fun n => .num n c.suffix) r.ins ++
    listDecl (c.const "NotIn") c.declType (fun n => .num n c.suffix) r.notIns
  body :=
    let v := Ex.value c.valueType
    onlyIf (optB r.ignoreEmpty) [.nonZero v] ++ opt r.const (fun _ => .constant v (.const (c.const "Const"))) ++
    rangeCode c .natural r.lt r.lte r.gt r.gte ++ listCode c v r.ins r.notIns

/-- boolTpl (templates/java/bool.go:3-6). -/
def boolCode (c : JCtx) (r : BoolRules) : Code where
  body := opt r.const fun b => .constant (.value c.valueType) (.bool b)

/-- stringConstTpl and stringTpl (templates/java/string.go:3-98). -/
def stringCode (isPrint : Nat → Bool) (c : JCtx) (r : StringRules) : Code where
  decls :=
    listDecl (c.const "In") c.declType (fun s => .text (rawString s)) r.ins ++
    listDecl (c.const "NotIn") c.declType (fun s => .text (rawString s)) r.notIns ++
    opt r.pattern (fun p => ⟨c.const "Pattern", .pattern, .one (.compile (javaStringEscape isPrint p))⟩)
  body :=
    let v := Ex.value c.valueType
    let count (n : Nat) : Stmt := .call [(.string, v), (.int, .nat n)]
    let affix (s : Bytes) : Stmt := .call [(.string, v), (.string, .text (rawString s))]
    let alone : List Stmt := [.call [(.string, v)]]
    onlyIf (optB r.ignoreEmpty) [.nonEmpty v] ++
    opt r.const (fun s => .constant v (.text (rawString s))) ++
    listCode c v r.ins r.notIns ++
    opt r.len count ++ opt r.minLen count ++ opt r.maxLen count ++
    opt r.lenBytes count ++ opt r.minBytes count ++ opt r.maxBytes count ++
    opt r.pattern (fun _ => .call [(.string, v), (.pattern, .const (c.const "Pattern"))]) ++
    opt r.pfx affix ++ opt r.contains affix ++ opt r.notContains affix ++ opt r.sfx affix ++
    onlyIf r.getEmail alone ++ onlyIf r.getAddress alone ++ onlyIf r.getHostname alone ++ onlyIf r.getIp alone ++
    onlyIf r.getIpv4 alone ++ onlyIf r.getIpv6 alone ++ onlyIf r.getUri alone ++ onlyIf r.getUriRef alone ++
    onlyIf r.getUuid alone

/-- bytesConstTpl and bytesTpl (templates/java/bytes.go:3-80). Bytes rules are slices: an empty one is the same as
none. -/
def bytesCode (isPrint : Nat → Bool) (c : JCtx) (r : BytesRules) : Code where
  decls :=
    onlyIf (!(optS r.const).isEmpty) [⟨c.const "Const", .bytes, .one (.copyFrom (byteArrayLit (optS r.const)))⟩] ++
    listDecl (c.const "In") .bytes (fun b => .copyFrom (byteArrayLit b)) r.ins ++
    listDecl (c.const "NotIn") .bytes (fun b => .copyFrom (byteArrayLit b)) r.notIns ++
    opt r.pattern (fun p => ⟨c.const "Pattern", .pattern, .one (.compile (javaStringEscape isPrint p))⟩) ++
    onlyIf (!(optS r.pfx).isEmpty) [⟨c.const "Prefix", .byteArray, .one (.bytesOf (byteArrayLit (optS r.pfx)))⟩] ++
    onlyIf (!(optS r.contains).isEmpty)
      [⟨c.const "Contains", .byteArray, .one (.bytesOf (byteArrayLit (optS r.contains)))⟩] ++
    onlyIf (!(optS r.sfx).isEmpty) [⟨c.const "Suffix", .byteArray, .one (.bytesOf (byteArrayLit (optS r.sfx)))⟩]
  body :=
    let v := Ex.value c.valueType
    let count (n : Nat) : Stmt := .call [(.bytes, v), (.int, .nat n)]
    let affix (rule : String) : List Stmt := [.call [(.bytes, v), (.byteArray, .const (c.const rule))]]
    let alone : List Stmt := [.call [(.bytes, v)]]
    onlyIf (optB r.ignoreEmpty) [.nonEmpty v] ++
    onlyIf (!(optS r.const).isEmpty) [.constant v (.const (c.const "Const"))] ++
    opt r.len count ++ opt r.minLen count ++ opt r.maxLen count ++
    opt r.pattern (fun _ => .call [(.bytes, v), (.pattern, .const (c.const "Pattern"))]) ++
    onlyIf (!(optS r.pfx).isEmpty) (affix "Prefix") ++ onlyIf (!(optS r.contains).isEmpty) (affix "Contains") ++
    onlyIf (!(optS r.sfx).isEmpty) (affix "Suffix") ++
    onlyIf r.getIp alone ++ onlyIf r.getIpv4 alone ++ onlyIf r.getIpv6 alone ++ listCode c v r.ins r.notIns

/-- enumConstTpl and enumTpl (templates/java/enum.go:3-33). -/
def enumCode (c : JCtx) (r : EnumRules) : Code where
  decls :=
    listDecl (c.const "In") c.declType (fun i => .forNumber c.declType i) r.ins ++
    listDecl (c.const "NotIn") c.declType (fun i => .forNumber c.declType i) r.notIns
  body :=
    let v := Ex.value c.valueType
    opt r.const (fun i => .constant v (.forNumber c.declType i)) ++
    onlyIf (optB r.definedOnly) [.call [(.enum, v)]] ++ listCode c v r.ins r.notIns

/-- requiredTpl (templates/java/required.go:3-11). -/
def requiredCode (c : JCtx) (required : Bool) : List Stmt :=
  onlyIf required [.has c.hasOk, .call [(.message, .value c.valueType)], .requiredNull]

/-- Statements under `if (hasAccessor)` (templates/java/duration.go:38-60). -/
def guarded (c : JCtx) (b : List Stmt) : List Stmt := b.flatMap fun s => [.has c.hasOk, s]

/-- anyConstTpl and anyTpl (templates/java/any.go:3-28). -/
def anyCode (c : JCtx) (r : AnyRules) : Code where
  decls :=
    listDecl (c.const "In") .string (fun s => .text (rawString s)) r.ins ++
    listDecl (c.const "NotIn") .string (fun s => .text (rawString s)) r.notIns
  body := requiredCode c (optB r.required) ++ guarded c (listCode c (.typeUrl c.valueType) r.ins r.notIns)

/-- durationConstTpl and durationTpl (templates/java/duration.go:3-62). -/
def durationCode (c : JCtx) (r : DurationRules) : Code where
  decls :=
    let one (rule : String) (d : PDur) : Decl := ⟨c.const rule, .known .duration, .one (.duration d)⟩
    opt r.const (one "Const") ++ opt r.lt (one "Lt") ++ opt r.lte (one "Lte") ++ opt r.gt (one "Gt") ++
    opt r.gte (one "Gte") ++ listDecl (c.const "In") (.known .duration) .duration r.ins ++
    listDecl (c.const "NotIn") (.known .duration) .duration r.notIns
  body :=
    let v := Ex.value c.valueType
    requiredCode c (optB r.required) ++ guarded c (
      opt r.const (fun _ => .constant v (.const (c.const "Const"))) ++
      rangeCode c .durations r.lt r.lte r.gt r.gte ++ listCode c v r.ins r.notIns)

/-- timestampConstTpl and timestampTpl (templates/java/timestamp.go:3-54). -/
def timestampCode (c : JCtx) (r : TimestampRules) : Code where
  decls :=
    let one (rule : String) (t : PTime) : Decl := ⟨c.const rule, .known .timestamp, .one (.timestamp t)⟩
    opt r.const (one "Const") ++ opt r.lt (one "Lt") ++ opt r.lte (one "Lte") ++ opt r.gt (one "Gt") ++
    opt r.gte (one "Gte") ++
    opt r.within (fun d => ⟨c.const "Within", .known .duration, .one (.duration d)⟩)
  body :=
    let v := Ex.value c.valueType
    requiredCode c (optB r.required) ++ guarded c (
      opt r.const (fun _ => .constant v (.const (c.const "Const"))) ++
      rangeCode c .timestamps r.lt r.lte r.gt r.gte ++
      opt r.ltNow (fun _ => .compare v .now .timestamps) ++ opt r.gtNow (fun _ => .compare v .now .timestamps) ++
      opt r.within (fun _ => .call [(.timestamp, v), (.duration, .const (c.const "Within")), (.timestamp, .now)]))

/-- messageTpl (templates/java/message.go:3-13). -/
def messageCode (c : JCtx) (m : Option MessageRules) : Code where
  body :=
    if msgSkip m then []
    else requiredCode c (msgRequired m) ++ [.has c.hasOk, .assertValid (.value c.valueType)]

/-- The template of the rules of a value that is not a list or map (templates/java/register.go:64-115). -/
def typeCode (isPrint : Nat → Bool) (c : JCtx) : TypeRules → Code
  | .num _ r => numCode c r
  | .bool r => boolCode c r
  | .string r => stringCode isPrint c r
  | .bytes r => bytesCode isPrint c r
  | .enum r => enumCode c r
  | .any r => anyCode c r
  | .duration r => durationCode c r
  | .timestamp r => timestampCode c r
  | _ => {}

/-- Rendering a context (templates/java/register.go:500-528, wrapper.go:3-12). -/
def elemCode (isPrint : Nat → Bool) (c : JCtx) (e : ElemT) (rules : FieldRules) : Code :=
  match resolve e rules with
  | .none => {}
  | .message m => messageCode c m
  | .wrapper t _ => { body := [.has c.hasOk] } ++ typeCode isPrint { c with acc := .wrapped } t
  | .plain t => typeCode isPrint c t

/-- repeatedConstTpl and repeatedTpl (templates/java/repeated.go:3-24). -/
def repeatedCode (isPrint : Nat → Bool) (c : JCtx) (e : ElemT) (r : RepeatedRules) (items : FieldRules) : Code :=
  let v := Ex.value c.valueType
  { body :=
      onlyIf (optB r.ignoreEmpty) [.nonEmpty v] ++
      onlyIf (optN r.minItems != 0) [.call [(.list, v), (.int, .nat (optN r.minItems))]] ++
      onlyIf (optN r.maxItems != 0) [.call [(.list, v), (.int, .nat (optN r.maxItems))]] ++
      onlyIf (optB r.unique) [.call [(.list, v)]] ++ [.call [(.list, v)]] } ++
  elemCode isPrint { c with acc := .item } e items

/-- mapConstTpl and mapTpl (templates/java/map.go:3-34). -/
def mapCode (isPrint : Nat → Bool) (c : JCtx) (kt vt : ElemT) (r : MapRules) (keys values : FieldRules) : Code :=
  let v := Ex.value c.valueType
  { body :=
      onlyIf (optB r.ignoreEmpty) [.nonEmpty v] ++
      onlyIf (optN r.minPairs != 0) [.call [(.map, v), (.int, .nat (optN r.minPairs))]] ++
      onlyIf (optN r.maxPairs != 0) [.call [(.map, v), (.int, .nat (optN r.maxPairs))]] ++
      onlyIf (optB r.noSparse) [.call [(.map, v)]] } ++
  if elemTypNotNone vt values || elemTypNotNone kt keys then
    { body := [.call [(.map, v)]] } ++ typeCode isPrint { c with acc := .key } keys.type ++
    ({ body := [.call [(.map, v)]] } ++ elemCode isPrint { c with acc := .value } vt values)
  else {}

/-- The constants and the code of a field (`renderConstants (context .)`, `render (context .)`,
templates/java/msg.go:16,28; oneof.go:4,11). -/
def fieldCode (isPrint : Nat → Bool) (f : FieldDesc) : Code :=
  let c : JCtx := ⟨f.name, f.typ, .field⟩
  match f.typ with
  | .one e => elemCode isPrint c e f.rules
  | .rep e =>
    match f.rules.type with
    | .repeated r items => repeatedCode isPrint c e r items
    | .unset => repeatedCode isPrint c e {} .absent
    | t => typeCode isPrint c t
  | .map kt vt =>
    match f.rules.type with
    | .map r keys values => mapCode isPrint c kt vt r keys values
    | .unset => if vt.isEmbed then mapCode isPrint c kt vt {} .absent .absent else {}
    | t => typeCode isPrint c t

/-- The class body of a message's validator (templates/java/msg.go:14-35, oneof.go:3-19): the constants of all fields,
and their code unless the message is disabled. -/
def classCode (isPrint : Nat → Bool) (d : MsgDesc) : Code where
  decls := (allFields d).flatMap fun f => (fieldCode isPrint f).decls
  body :=
    if d.disabled then []
    else d.fields.flatMap (fun f => (fieldCode isPrint f).body) ++
      d.oneofs.flatMap fun o =>
        o.fields.flatMap (fun f => (fieldCode isPrint f).body) ++ onlyIf o.required [.requiredNull]

/-- The constants a name can refer to (JLS 6.3, for templates/java/register.go:530-532). -/
def scope (ds : List Decl) (n : CName) : Option JT := (ds.find? fun d => d.name == n).map (·.type)

/-- The class compiles: no constant is declared twice, and declarations and statements compile
(JLS 8.3, templates/java/msg.go:14-35). -/
def Code.compiles (c : Code) : Bool :=
  decide (c.decls.map (·.name)).Nodup && c.decls.all Decl.ok && c.body.all (Stmt.ok (scope c.decls))

/-- The generated validator class of a message compiles (templates/java/msg.go:3-35); `ignored` messages get none in
single-file mode (msg.go:4). -/
def msgCompiles (isPrint : Nat → Bool) (d : MsgDesc) : Bool := d.ignored || (classCode isPrint d).compiles

end PGV.Java
