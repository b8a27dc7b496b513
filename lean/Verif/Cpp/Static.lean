import Verif.Cpp.Emit
import Verif.Cpp.Literal
import Verif.Cpp.Names

/-!
The C++ source the generator writes for a message, as far as the C++ compiler's types go: the tables each field
declares, the expressions the templates write, and the compiler's checks on them.
-/

namespace PGV.Cpp
open PGV
open PGV.Go (Var resolve Resolved elemTypNotNone allFields litString)

/-! ### Names -/

/-- The package of a message or enum: the parts between its dots, which protoc makes namespaces of, and what
`ProtoName().Split()` of protoc-gen-star gives (templates/cc/register.go:173-175, file.go:33-35). The two differ for
files without a package and for packages without a dot that the library splits at underscores. -/
structure Package where
  parts : List String
  split : List String

/-- Class names of the package resolve (templates/cc/register.go:169-175). -/
def Package.ok (p : Package) : Bool := p.split == p.parts

/-- An enum type: its package, its name after those of the messages around it, whether its namespace is that of the
file or around it, and whether its Go package is that of the file (templates/cc/register.go:303-342). -/
structure EnumType where
  package : Package
  path : List Ident
  visible : Bool
  sameGo : Bool

/-- Everything about names that descriptors do not carry in this model (for templates/cc/register.go:121-175,278-342):
the names of fields and oneofs in the .proto file, the enum type of a field, the package of a message type, and which
words C++ reserves. -/
structure Names where
  field : FieldDesc → Ident
  oneof : OneofDesc → Ident
  enum : FieldDesc → EnumType
  package : String → Package
  keyword : Ident → Bool

/-- `m.x()` and `m.has_x()` are protoc's names (templates/cc/register.go:133-152). -/
def Names.accessorOk (N : Names) (f : FieldDesc) : Bool :=
  methodName (N.field f) == protocField N.keyword (N.field f)

/-- The type name `cType` writes for a singular enum resolves to the enum: the last part of the Go type name, where C++
has the names of the messages and the enum with underscores between them (templates/cc/register.go:303-324,428-437). -/
def EnumType.oneOk (e : EnumType) : Bool := e.visible && e.path.all fun p => upperCamel p == p

/-- The type name `cType` writes for the members of a list of enums: the whole Go type name without `[]`
(templates/cc/register.go:307-312). -/
def EnumType.listOk (e : EnumType) : Bool := e.oneOk && e.sameGo

/-! ### Types -/

/-- C++ types of the expressions that are looked at (templates/cc/register.go:133-142, repeated.go:46-48,
map.go:36-39). -/
inductive CT
  | num (k : NumKind) | bool | string
  | enum (values : List Int)
  | message (name : String) (w : Option WKT)
  | list | map
  deriving DecidableEq, Repr

/-- What protoc's getter of a singular field returns (called through templates/cc/register.go:133-142). -/
def getterType : ElemT → CT
  | .scalar k => .num k
  | .bool => .bool
  | .string => .string
  | .bytes => .string
  | .enum vs => .enum vs
  | .embed n w => .message n w

/-- What `Get(i)` of a list returns: lists of enums are lists of `int` (for templates/cc/repeated.go:46-48). -/
def itemType : ElemT → CT
  | .enum _ => .num .int32
  | e => getterType e

/-- What `value()` of a wrapper returns (templates/cc/register.go:405-406). -/
def wrappedType : WKT → CT
  | .floatValue => .num .float
  | .doubleValue => .num .double
  | .int32Value => .num .int32
  | .uint32Value => .num .uint32
  | .int64Value => .num .int64
  | .uint64Value => .num .uint64
  | .boolValue => .bool
  | .stringValue | .bytesValue => .string
  | w => .message "" (some w)

/-- A rendering context (templates/shared/context.go:12-24): the type of `{{ accessor . }}` (`none` when it names no
method) and whether `{{ hasAccessor . }}` is one, or `true` (templates/cc/register.go:133-152). -/
structure Ctx where
  value : Option CT
  has : Bool

/-- The context of a field. protoc declares `has_x()` for singular messages. Simplification: the `has_x()` of proto2
scalars is left out (templates/cc/register.go:133-152). -/
def fieldCtx (N : Names) (f : FieldDesc) : Ctx where
  value :=
    if N.accessorOk f then
      some (match f.typ with | .one e => getterType e | .rep _ => .list | .map _ _ => .map)
    else none
  has := N.accessorOk f && match f.typ with | .one e => e.isEmbed | _ => false

/-- The context of a variable of type `t` (`AccessorOverride`, templates/cc/register.go:134-136,145-147). -/
def varCtx (t : CT) : Ctx := ⟨some t, true⟩

/-! ### Literals -/

/-- All exponent bits are set: an infinity or NaN, printed as `+Inf` or `NaN`
(for templates/cc/ltgt.go:7, register.go:256-259). -/
def notFinite : Num → Bool
  | .int _ => false
  | .f32 b => decide (b.toNat / 2 ^ 23 % 2 ^ 8 = 2 ^ 8 - 1)
  | .f64 b => decide (b.toNat / 2 ^ 52 % 2 ^ 11 = 2 ^ 11 - 1)

/-- A decimal literal, perhaps with a minus sign: C++ has no type for one above the largest `long long`
(for templates/cc/ltgt.go:7, register.go:258-259). -/
def intLit (i : Int) : Bool := decide (i.natAbs < 2 ^ 63)

/-- A printed number is a C++ expression (for templates/cc/ltgt.go:7, register.go:256-259). -/
def numLit : Num → Bool
  | .int i => intLit i
  | n => !notFinite n

/-- The text is a string literal (for templates/cc/register.go:241-252). -/
def textLit (src : Bytes) : Bool := (readLit src).isSome

/-- `durLit` (templates/cc/register.go:364-368). -/
def durExpr (d : PDur) : Bool := intLit d.seconds && intLit d.nanos

/-! ### Tables -/

/-- The types of the variables a message's code declares: a set, or a regular expression
(templates/cc/msg.go:18,65). -/
inductive DT
  | set (t : CT) | regex
  deriving DecidableEq, Repr

/-- Members of a table (`inKey`, templates/cc/register.go:344-362). -/
inductive Init
  | num (n : Num) | text (src : Bytes) | enum (i : Int) | dur (d : PDur)

/-- The member can stand in the braces of a set of `t`: integers must not be narrowed
(templates/cc/msg.go:18-22; register.go:344-362). -/
def Init.fits : Init → CT → Bool
  | .num n, .num k => numLit n && k.inRange n
  | .text src, .string => textLit src
  | .enum i, .enum _ => intLit i
  | .dur d, .message _ (some .duration) => durExpr d
  | _, _ => false

/-- A declaration; `type` is `none` if the type name does not resolve (templates/cc/msg.go:17-92). -/
structure Decl where
  var : Var
  type : Option DT
  init : List Init

/-- The declaration compiles (templates/cc/msg.go:17-92). -/
def Decl.ok (d : Decl) : Bool :=
  match d.type with
  | some (.set t) => d.init.all (·.fits t)
  | some .regex => d.init.all fun | .text src => textLit src | _ => false
  | none => false

/-- `inType` on a field whose own rules have the list (templates/cc/register.go:286-301,303-324). Simplification:
combinations the checks refuse count as not resolving. -/
def ownType (N : Names) (f : FieldDesc) (r : TypeRules) : Option CT :=
  match f.typ, r with
  | .one (.embed _ _), .string _ | .one (.embed _ _), .any _ => some .string
  | .one (.embed _ _), .duration _ => some (.message "google.protobuf.Duration" (some .duration))
  | .one (.scalar k), .num _ _ => some (.num k)
  | .one .string, .string _ => some .string
  | .one .bytes, .bytes _ => some .string
  | .one (.enum vs), .enum _ => if (N.enum f).oneOk then some (.enum vs) else none
  | _, _ => none

/-- A set, if it has members (templates/cc/msg.go:17-31). -/
def setDecl {α : Type} (v : Var) (t : Option CT) (key : α → Init) (l : List α) : List Decl :=
  if l.isEmpty then [] else [⟨v, t.map .set, l.map key⟩]

/-- A regular expression (templates/cc/msg.go:64-67). -/
def patternDecl (isPrint : Nat → Bool) (p : Option Bytes) : List Decl :=
  match p with
  | some p => [⟨.pattern, some .regex, [.text (litString isPrint p)]⟩]
  | none => []

/-- The two sets of a rule message (templates/cc/msg.go:17-31). -/
def setDecls {α : Type} (t : Option CT) (key : α → Init) (ins notIns : List α) : List Decl :=
  setDecl .inLookup t key ins ++ setDecl .notInLookup t key notIns

/-- The type of the elements of a table for items: `set<string>`, or `inType` on a list of enums
(templates/cc/msg.go:34-62). -/
def itemSetType (N : Names) (f : FieldDesc) : Option CT :=
  match f.typ with
  | .rep (.enum vs) => if (N.enum f).listOk then some (.enum vs) else none
  | _ => none

/-- The variables declared for a field (templates/cc/msg.go:16-92). -/
def fieldDecls (N : Names) (isPrint : Nat → Bool) (f : FieldDesc) : List Decl :=
  match f.rules.type with
  | .repeated _ items =>
    match items.type with
    | .string r =>
      setDecls (some .string) (fun s => .text (litString isPrint s)) r.ins r.notIns ++ patternDecl isPrint r.pattern
    | .enum r => setDecls (itemSetType N f) .enum r.ins r.notIns
    | _ => []
  | .map _ keys values =>
    (match keys.type with | .string r => patternDecl isPrint r.pattern | _ => []) ++
    (match values.type with | .string r => patternDecl isPrint r.pattern | _ => [])
  | .num k r => setDecls (ownType N f (.num k r)) .num r.ins r.notIns
  | .string r =>
    setDecls (ownType N f (.string r)) (fun s => .text (litString isPrint s)) r.ins r.notIns ++
      patternDecl isPrint r.pattern
  | .bytes r => setDecls (ownType N f (.bytes r)) (fun b => .text (byteStr b)) r.ins r.notIns ++
      patternDecl isPrint r.pattern
  | .enum r => setDecls (ownType N f (.enum r)) .enum r.ins r.notIns
  | .any r => setDecls (ownType N f (.any r)) (fun s => .text (litString isPrint s)) r.ins r.notIns
  | .duration r => setDecls (ownType N f (.duration r)) .dur r.ins r.notIns
  | _ => []

/-! ### Statements -/

/-- What the templates write in the body of `Validate` (all of templates/cc; put together in templates/cc/msg.go:96-122). -/
inductive Stmt
  /-- `{{ hasAccessor . }}`. -/
  | has (ok : Bool)
  /-- `v != 0`, `v != 5`, `v < 7` (num.go:5, const.go:5, ltgt.go). -/
  | number (v : Option CT) (n : Num)
  /-- `v != true` (const.go:5). -/
  | bool (v : Option CT)
  /-- `v != "x"`, `IsPrefix("x", v)` and the like (const.go:5, string.go:6,74-107). -/
  | text (v : Option CT) (src : Bytes)
  /-- `v.size()` compared with numbers (string.go:37-71, bytes.go:13-43, repeated.go:9-25, map.go:10-33). -/
  | size (v : Option CT) (ns : List Nat)
  /-- `pgv::Utf8Len(v)` compared with numbers (string.go:11-35). -/
  | chars (v : Option CT) (ns : List Nat)
  /-- A function of a string (string.go:121-185), or `v.c_str()`. -/
  | str (v : Option CT)
  /-- `RE2::FullMatch(…, pattern)` (string.go:109-116, bytes.go:72-79). -/
  | fullMatch (v : Option CT)
  /-- `table.find(static_cast<decltype(table)::key_type>(v))` (in.go:5,9). -/
  | find (v : Option CT) (t : Var)
  /-- `table.find(v.type_url())` (any.go:8,13). -/
  | findUrl (v : Option CT) (t : Var)
  /-- `table.find(dur)` (duration.go:79,82). -/
  | findDur (t : Var)
  /-- `const pgv::protobuf_wkt::Duration& dur = v;` (duration.go:9). -/
  | durRef (v : Option CT)
  /-- `durLit` compared with a duration (duration.go:18-26). -/
  | dur (d : PDur)
  /-- `E_IsValid(v)`, where the class name of `E` resolves or not (enum.go:9-13). -/
  | isValid (ok : Bool) (v : Option CT)
  /-- `pgv::Validator<T>::CheckMessage(v, …)`, where `T` is the class of `e` (message.go:11). -/
  | check (ok : Bool) (e : ElemT) (v : Option CT)
  /-- `for (… : v)`, `v.Get(i)` (repeated.go:46-47, map.go:36). -/
  | loop (v : Option CT)
  /-- The classes and the set of `unique`, and `const_cast<T&>(item)` (repeated.go:28-56). -/
  | unique (t : Option CT) (item : CT)
  /-- The literal of an error message (register.go:206). -/
  | message (src : Bytes)

/-- The integer types, `bool` and the floats convert into each other, and enum values into integers; no other type
converts to a number (for templates/cc/const.go:5, ltgt.go:5-71, num.go:5). -/
def CT.arithmetic : CT → Bool
  | .num _ | .bool | .enum _ => true
  | _ => false

/-- `static_cast<t>(v)` (for templates/cc/in.go:5,9): between numbers and enums, or a string. -/
def castable (t v : CT) : Bool := (t.arithmetic && v.arithmetic) || (t == .string && v == .string)

/-- The statement compiles, given the tables of the field (all of templates/cc; validate/validate.h:53-152). -/
def Stmt.ok (G : Var → Option DT) : Stmt → Bool
  | .has b => b
  | .number (some t) n => t.arithmetic && numLit n
  | .bool (some t) => t.arithmetic
  | .text (some t) src => t == .string && textLit src
  | .size (some t) ns => (t == .string || t == .list || t == .map) && ns.all fun n => intLit n
  | .chars (some t) ns => t == .string && ns.all fun n => intLit n
  | .str (some t) => t == .string
  | .fullMatch (some t) => t == .string && G .pattern == some .regex
  | .find (some v) t =>
    match G t with
    | some (.set t) => castable t v
    | _ => false
  | .findUrl (some (.message _ (some .any))) t => G t == some (.set .string)
  | .findDur t =>
    match G t with
    | some (.set (.message _ (some .duration))) => true
    | _ => false
  | .durRef (some (.message _ (some .duration))) => true
  | .dur d => durExpr d
  | .isValid ok (some t) => ok && t.arithmetic
  | .check ok e (some t) => ok && t == getterType e
  | .loop (some t) => t == .list || t == .map
  | .unique (some t) item => t == item && (t.arithmetic || t == .string)
  | .message src => textLit src
  | _ => false

/-! ### Templates -/

/-- Something written only if a rule is there (`{{ if $r.X }}`, templates/cc/string.go:73). -/
def opt {α β : Type} (o : Option α) (k : α → List β) : List β :=
  match o with
  | some a => k a
  | none => []

/-- Something written only under a condition (`{{ if }}`, templates/cc/num.go:4). -/
def onlyIf {β : Type} (c : Bool) (b : List β) : List β := if c then b else []

/-- ltgtTpl (templates/cc/ltgt.go:3-65): the limits that are written. -/
def ltgtCode (c : Ctx) (r : NumRules) : List Stmt :=
  let cmp (n : Num) : Stmt := .number c.value n
  match r.lt, r.lte, r.gt, r.gte with
  | some u, _, some l, _ => [cmp l, cmp u]
  | some u, _, none, some l => [cmp l, cmp u]
  | some u, _, none, none => [cmp u]
  | none, some u, some l, _ => [cmp l, cmp u]
  | none, some u, none, some l => [cmp l, cmp u]
  | none, some u, none, none => [cmp u]
  | none, none, some l, _ => [cmp l]
  | none, none, none, some l => [cmp l]
  | none, none, none, none => []

/-- inTpl (templates/cc/in.go:3-13). The messages list the members; only texts can make trouble there
(`texts`: `fmt.Sprint` of a list of strings, register.go:206). -/
def inCode {α : Type} (c : Ctx) (message : String → List α → List Stmt) (ins notIns : List α) : List Stmt :=
  if !ins.isEmpty then .find c.value .inLookup :: message "value must be in list " ins
  else onlyIf (!notIns.isEmpty) (.find c.value .notInLookup :: message "value must not be in list " notIns)

/-- The message of a list of numbers: plain ASCII (templates/cc/in.go:6,10). -/
def plainMessage {α : Type} (_ : String) (_ : List α) : List Stmt := []

/-- The characters of an ASCII text (for templates/cc/in.go:6,10). -/
def ascii (s : String) : Bytes := s.toList.map fun c => UInt8.ofNat c.toNat

/-- `fmt.Sprint` of a list of strings, between brackets (templates/cc/register.go:206). -/
def sprintList (l : List Bytes) : Bytes := 0x5B :: List.flatten (l.intersperse [0x20]) ++ [0x5D]

/-- The message of a list of strings (templates/cc/in.go:6,10; any.go:9,14; register.go:206). -/
def listMessage (isPrint : Nat → Bool) (pre : String) (l : List Bytes) : List Stmt :=
  [.message (litString isPrint (ascii pre ++ sprintList l))]

/-- numTpl (templates/cc/num.go:3-13, const.go:3-9). -/
def numCode (c : Ctx) (r : NumRules) : List Stmt :=
  onlyIf (optB r.ignoreEmpty) [.number c.value (.int 0)] ++ opt r.const (fun n => [.number c.value n]) ++
  ltgtCode c r ++ inCode c plainMessage r.ins r.notIns

/-- The template of `bool` (templates/cc/const.go:3-9, register.go:69). -/
def boolCode (c : Ctx) (r : BoolRules) : List Stmt := opt r.const fun _ => [.bool c.value]

/-- The limits on a length that are written: `len`, or `min_len` and `max_len`, once if they are equal
(templates/cc/string.go:11-35,37-71, bytes.go:13-43). -/
def lengths (len min max : Option Nat) : List Nat :=
  match len, min, max with
  | some n, _, _ => [n]
  | none, some a, some b => if a = b then [a] else [a, b]
  | none, some a, none => [a]
  | none, none, some b => [b]
  | none, none, none => []

/-- strTpl (templates/cc/string.go:3-189). -/
def stringCode (isPrint : Nat → Bool) (c : Ctx) (r : StringRules) : List Stmt :=
  let lit (s : Bytes) : List Stmt := [.text c.value (litString isPrint s)]
  onlyIf (optB r.ignoreEmpty) [.text c.value [0x22, 0x22]] ++ opt r.const lit ++
  inCode c (listMessage isPrint) r.ins r.notIns ++
  onlyIf (!(lengths r.len r.minLen r.maxLen).isEmpty) [.chars c.value (lengths r.len r.minLen r.maxLen)] ++
  onlyIf (!(lengths r.lenBytes r.minBytes r.maxBytes).isEmpty)
    [.size c.value (lengths r.lenBytes r.minBytes r.maxBytes)] ++
  opt r.pfx lit ++ opt r.sfx lit ++ opt r.contains lit ++ opt r.notContains lit ++
  opt r.pattern (fun _ => [.fullMatch c.value]) ++
  (if r.getIp || r.getIpv4 || r.getIpv6 then [.str c.value] else if r.getEmail then []
   else if r.getAddress || r.getHostname then [.str c.value] else if r.getUri || r.getUriRef then []
   else onlyIf r.getUuid [.str c.value])

/-- bytesTpl (templates/cc/bytes.go:3-103). Bytes rules are slices: an empty one is the same as none. -/
def bytesCode (c : Ctx) (r : BytesRules) : List Stmt :=
  let lit (s : Option Bytes) : List Stmt := onlyIf (!(optS s).isEmpty) [.text c.value (litBytes (optS s))]
  onlyIf (optB r.ignoreEmpty) [.size c.value [0]] ++ lit r.const ++ inCode c plainMessage r.ins r.notIns ++
  onlyIf (!(lengths r.len r.minLen r.maxLen).isEmpty) [.size c.value (lengths r.len r.minLen r.maxLen)] ++
  lit r.pfx ++ lit r.sfx ++ lit r.contains ++ opt r.pattern (fun _ => [.fullMatch c.value])

/-- enumTpl (templates/cc/enum.go:3-17). -/
def enumCode (package : Package) (c : Ctx) (r : EnumRules) : List Stmt :=
  opt r.const (fun i => [.number c.value (.int i)]) ++ inCode c plainMessage r.ins r.notIns ++
  onlyIf (optB r.definedOnly) [.isValid package.ok c.value]

/-- requiredTpl (templates/cc/message.go:18-24). -/
def requiredCode (c : Ctx) (required : Bool) : List Stmt := onlyIf required [.has c.has]

/-- anyTpl (templates/cc/any.go:3-17). -/
def anyCode (isPrint : Nat → Bool) (c : Ctx) (r : AnyRules) : List Stmt :=
  requiredCode c (optB r.required) ++
  (if !r.ins.isEmpty then
    [.has c.has, .findUrl c.value .inLookup] ++ listMessage isPrint "type URL must be in list " r.ins
   else onlyIf (!r.notIns.isEmpty)
    ([.has c.has, .findUrl c.value .notInLookup] ++ listMessage isPrint "type URL must not be in list " r.notIns))

/-- durationTpl (templates/cc/duration.go:3-88). -/
def durationCode (c : Ctx) (r : DurationRules) : List Stmt :=
  let lit (d : Option PDur) : List Stmt := opt d fun d => [.dur d]
  requiredCode c (optB r.required) ++
  onlyIf (!r.ins.isEmpty || !r.notIns.isEmpty || r.lt.isSome || r.lte.isSome || r.gt.isSome || r.gte.isSome ||
      r.const.isSome)
    ([.has c.has, .durRef c.value] ++ lit r.const ++ lit r.lt ++ lit r.lte ++ lit r.gt ++ lit r.gte ++
      if !r.ins.isEmpty then [.findDur .inLookup] else onlyIf (!r.notIns.isEmpty) [.findDur .notInLookup])

/-- timestampTpl (templates/cc/timestamp.go:3-8): comparisons throw. -/
def timestampCode (c : Ctx) (r : TimestampRules) : List Stmt := requiredCode c (optB r.required)

/-- messageTpl (templates/cc/message.go:3-16). -/
def messageCode (N : Names) (c : Ctx) (e : ElemT) (m : Option MessageRules) : List Stmt :=
  requiredCode c (msgRequired m) ++
  onlyIf (!msgSkip m) [.has c.has, .check (match e with | .embed n _ => (N.package n).ok | _ => false) e c.value]

/-- The template of the rules of a value that is not a list or map (templates/cc/register.go:54-87). -/
def typeCode (N : Names) (isPrint : Nat → Bool) (f : FieldDesc) (c : Ctx) : TypeRules → List Stmt
  | .num _ r => numCode c r
  | .bool r => boolCode c r
  | .string r => stringCode isPrint c r
  | .bytes r => bytesCode c r
  | .enum r => enumCode (N.enum f).package c r
  | .any r => anyCode isPrint c r
  | .duration r => durationCode c r
  | .timestamp r => timestampCode c r
  | _ => []

/-- Rendering a context (templates/shared/context.go:119-177, templates/cc/wrapper.go:3-12). -/
def elemCode (N : Names) (isPrint : Nat → Bool) (f : FieldDesc) (c : Ctx) (e : ElemT) (rules : FieldRules) :
    List Stmt :=
  match resolve e rules with
  | .none => []
  | .message m => messageCode N c e m
  | .wrapper t _ =>
    .has c.has :: typeCode N isPrint f
      (match e with
        | .embed _ (some w) => { value := c.value.map fun _ => wrappedType w, has := true }
        | _ => ⟨none, true⟩) t
  | .plain t => typeCode N isPrint f c t

/-- `inType $f nil` on a list (templates/cc/repeated.go:4, register.go:286-324). -/
def listType (N : Names) (f : FieldDesc) (e : ElemT) : Option CT :=
  match e with
  | .enum vs => if (N.enum f).listOk then some (.enum vs) else none
  | e => some (getterType e)

/-- The numbers of items or pairs that are written (templates/cc/repeated.go:8-25, map.go:8-33). -/
def counts (min max : Option Nat) : List Nat :=
  if optN min != 0 then
    if optN min = optN max then [optN min] else optN min :: opt max fun n => [n]
  else opt max fun n => [n]

/-- repTpl (templates/cc/repeated.go:3-65). -/
def repeatedCode (N : Names) (isPrint : Nat → Bool) (f : FieldDesc) (e : ElemT) (r : RepeatedRules)
    (items : FieldRules) : List Stmt :=
  let c := fieldCtx N f
  onlyIf (optB r.ignoreEmpty) [.size c.value [0]] ++
  onlyIf (!(counts r.minItems r.maxItems).isEmpty) [.size c.value (counts r.minItems r.maxItems)] ++
  onlyIf (optB r.unique) [.unique (listType N f e) (itemType e)] ++
  onlyIf (optB r.unique || elemTypNotNone e items)
    (.loop c.value :: elemCode N isPrint f (varCtx (itemType e)) e items)

/-- mapTpl (templates/cc/map.go:3-54). -/
def mapCode (N : Names) (isPrint : Nat → Bool) (f : FieldDesc) (kt vt : ElemT) (r : MapRules)
    (keys values : FieldRules) : List Stmt :=
  let c := fieldCtx N f
  onlyIf (optB r.ignoreEmpty) [.size c.value [0]] ++
  onlyIf (!(counts r.minPairs r.maxPairs).isEmpty) [.size c.value (counts r.minPairs r.maxPairs)] ++
  onlyIf (optB r.noSparse || elemTypNotNone vt values || elemTypNotNone kt keys)
    (.loop c.value :: elemCode N isPrint f (varCtx (getterType kt)) kt keys ++
      elemCode N isPrint f (varCtx (getterType vt)) vt values)

/-- The code of a field (`render (context .)`, templates/cc/msg.go:103,109). -/
def fieldCode (N : Names) (isPrint : Nat → Bool) (f : FieldDesc) : List Stmt :=
  match f.typ with
  | .one e => elemCode N isPrint f (fieldCtx N f) e f.rules
  | .rep e =>
    match f.rules.type with
    | .repeated r items => repeatedCode N isPrint f e r items
    | .unset => repeatedCode N isPrint f e {} .absent
    | t => typeCode N isPrint f (fieldCtx N f) t
  | .map kt vt =>
    match f.rules.type with
    | .map r keys values => mapCode N isPrint f kt vt r keys values
    | .unset => if vt.isEmbed then mapCode N isPrint f kt vt {} .absent .absent else []
    | t => typeCode N isPrint f (fieldCtx N f) t

/-- The table a name of the field refers to (templates/cc/register.go:220-227). -/
def scope (ds : List Decl) (v : Var) : Option DT := (ds.find? fun d => d.var == v).bind (·.type)

/-- A field's declarations compile, and so does its code (templates/cc/msg.go:16-92,103,109). -/
def fieldCompiles (N : Names) (isPrint : Nat → Bool) (disabled : Bool) (f : FieldDesc) : Bool :=
  (fieldDecls N isPrint f).all Decl.ok &&
    (disabled || (fieldCode N isPrint f).all (Stmt.ok (scope (fieldDecls N isPrint f))))

/-- The labels of a oneof's `switch` exist (templates/cc/msg.go:106-116, register.go:278-284). -/
def oneofCompiles (N : Names) (o : OneofDesc) : Bool :=
  o.fields.isEmpty || (caseType (N.oneof o) == protocCamel (N.oneof o) &&
    o.fields.all fun f => caseName (N.field f) == protocCamel (N.field f))

/-- The code of a message compiles, in a file whose variables have different names (templates/cc/msg.go:9-122). -/
def msgCompiles (N : Names) (isPrint : Nat → Bool) (m : Named) : Bool :=
  m.desc.ignored || ((N.package m.desc.name).ok && (allFields m.desc).all (fieldCompiles N isPrint m.desc.disabled) &&
    (m.desc.disabled || (m.desc.oneofs.all (oneofCompiles N) && decide (msgLocals m).Nodup)))

/-- The generated .cc file compiles (templates/cc/file.go:3-51). -/
def fileCompiles (N : Names) (isPrint : Nat → Bool) (F : File) : Bool :=
  decide (fileDecls F).Nodup && F.all (msgCompiles N isPrint)

end PGV.Cpp
