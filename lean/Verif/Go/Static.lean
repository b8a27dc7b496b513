import Verif.Go.Emit

/-!
The generated Go code as the Go compiler sees it: for each template, the operations of the code it writes,
the local variables it declares and the tables it declares at package level, and the rules of the language
that this code can break: operand types, constants that a type cannot represent, declared and unused
variables, undeclared names, map key types and duplicate map keys.

Left out are parts of the code that are the same for all rules, and variables that are used in the same
statement that declares them (`l`, `ip`, `uri`, `err`, `ok`, `exists`, `v`, and `val` in ltgt.go).
-/

namespace PGV.Go
open PGV

/-- Go types of the operands in generated code: what protoc-gen-go's getters return, `int` for lengths,
and the types of package time. `ptr` is a pointer to a message
(for the accessors of templates/goshared/register.go:94-100). -/
inductive Ty
  | float32 | float64 | int32 | int64 | uint32 | uint64
  | bool | string | bytes | enum
  | ptr (w : Option WKT)
  | list (e : ElemT)
  | map (k v : ElemT)
  | int | duration | time
  deriving DecidableEq, Repr

/-- The Go type of a numeric kind (protoc-gen-go; templates/goshared/register.go:213-233 prints it). -/
def NumKind.goTy : NumKind → Ty
  | .float => .float32
  | .double => .float64
  | .int32 | .sint32 | .sfixed32 => .int32
  | .int64 | .sint64 | .sfixed64 => .int64
  | .uint32 | .fixed32 => .uint32
  | .uint64 | .fixed64 => .uint64

/-- The Go type of an element, as protoc-gen-go declares it; templates/goshared/repeated.go:38-44 prints it. -/
def elemTy : ElemT → Ty
  | .scalar k => NumKind.goTy k
  | .bool => .bool
  | .string => .string
  | .bytes => .bytes
  | .enum _ => .enum
  | .embed _ w => .ptr w

/-- The Go type of a field's getter (`accessor`, templates/goshared/register.go:94-100). -/
def fieldTy : FieldT → Ty
  | .one e => elemTy e
  | .rep e => .list e
  | .map k v => .map k v

/-- The type of a wrapper's `value` field, read by `GetValue()` (templates/goshared/register.go:288-298). -/
def protoTy : ProtoType → Option Ty
  | .num k => some (NumKind.goTy k)
  | .bool => some .bool
  | .string => some .string
  | .bytes => some .bytes
  | .enum => some .enum
  | .message | .group => none

/-- The constants that templates print (templates/goshared/register.go:166-191,234-249). -/
inductive Lit
  /-- `fmt.Sprint` of a number (templates/goshared/register.go:189-190, and `{{ $r.Lt }}`). -/
  | num (n : Num)
  /-- The `0` of templates/goshared/num.go:5. -/
  | zero
  /-- A length, `{{ $r.GetLen }}`. -/
  | nat (n : Nat)
  /-- An enum number. -/
  | int (i : Int)
  | bool (b : Bool)
  /-- `%q` (templates/goshared/register.go:178-179): always a string literal. -/
  | str (s : Bytes)
  /-- `byteStr` (templates/goshared/register.go:200-207). -/
  | esc (b : Bytes)
  /-- `lit(int64(dur))` (templates/goshared/register.go:240-242). -/
  | nanos (i : Int)
  deriving DecidableEq, Repr

/-- The bit pattern is neither an infinity nor NaN, which `fmt.Sprint` prints as words
(templates/goshared/register.go:189-190). -/
def finite32 (b : BitVec 32) : Bool := b.toNat / 8388608 % 256 != 255
/-- The same for doubles (templates/goshared/register.go:189-190). -/
def finite64 (b : BitVec 64) : Bool := b.toNat / 4503599627370496 % 2048 != 2047

/-- An integer in the range of an integer type (for templates/goshared/ltgt.go:3-89). -/
def intFits (i : Int) : Ty → Bool
  | .int32 | .enum => decide (-2147483648 ≤ i ∧ i < 2147483648)
  | .int64 | .int | .duration => decide (-9223372036854775808 ≤ i ∧ i < 9223372036854775808)
  | .uint32 => decide (0 ≤ i ∧ i < 4294967296)
  | .uint64 => decide (0 ≤ i ∧ i < 18446744073709551616)
  | _ => false

/-- The printed constant is one of the type: Go's representability rule. Infinities and NaN print as `+Inf`,
`-Inf` and `NaN`, which are not declared. `byteStr` prints bytes below 16 with one digit after `\x`, which
is not an escape. `int` has 64 bits (for templates/goshared/const.go:5 and ltgt.go:3-89). -/
def Lit.fits : Lit → Ty → Bool
  | .num (.int i), t => intFits i t
  | .zero, .float32 | .zero, .float64 | .zero, .int32 | .zero, .int64 | .zero, .uint32 | .zero, .uint64 => true
  | .num (.f32 b), .float32 => finite32 b
  | .num (.f64 b), .float64 => finite64 b
  | .nat n, .int => decide (n < 9223372036854775808)
  | .int i, .enum => intFits i .enum
  | .bool _, .bool => true
  | .str _, .string => true
  | .esc b, .string => b.all fun x => decide (16 ≤ x.toNat)
  | .nanos i, .duration => intFits i .duration
  | _, _ => false

/-- Two keys of a map literal are the same constant (for the tables of templates/goshared/msg.go:136-190). -/
def Lit.same : Lit → Lit → Bool
  | .num a, .num b => a.eq b
  | a, b => a == b

/-- Local variables of generated code (templates/goshared/repeated.go:46, map.go:39, wrapper.go:6, any.go:6,
duration.go:12-15, timestamp.go:11-16, templates/go/duration.go:7-8, templates/go/timestamp.go:7-8). -/
inductive Local
  | idx | item | key | val | wrapper | a | d | dur | t | ts | lt | lte | gt | gte | now | within
  deriving DecidableEq, Repr

/-- Types of the local variables in scope
(for the declarations in templates/goshared/duration.go:13-16, map.go:39, repeated.go:47 and string.go:28). -/
abbrev Scope := Local → Option Ty

/-- No local variable but the receiver (templates/goshared/msg.go:24). -/
def Scope.empty : Scope := fun _ => none
/-- A declaration in scope
(for the declarations in templates/goshared/duration.go:13-16, map.go:39, repeated.go:47 and string.go:28). -/
def Scope.set (G : Scope) (x : Local) (t : Ty) : Scope := fun y => if y = x then some t else G y

/-- Operands: `m.Get<Field>()`, a local variable, `wrapper.GetValue()`
(templates/goshared/register.go:94-100, 288-298). -/
inductive Opnd
  | get (t : FieldT)
  | loc (x : Local)
  | value (x : Local)
  deriving DecidableEq, Repr

/-- The type of an operand (templates/goshared/register.go:94-100). -/
def Opnd.ty (G : Scope) : Opnd → Option Ty
  | .get t => some (fieldTy t)
  | .loc x => G x
  | .value x =>
    match G x with
    | some (.ptr (some w)) =>
      match w.wrapped with
      | some p => protoTy p
      | none => none
    | _ => none

/-- The operand mentions the variable (templates/goshared/register.go:94-100). -/
def Opnd.uses (x : Local) : Opnd → Bool
  | .get _ => false
  | .loc y => y == x
  | .value y => y == x

/-- Right-hand sides of declarations of local variables
(templates/goshared/duration.go:13-16; timestamp.go:12-17). -/
inductive Rhs
  | opnd (o : Opnd)
  /-- `d.AsDuration()` -/
  | asDuration (x : Local)
  /-- `t.AsTime()` -/
  | asTime (x : Local)
  /-- `durLit` (templates/goshared/register.go:251-255) -/
  | durLit (d : PDur)
  /-- `tsLit` (templates/goshared/register.go:269-274) -/
  | tsLit (t : PTime)
  /-- `time.Now()` -/
  | now
  /-- The first and the second variable of a `range` loop. -/
  | rangeFst (o : Opnd)
  | rangeSnd (o : Opnd)

/-- `time.Duration(S * time.Second + N * time.Nanosecond)` is a constant expression with typed operands: both
products and the sum must be values of the type (templates/goshared/register.go:251-255). -/
def durLitFits (d : PDur) : Bool :=
  intFits (d.seconds * 1000000000) .duration && intFits d.nanos .duration && intFits d.exact .duration

/-- `time.Unix(S, N)`: two int64 arguments (templates/goshared/register.go:269-274). -/
def tsLitFits (t : PTime) : Bool := intFits t.seconds .int64 && intFits t.nanos .int64

/-- Type of a right-hand side, if it is well formed (templates/goshared/duration.go:13-16; timestamp.go:12-17). -/
def Rhs.ty (G : Scope) : Rhs → Option Ty
  | .opnd o => o.ty G
  | .asDuration x => if G x = some (.ptr (some .duration)) then some .duration else none
  | .asTime x => if G x = some (.ptr (some .timestamp)) then some .time else none
  | .durLit d => if durLitFits d then some .duration else none
  | .tsLit t => if tsLitFits t then some .time else none
  | .now => some .time
  | .rangeFst o =>
    match o.ty G with
    | some (.list _) => some .int
    | some (.map k _) => some (elemTy k)
    | _ => none
  | .rangeSnd o =>
    match o.ty G with
    | some (.list e) => some (elemTy e)
    | some (.map _ v) => some (elemTy v)
    | _ => none

/-- The right-hand side mentions the variable (templates/goshared/duration.go:13-16; timestamp.go:12-17). -/
def Rhs.uses (x : Local) : Rhs → Bool
  | .opnd o | .rangeFst o | .rangeSnd o => o.uses x
  | .asDuration y | .asTime y => y == x
  | _ => false

/-- The operations of generated code (templates/goshared/ltgt.go:3-89, string.go:3-190, bytes.go:3-123, duration.go:3-118, timestamp.go:3-138, enum.go:3-15,
repeated.go:3-66, map.go:3-60, wrapper.go:3-13). -/
inductive Code
  | skip
  | seq (a b : Code)
  /-- `o op c`, a comparison with a constant -/
  | cmp (o : Opnd) (c : Lit)
  /-- `o op durLit`, on durations -/
  | cmpDur (x : Local) (d : PDur)
  /-- `ts.Equal(tsLit)` -/
  | cmpTime (x : Local) (t : PTime)
  /-- `x op y` on durations -/
  | durVars (x y : Local)
  /-- `ts.Sub(y) op 0` -/
  | timeVars (x y : Local)
  /-- `ts.Sub(now.Add(within))` -/
  | addVars (x y z : Local)
  /-- `len(o) op n` -/
  | len (o : Opnd) (n : Nat)
  /-- `utf8.RuneCountInString(o) op n` -/
  | runes (o : Opnd) (n : Nat)
  /-- A function of a string -/
  | onString (o : Opnd)
  /-- A function of bytes, or the conversion to `net.IP` -/
  | onBytes (o : Opnd)
  /-- `o == nil` -/
  | isNil (o : Opnd)
  /-- `a.GetTypeUrl()` as an index -/
  | typeUrl (v : Var) (x : Local)
  /-- `table[o]` -/
  | index (v : Var) (o : Opnd)
  /-- `table[string(o)]` -/
  | indexBytes (v : Var) (o : Opnd)
  /-- `pattern.MatchString(o)` -/
  | matchStr (o : Opnd)
  /-- `pattern.Match(o)` -/
  | matchBytes (o : Opnd)
  /-- `<Enum>_name[int32(o)]` -/
  | enumName (o : Opnd)
  /-- `interface{}(o).(type)` -/
  | iface (o : Opnd)
  /-- A map with keys of the type of the list's elements (`unique`), or of strings -/
  | uniqueMap (e : ElemT)
  /-- An error with or without an index (templates/goshared/register.go:110-143). -/
  | report (idx : Option Local)
  /-- `_, _ = x, y` -/
  | blank (x : Local)
  /-- A declaration and its scope. -/
  | bind (x : Local) (r : Rhs) (body : Code)

infixr:60 " ;; " => Code.seq

/-- The code mentions a variable of an enclosing scope
(for the declarations in templates/goshared/duration.go:13-16 and map.go:39-40). -/
def Code.uses (x : Local) : Code → Bool
  | .skip => false
  | .seq a b => a.uses x || b.uses x
  | .cmp o _ | .len o _ | .runes o _ | .onString o | .onBytes o | .isNil o | .index _ o | .indexBytes _ o
  | .matchStr o | .matchBytes o | .enumName o | .iface o => o.uses x
  | .cmpDur y _ | .cmpTime y _ | .typeUrl _ y => y == x
  | .durVars y z | .timeVars y z => y == x || z == x
  | .addVars y z w => y == x || z == x || w == x
  | .uniqueMap _ => false
  | .report i => i == some x
  /- `_ = x` does count as a use for the compiler. -/
  | .blank y => y == x
  | .bind y r body => r.uses x || (y != x && body.uses x)

/-- A declaration at package level: a lookup table with its key type and its keys, or a pattern
(templates/goshared/msg.go:135-208). -/
inductive Decl
  | table (v : Var) (t : Ty) (keys : List Lit)
  | regex
  deriving DecidableEq, Repr

/-- Which variable a declaration is for (templates/goshared/msg.go:135-208). -/
def Decl.var : Decl → Var
  | .table v _ _ => v
  | .regex => .pattern

/-- Key types of maps must be comparable: slices are not (for templates/goshared/msg.go:136-190). -/
def Ty.comparable : Ty → Bool
  | .bytes | .list _ | .map _ _ => false
  | _ => true

/-- No two keys are the same (for templates/goshared/msg.go:136-190). -/
def distinct : List Lit → Bool
  | [] => true
  | k :: ks => !ks.any (·.same k) && distinct ks

/-- A table compiles: "invalid map key type", "cannot use … as …", "duplicate key in map literal"
(for templates/goshared/msg.go:135-208). -/
def Decl.ok : Decl → Bool
  | .table _ t keys => t.comparable && keys.all (·.fits t) && distinct keys
  | .regex => true

/-- The key type of a declared table (for templates/goshared/in.go:5,11). -/
def keyTy (ds : List Decl) (v : Var) : Option Ty :=
  match ds.find? (·.var == v) with
  | some (.table _ t _) => some t
  | _ => none

/-- The pattern is declared (for templates/goshared/string.go:179). -/
def hasPattern (ds : List Decl) : Bool := ds.any (·.var == .pattern)

/-- The code is well formed: operands have the types the operations need, constants are representable, tables
and patterns are declared, every local variable is used (for the code of
templates/goshared/ltgt.go:3-89, string.go:3-190, bytes.go:3-123, duration.go:3-118, timestamp.go:3-138, enum.go:3-15,
repeated.go:3-66, map.go:3-60, wrapper.go:3-13). -/
def Code.ok (ds : List Decl) (G : Scope) : Code → Bool
  | .skip => true
  | .seq a b => a.ok ds G && b.ok ds G
  | .cmp o c => match o.ty G with | some t => c.fits t | none => false
  | .cmpDur x d => G x == some .duration && durLitFits d
  | .cmpTime x t => G x == some .time && tsLitFits t
  | .durVars x y => G x == some .duration && G y == some .duration
  | .timeVars x y => G x == some .time && G y == some .time
  | .addVars x y z => G x == some .time && G y == some .time && G z == some .duration
  | .len o n =>
    (match o.ty G with
     | some .string | some .bytes | some (.list _) | some (.map _ _) => true
     | _ => false) && (Lit.nat n).fits .int
  | .runes o n => o.ty G == some .string && (Lit.nat n).fits .int
  | .onString o => o.ty G == some .string
  | .onBytes o => o.ty G == some .bytes
  | .isNil o => match o.ty G with | some (.ptr _) => true | _ => false
  | .typeUrl v x => G x == some (.ptr (some .any)) && keyTy ds v == some .string
  | .index v o => match o.ty G with | some t => keyTy ds v == some t | none => false
  | .indexBytes v o => o.ty G == some .bytes && keyTy ds v == some .string
  | .matchStr o => o.ty G == some .string && hasPattern ds
  | .matchBytes o => o.ty G == some .bytes && hasPattern ds
  | .enumName o => o.ty G == some .enum
  | .iface o => (o.ty G).isSome
  | .uniqueMap e => e == .bytes || (elemTy e).comparable
  | .report i => match i with | none => true | some x => (G x).isSome
  | .blank x => (G x).isSome
  | .bind x r body => match r.ty G with | some t => body.uses x && body.ok ds (G.set x t) | none => false

/-! ### The templates -/

/-- A rule context (templates/shared/context.go:8-17): `accessor` and the index variable. -/
structure SCtx where
  acc : Opnd
  index : Option Local

/-- `err` and `errCause` (templates/goshared/register.go:110-143). -/
def SCtx.err (c : SCtx) : Code := .report c.index

/-- Code under a template condition (templates/goshared/const.go:4). -/
def codeIf (b : Bool) (x : Code) : Code := if b then x else .skip

/-- A comparison with a constant, if it is set (templates/goshared/const.go:3-11). -/
def cmpOpt {α : Type} (x : Option α) (k : α → Code) : Code := match x with | some a => k a | none => .skip

/-- templates/goshared/ltgt.go:3-89: which bounds are printed. Whether the range is printed as inside or outside
makes no difference here. -/
def ltgtCode (c : SCtx) (r : NumRules) : Code :=
  let two (a b : Num) : Code := .cmp c.acc (.num a) ;; .cmp c.acc (.num b) ;; c.err
  let one (a : Num) : Code := .cmp c.acc (.num a) ;; c.err
  match r.lt with
  | some lt =>
    match r.gt with
    | some gt => two gt lt
    | none =>
      match r.gte with
      | some gte => two gte lt
      | none => one lt
  | none =>
    match r.lte with
    | some lte =>
      match r.gt with
      | some gt => two gt lte
      | none =>
        match r.gte with
        | some gte => two gte lte
        | none => one lte
    | none =>
      match r.gt with
      | some gt => one gt
      | none =>
        match r.gte with
        | some gte => one gte
        | none => .skip

/-- templates/goshared/in.go:3-17, with the operation that looks up the value. -/
def inCode (c : SCtx) (ins notIns : Bool) (look : Var → Code) : Code :=
  if ins then look .inLookup ;; c.err
  else if notIns then look .notInLookup ;; c.err
  else .skip

/-- templates/goshared/num.go:3-16, const.go:3-11. -/
def numCode (c : SCtx) (r : NumRules) : Code :=
  codeIf (optB r.ignoreEmpty) (.cmp c.acc .zero) ;;
  cmpOpt r.const (fun k => .cmp c.acc (.num k) ;; c.err) ;;
  ltgtCode c r ;;
  inCode c (!r.ins.isEmpty) (!r.notIns.isEmpty) (fun v => .index v c.acc)

/-- templates/goshared/const.go:3-11 on a bool. -/
def boolCode (c : SCtx) (r : BoolRules) : Code := cmpOpt r.const fun k => .cmp c.acc (.bool k) ;; c.err

/-- The length rules of templates/goshared/string.go:13-45 and 47-79, bytes.go:10-44. -/
def lenCode (c : SCtx) (len min max : Option Nat) (cmp : Nat → Code) : Code :=
  if len.isSome || (min.isSome && max.isSome && optN min == optN max) then
    if len.isSome then cmp (optN len) ;; c.err else cmp (optN min) ;; c.err
  else if min.isSome then
    if max.isSome then cmp (optN min) ;; cmp (optN max) ;; c.err else cmp (optN min) ;; c.err
  else if max.isSome then cmp (optN max) ;; c.err
  else .skip

/-- templates/goshared/string.go:81-111. -/
def strAffixCode (c : SCtx) (r : StringRules) : Code :=
  codeIf r.pfx.isSome (.onString c.acc ;; c.err) ;;
  codeIf r.sfx.isSome (.onString c.acc ;; c.err) ;;
  codeIf r.contains.isSome (.onString c.acc ;; c.err) ;;
  codeIf r.notContains.isSome (.onString c.acc ;; c.err)

/-- templates/goshared/string.go:113-176. Whether the helpers exist is `needs`. -/
def strKnownCode (c : SCtx) (r : StringRules) : Code :=
  codeIf (r.getIp || r.getIpv4 || r.getIpv6 || r.getEmail || r.getHostname || r.getAddress || r.getUri ||
    r.getUriRef || r.getUuid) (.onString c.acc ;; c.err)

/-- templates/goshared/string.go:3-190. -/
def strCode (c : SCtx) (r : StringRules) : Code :=
  codeIf (optB r.ignoreEmpty) (.cmp c.acc (.str [])) ;;
  cmpOpt r.const (fun k => .cmp c.acc (.str k) ;; c.err) ;;
  inCode c (!r.ins.isEmpty) (!r.notIns.isEmpty) (fun v => .index v c.acc) ;;
  lenCode c r.len r.minLen r.maxLen (fun n => .runes c.acc n) ;;
  lenCode c r.lenBytes r.minBytes r.maxBytes (fun n => .len c.acc n) ;;
  strAffixCode c r ;;
  strKnownCode c r ;;
  codeIf r.pattern.isSome (.matchStr c.acc ;; c.err)

/-- templates/goshared/bytes.go:3-123. -/
def bytesCode (c : SCtx) (r : BytesRules) : Code :=
  codeIf (optB r.ignoreEmpty) (.len c.acc 0) ;;
  lenCode c r.len r.minLen r.maxLen (fun n => .len c.acc n) ;;
  codeIf (!(optS r.pfx).isEmpty) (.onBytes c.acc ;; c.err) ;;
  codeIf (!(optS r.sfx).isEmpty) (.onBytes c.acc ;; c.err) ;;
  codeIf (!(optS r.contains).isEmpty) (.onBytes c.acc ;; c.err) ;;
  inCode c (!r.ins.isEmpty) (!r.notIns.isEmpty) (fun v => .indexBytes v c.acc) ;;
  codeIf (!(optS r.const).isEmpty) (.onBytes c.acc ;; c.err) ;;
  codeIf (r.getIp || r.getIpv4 || r.getIpv6) (.onBytes c.acc ;; c.err) ;;
  codeIf r.pattern.isSome (.matchBytes c.acc ;; c.err)

/-- templates/goshared/enum.go:3-15. -/
def enumCode (c : SCtx) (r : EnumRules) : Code :=
  cmpOpt r.const (fun k => .cmp c.acc (.int k) ;; c.err) ;;
  inCode c (!r.ins.isEmpty) (!r.notIns.isEmpty) (fun v => .index v c.acc) ;;
  codeIf (optB r.definedOnly) (.enumName c.acc ;; c.err)

/-- templates/go/required.go:3-11. -/
def requiredCode (c : SCtx) (required : Bool) : Code := codeIf required (.isNil c.acc ;; c.err)

/-- templates/goshared/any.go:3-21. -/
def anyCode (c : SCtx) (r : AnyRules) : Code :=
  requiredCode c (optB r.required) ;;
  .bind .a (.opnd c.acc)
    (.isNil (.loc .a) ;; inCode c (!r.ins.isEmpty) (!r.notIns.isEmpty) (fun v => .typeUrl v .a))

/-- A declaration, if the bound is set (templates/goshared/duration.go:13-16). -/
def bindOpt {α : Type} (x : Local) (b : Option α) (k : α → Rhs) (body : Code) : Code :=
  match b with
  | some a => .bind x (k a) body
  | none => body

/-- The chain lt / lte / gt / gte of templates/goshared/duration.go:18-102 and timestamp.go:18-102: which of the
declared variables are used. `rest` is what follows when none of them is set. -/
def chainCode (use : Local → Code) (c : SCtx) (lt lte gt gte : Bool) (rest : Code) : Code :=
  if lt then
    if gt then use .gt ;; use .lt ;; c.err
    else if gte then use .gte ;; use .lt ;; c.err
    else use .lt ;; c.err
  else if lte then
    if gt then use .gt ;; use .lte ;; c.err
    else if gte then use .gte ;; use .lte ;; c.err
    else use .lte ;; c.err
  else if gt then use .gt ;; c.err
  else if gte then use .gte ;; c.err
  else rest

/-- templates/goshared/duration.go:3-118. -/
def durationcmpCode (c : SCtx) (r : DurationRules) : Code :=
  cmpOpt r.const (fun k => .cmpDur .dur k ;; c.err) ;;
  bindOpt .lt r.lt .durLit (bindOpt .lte r.lte .durLit (bindOpt .gt r.gt .durLit (bindOpt .gte r.gte .durLit
    (chainCode (.durVars .dur) c r.lt.isSome r.lte.isSome r.gt.isSome r.gte.isSome .skip ;;
     inCode c (!r.ins.isEmpty) (!r.notIns.isEmpty) (fun v => .index v (.loc .dur))))))

/-- templates/go/duration.go:3-18. -/
def durationCode (c : SCtx) (r : DurationRules) : Code :=
  requiredCode c (optB r.required) ;;
  codeIf (!r.ins.isEmpty || !r.notIns.isEmpty || r.lt.isSome || r.lte.isSome || r.gt.isSome ||
      r.gte.isSome || r.const.isSome)
    (.bind .d (.opnd c.acc) (.isNil (.loc .d) ;; .bind .dur (.asDuration .d) (c.err ;; durationcmpCode c r)))

/-- templates/goshared/timestamp.go:103-136. -/
def nowCode (c : SCtx) (r : TimestampRules) : Code :=
  if r.ltNow.isSome || r.gtNow.isSome then
    .timeVars .ts .now ;; codeIf r.within.isSome (.addVars .ts .now .within) ;; c.err
  else codeIf r.within.isSome (.addVars .ts .now .within ;; c.err)

/-- templates/goshared/timestamp.go:3-138. -/
def timestampcmpCode (c : SCtx) (r : TimestampRules) : Code :=
  cmpOpt r.const (fun k => .cmpTime .ts k ;; c.err) ;;
  bindOpt .now (if r.ltNow.isSome || r.gtNow.isSome || r.within.isSome then some () else none) (fun _ => .now)
    (bindOpt .lt r.lt .tsLit (bindOpt .lte r.lte .tsLit (bindOpt .gt r.gt .tsLit (bindOpt .gte r.gte .tsLit
      (bindOpt .within r.within .durLit
        (chainCode (.timeVars .ts) c r.lt.isSome r.lte.isSome r.gt.isSome r.gte.isSome (nowCode c r)))))))

/-- templates/go/timestamp.go:3-18. -/
def timestampCode (c : SCtx) (r : TimestampRules) : Code :=
  requiredCode c (optB r.required) ;;
  codeIf (r.lt.isSome || r.lte.isSome || r.gt.isSome || r.gte.isSome || r.ltNow.isSome ||
      r.gtNow.isSome || r.within.isSome || r.const.isSome)
    (.bind .t (.opnd c.acc) (.isNil (.loc .t) ;; .bind .ts (.asTime .t) (c.err ;; timestampcmpCode c r)))

/-- `render` of scalar rules, Any, Duration and Timestamp (templates/shared/context.go:119-177). Lists and maps
are in `fieldCode`. -/
def plainCode (c : SCtx) : TypeRules → Code
  | .num _ r => numCode c r
  | .bool r => boolCode c r
  | .string r => strCode c r
  | .bytes r => bytesCode c r
  | .enum r => enumCode c r
  | .any r => anyCode c r
  | .duration r => durationCode c r
  | .timestamp r => timestampCode c r
  | _ => .skip

/-- templates/go/message.go:4-29. -/
def messageCode (c : SCtx) (m : Option MessageRules) : Code :=
  requiredCode c (msgRequired m) ;; codeIf (!msgSkip m) (.iface c.acc ;; c.err)

/-- templates/goshared/wrapper.go:3-13. -/
def wrapperCode (c : SCtx) (t : TypeRules) (m : Option MessageRules) : Code :=
  .bind .wrapper (.opnd c.acc)
    (.isNil (.loc .wrapper) ;; plainCode { c with acc := .value .wrapper } t ;; codeIf (msgRequired m) c.err)

/-- The code for a singular field or an element (templates/shared/context.go:119-177). -/
def elemCode (c : SCtx) (e : ElemT) (rules : FieldRules) : Code :=
  match resolve e rules with
  | .none => .skip
  | .message m => messageCode c m
  | .wrapper t m => wrapperCode c t m
  | .plain t => plainCode c t

/-- templates/goshared/repeated.go:10-36 and map.go:10-36. -/
def countCode (c : SCtx) (min max : Option Nat) : Code :=
  if optN min != 0 then
    if optN min == optN max then .len c.acc (optN min) ;; c.err
    else if max.isSome then .len c.acc (optN min) ;; .len c.acc (optN max) ;; c.err
    else .len c.acc (optN min) ;; c.err
  else if max.isSome then .len c.acc (optN max) ;; c.err
  else .skip

/-- templates/goshared/repeated.go:3-66. -/
def repCode (c : SCtx) (e : ElemT) (r : RepeatedRules) (items : FieldRules) : Code :=
  codeIf (optB r.ignoreEmpty) (.len c.acc 0) ;;
  countCode c r.minItems r.maxItems ;;
  codeIf (optB r.unique) (.uniqueMap e ;; .len c.acc 0) ;;
  codeIf (optB r.unique || elemTypNotNone e items)
    (.bind .idx (.rangeFst c.acc) (.bind .item (.rangeSnd c.acc)
      (.blank .idx ;; .blank .item ;; codeIf (optB r.unique) (.report (some .idx)) ;;
       elemCode ⟨.loc .item, some .idx⟩ e items)))

/-- `render (.Key "key" "key")` (templates/goshared/map.go:50). -/
def keyCode (rules : FieldRules) : Code := plainCode ⟨.loc .key, some .key⟩ rules.type

/-- templates/goshared/map.go:3-60. Only `val` is used by a blank assignment. -/
def mapCode (c : SCtx) (kt vt : ElemT) (r : MapRules) (keys values : FieldRules) : Code :=
  codeIf (optB r.ignoreEmpty) (.len c.acc 0) ;;
  countCode c r.minPairs r.maxPairs ;;
  codeIf (optB r.noSparse || elemTypNotNone vt values || elemTypNotNone kt keys)
    (.bind .key (.rangeFst c.acc) (.bind .val (.rangeSnd c.acc)
      (.blank .val ;; codeIf (optB r.noSparse) (.isNil (.loc .val) ;; .report (some .key)) ;;
       keyCode keys ;; elemCode ⟨.loc .val, some .key⟩ vt values)))

/-- The code of a field (templates/goshared/msg.go:31-33,40). Rules of the wrong kind for a list or map are
rendered by their own template on the field itself. -/
def fieldCode (f : FieldDesc) : Code :=
  let c : SCtx := ⟨.get f.typ, none⟩
  match f.typ with
  | .one e => elemCode c e f.rules
  | .rep e =>
    match f.rules.type with
    | .repeated r items => repCode c e r items
    | .unset => repCode c e {} .absent
    | t => plainCode c t
  | .map kt vt =>
    match f.rules.type with
    | .map r keys values => mapCode c kt vt r keys values
    | .unset => if vt.isEmbed then mapCode c kt vt {} .absent .absent else .skip
    | t => plainCode c t

/-! ### Tables -/

/-- `inType` (templates/goshared/register.go:213-233) on a field and the Go type of its list's elements:
`string` for bytes, `time.Duration` for lists of durations, the elements' type for messages, the field's
type otherwise. -/
def inTy (t : FieldT) (list : Ty) : Ty :=
  match t with
  | .one e | .rep e =>
    match e with
    | .bytes => .string
    | .embed _ _ => list
    | e => match t with | .rep (.enum _) => .enum | .rep _ => .list e | _ => elemTy e
  | .map _ _ => list

/-- `inKey` (templates/goshared/register.go:235-249) on a member of the list. Simplification: on a bytes field with
a list of another kind the type assertion to `[]byte` panics. -/
def byteKey (t : FieldT) (b : Bytes) : Lit :=
  match t with
  | .one .bytes | .rep .bytes => .esc b
  | _ => .str b

/-- A table, if the list is not empty (templates/goshared/msg.go:136-148). -/
def tableIf (v : Var) (t : Ty) (keys : List Lit) : List Decl := if keys.isEmpty then [] else [.table v t keys]

/-- A pattern, if it is set (templates/goshared/msg.go:150-154). -/
def regexIf (p : Option Bytes) : List Decl := if p.isSome then [.regex] else []

/-- The tables of a field's own rules (templates/goshared/msg.go:136-154). -/
def ownDecls (t : FieldT) : TypeRules → List Decl
  | .num k r =>
    tableIf .inLookup (inTy t (NumKind.goTy k)) (r.ins.map .num) ++
      tableIf .notInLookup (inTy t (NumKind.goTy k)) (r.notIns.map .num)
  | .string r =>
    tableIf .inLookup (inTy t .string) (r.ins.map (byteKey t)) ++
      tableIf .notInLookup (inTy t .string) (r.notIns.map (byteKey t)) ++ regexIf r.pattern
  | .bytes r =>
    tableIf .inLookup (inTy t .bytes) (r.ins.map (byteKey t)) ++
      tableIf .notInLookup (inTy t .bytes) (r.notIns.map (byteKey t)) ++ regexIf r.pattern
  | .enum r =>
    tableIf .inLookup (inTy t .enum) (r.ins.map .int) ++ tableIf .notInLookup (inTy t .enum) (r.notIns.map .int)
  | .any r =>
    tableIf .inLookup (inTy t .string) (r.ins.map .str) ++
      tableIf .notInLookup (inTy t .string) (r.notIns.map .str)
  | .duration r =>
    tableIf .inLookup (inTy t .duration) (r.ins.map fun d => .nanos d.asDuration) ++
      tableIf .notInLookup (inTy t .duration) (r.notIns.map fun d => .nanos d.asDuration)
  | _ => []

/-- The tables declared for a field (templates/goshared/msg.go:135-208), in order. -/
def fieldDecls (f : FieldDesc) : List Decl :=
  match f.rules.type with
  | .repeated _ items =>
    match items.type with
    | .string r =>
      regexIf r.pattern ++ tableIf .inLookup .string (r.ins.map (byteKey f.typ)) ++
        tableIf .notInLookup .string (r.notIns.map (byteKey f.typ))
    | .enum r =>
      tableIf .inLookup (inTy f.typ .enum) (r.ins.map .int) ++
        tableIf .notInLookup (inTy f.typ .enum) (r.notIns.map .int)
    | _ => []
  | .map _ keys values =>
    (match keys.type with | .string r => regexIf r.pattern | _ => []) ++
    (match values.type with | .string r => regexIf r.pattern | _ => [])
  | t => ownDecls f.typ t

/-! ### Messages and files -/

/-- The Go code of a message compiles, apart from names that other messages declare: the tables
(templates/goshared/msg.go:135-208) and, unless the message is disabled, the body of `validate`
(templates/goshared/msg.go:24-58). -/
def msgCompiles (d : MsgDesc) : Bool :=
  d.ignored ||
    ((allFields d).all fun f =>
      (fieldDecls f).all Decl.ok && (d.disabled || (fieldCode f).ok (fieldDecls f) Scope.empty))

/-- The names of the types a message brings to the package: its own, by protoc-gen-go, and those of its errors
(templates/goshared/msg.go:68,83). -/
def typeNames (d : MsgDesc) : List String :=
  d.name :: if d.ignored then [] else [d.name ++ "MultiError", d.name ++ "ValidationError"]

/-- The generated methods (templates/goshared/msg.go:10,19) have the name of one of the struct's fields. -/
def methodClash (d : MsgDesc) : Bool :=
  !d.ignored && (d.fields.map (·.name) ++ d.oneofs.map (·.name)).any fun n => n == "Validate" || n == "ValidateAll"

/-- The Go file compiles: every message does, no name is declared twice, and the helpers and the uuid pattern
that are called are emitted (templates/go/file.go:46-53, templates/goshared/msg.go:61-65). -/
def fileCompiles (F : FileDesc) : Bool :=
  F.all.all msgCompiles && decide (fileDecls F).Nodup && decide (F.all.flatMap typeNames).Nodup &&
    !F.all.any methodClash &&
    F.all.all (fun d => (msgCalls d).all (needs d)) &&
    (F.all.all (fun d => !(msgCalls d).contains .uuid) || fileNeeds F .uuid)

end PGV.Go
