import Verif.Cpp.Literal
import Verif.Go.Validate

/-!
The C++ code the generator emits (templates/cc): what the generated `Validate(m, err)` does. Rule
constants are taken at what their literals denote.
-/

namespace PGV.Cpp
open PGV
open PGV.Go (Piece Idx Ctx resolve Resolved elemTypNotNone depth durGt)

/-- What C++ validators call outside this project, how Go prints what goes into the generated text,
and which other validators are registered
(the calls are in validate/validate.h:97-152; templates/cc/string.go; timestamp.go). -/
structure CEnv where
  /-- `strconv.IsPrint`. -/
  isPrint : Nat → Bool
  /-- The decimal that `fmt` prints for a finite `float32` or `float64`, as a fraction. -/
  dec32 : BitVec 32 → Int × Int
  dec64 : BitVec 64 → Int × Int
  /-- `RE2::FullMatch` of a subject with a pattern: the whole subject must match. -/
  fullMatch : Bytes → Bytes → Bool
  /-- `inet_pton(AF_INET, …) == 1` and `inet_pton(AF_INET6, …) == 1` on a C string. -/
  pton4 : Bytes → Bool
  pton6 : Bytes → Bool
  /-- `CheckMessage` on types that have no validator generated here. -/
  other : Val → Run
  /-- Iteration order of a protobuf map. -/
  order : List (Scalar × Val) → List (Scalar × Val)
  /-- Every entry is visited exactly once. -/
  order_perm : ∀ l, (order l).Perm l

/-! ### Numbers -/

/-- A number in a C++ expression: an integer of some type, or a floating-point number given by its
exact value (templates/cc/register.go:128-136,229-261). -/
inductive CNum
  | int (t : CTy) (i : Int)
  | flt (x : Option Int)

/-- The accessor of a numeric field (templates/cc/register.go:128-136). -/
def cnum (k : NumKind) : Num → CNum
  | .int i => .int (fieldTy k) i
  | .f32 b => .flt (val32 b)
  | .f64 b => .flt (val64 b)

/-- The literal in range rules: `{{ $r.Lt }}` prints the number itself, so that floats are read as
`double`s (templates/cc/ltgt.go). -/
def rangeLit (P : CEnv) : Num → CNum
  | .int i => .int ((litTy i).getD .long) i
  | .f32 b => .flt (some (readDouble (P.dec32 b).1 (P.dec32 b).2))
  | .f64 b => .flt (some (readDouble (P.dec64 b).1 (P.dec64 b).2))

/-- The literal in `const`, `in` and `not_in` rules: `lit` prints a `float` with `%f` and a suffix
`F`, and the others as they are (templates/cc/register.go:256-259). -/
def constLit (P : CEnv) : Num → CNum
  | .int i => .int ((litTy i).getD .long) i
  | .f32 b => .flt ((val32 b).map fun x => readFloat (millionths x) 1000000)
  | .f64 b => .flt (some (readDouble (P.dec64 b).1 (P.dec64 b).2))

/-- A member of a `std::set` of the field's type (templates/cc/msg.go:19-23). -/
def setKey (P : CEnv) (k : NumKind) (n : Num) : CNum :=
  match constLit P n with
  | .int _ i => .int (fieldTy k) ((fieldTy k).conv i)
  | x => x

/-- Compare two integers in their common type, or two floating-point values; comparisons with NaN
are false (for templates/cc/ltgt.go:3-65). -/
def CNum.cmp (op : Int → Int → Bool) : CNum → CNum → Bool
  | .int t a, .int u b => op ((t.common u).conv a) ((t.common u).conv b)
  | .flt (some x), .flt (some y) => op x y
  | _, _ => false

/-- The operator `<` (templates/cc/ltgt.go:3-65). -/
def CNum.lt : CNum → CNum → Bool := CNum.cmp fun a b => decide (a < b)
/-- The operator `<=` (templates/cc/ltgt.go:3-65). -/
def CNum.le : CNum → CNum → Bool := CNum.cmp fun a b => decide (a ≤ b)
/-- The operator `==` (templates/cc/const.go:5). -/
def CNum.eq : CNum → CNum → Bool := CNum.cmp fun a b => decide (a = b)

/-- `x != 0` (templates/cc/num.go:5). -/
def CNum.nonzero : CNum → Bool
  | .int _ i => i != 0
  | .flt x => x != some 0

/-- templates/cc/ltgt.go:3-65 (ltgtTpl). `gt` compares at generation time. -/
def ltgtTpl (P : CEnv) (c : Ctx) (r : NumRules) (v : CNum) : Run :=
  match r.lt with
  | some lt =>
    let ltv := rangeLit P lt
    match r.gt with
    | some gt =>
      let gtv := rangeLit P gt
      if lt.tplGt gt then
        when (v.le gtv || ltv.le v)
          (fail c [.s "value must be inside range (", .num gt, .s ", ", .num lt, .s ")"])
      else
        when (ltv.le v && v.le gtv)
          (fail c [.s "value must be outside range [", .num lt, .s ", ", .num gt, .s "]"])
    | none =>
      match r.gte with
      | some gte =>
        let gtev := rangeLit P gte
        if lt.tplGt gte then
          when (v.lt gtev || ltv.le v)
            (fail c [.s "value must be inside range [", .num gte, .s ", ", .num lt, .s ")"])
        else
          when (ltv.le v && v.lt gtev)
            (fail c [.s "value must be outside range [", .num lt, .s ", ", .num gte, .s ")"])
      | none => when (ltv.le v) (fail c [.s "value must be less than ", .num lt])
  | none =>
    match r.lte with
    | some lte =>
      let ltev := rangeLit P lte
      match r.gt with
      | some gt =>
        let gtv := rangeLit P gt
        if lte.tplGt gt then
          when (v.le gtv || ltev.lt v)
            (fail c [.s "value must be inside range (", .num gt, .s ", ", .num lte, .s "]"])
        else
          when (ltev.lt v && v.le gtv)
            (fail c [.s "value must be outside range (", .num lte, .s ", ", .num gt, .s "]"])
      | none =>
        match r.gte with
        | some gte =>
          let gtev := rangeLit P gte
          if lte.tplGt gte then
            when (v.lt gtev || ltev.lt v)
              (fail c [.s "value must be inside range [", .num gte, .s ", ", .num lte, .s "]"])
          else
            when (ltev.lt v && v.lt gtev)
              (fail c [.s "value must be outside range (", .num lte, .s ", ", .num gte, .s ")"])
        | none => when (ltev.lt v) (fail c [.s "value must be less than or equal to ", .num lte])
    | none =>
      match r.gt with
      | some gt => when (v.le (rangeLit P gt)) (fail c [.s "value must be greater than ", .num gt])
      | none =>
        match r.gte with
        | some gte =>
          when (v.lt (rangeLit P gte)) (fail c [.s "value must be greater than or equal to ", .num gte])
        | none => .ok ()

/-- `std::set::find`: a member is found when neither is less than the other (called in templates/cc/in.go:5,9). -/
def setFind {α : Type} (less : α → α → Bool) (ks : List α) (v : α) : Bool :=
  ks.any fun k => !less k v && !less v k

/-- templates/cc/in.go:3-13 (inTpl): `found` tells whether a list, as a set, has the value. -/
def inTpl {α : Type} (c : Ctx) (ins notIns : List α) (found : List α → Bool) (what : List α → Piece) :
    Run :=
  if !ins.isEmpty then when (!found ins) (fail c [.s "value must be in list ", what ins])
  else if !notIns.isEmpty then
    when (found notIns) (fail c [.s "value must not be in list ", what notIns])
  else .ok ()

/-- templates/cc/num.go:3-13 (numTpl), with const.go:3-9 and in.go:3-13. -/
def numTpl (P : CEnv) (c : Ctx) (k : NumKind) (r : NumRules) (n : Num) : Run :=
  let v := cnum k n
  let body :=
    withOpt r.const (fun b => when (!v.eq (constLit P b)) (fail c [.s "value must equal ", .num b])) ⊳
    ltgtTpl P c r v ⊳
    inTpl c r.ins r.notIns (fun l => setFind CNum.lt (l.map (setKey P k)) v) .nums
  if optB r.ignoreEmpty then when v.nonzero body else body

/-- constTpl on bools (templates/cc/register.go:73). -/
def boolTpl (c : Ctx) (r : BoolRules) (b : Bool) : Run :=
  withOpt r.const fun k => when (b != k) (fail c [.s "value must equal ", .bool k])

/-! ### Strings and bytes -/

/-- The texts about a length (templates/cc/string.go; bytes.go). -/
structure LenText where
  exactly : Nat → List Piece
  between : Nat → Nat → List Piece
  atLeast : Nat → List Piece
  atMost : Nat → List Piece

/-- templates/cc/string.go:10-37. -/
def charText : LenText where
  exactly n := [.s "value must be ", .nat n, .s " characters"]
  between a b := [.s "value must have between ", .nat a, .s " and ", .nat b, .s " characters inclusive"]
  atLeast n := [.s "value length must be at least ", .nat n, .s " characters"]
  atMost n := [.s "value length must be at most ", .nat n, .s " characters"]

/-- templates/cc/string.go:39-75, bytes.go:11-41. -/
def byteText : LenText where
  exactly n := [.s "value length must be ", .nat n, .s " bytes"]
  between a b := [.s "value length must be between ", .nat a, .s " and ", .nat b, .s " bytes, inclusive"]
  atLeast n := [.s "value length must be at least ", .nat n, .s " bytes"]
  atMost n := [.s "value length must be at most ", .nat n, .s " bytes"]

/-- The length rules (templates/cc/string.go:10-37 and 39-75, bytes.go:11-41). The test at
string.go:56 repeats one made at string.go:39 and is left out. -/
def lenTpl (T : LenText) (c : Ctx) (len min max : Option Nat) (n : Nat) : Run :=
  if len.isSome || (min.isSome && max.isSome && optN min == optN max) then
    if len.isSome then when (n != optN len) (fail c (T.exactly (optN len)))
    else when (n != optN min) (fail c (T.exactly (optN min)))
  else if min.isSome then
    if max.isSome then
      when (decide (n < optN min) || decide (n > optN max)) (fail c (T.between (optN min) (optN max)))
    else when (decide (n < optN min)) (fail c (T.atLeast (optN min)))
  else if max.isSome then when (decide (n > optN max)) (fail c (T.atMost (optN max)))
  else .ok ()

/-- `RE2::FullMatch` with the pattern of the rules; the pattern's literal is used with its length,
so that a NUL does not end it (templates/cc/msg.go:68-92, string.go:112-119, bytes.go:69-76). -/
def patternTpl (P : CEnv) (c : Ctx) (pattern : Option Bytes) (s : Bytes) : Run :=
  withOpt pattern fun p =>
    when (!P.fullMatch (strChars P.isPrint p) s)
      (fail c [.s "value does not match regex pattern ", .bytes p])

/-- `IsIpv4` (validate/validate.h:97-100). -/
def isIpv4 (P : CEnv) (s : Bytes) : Bool := P.pton4 (cStr s)
/-- `IsIpv6` (validate/validate.h:102-105). -/
def isIpv6 (P : CEnv) (s : Bytes) : Bool := P.pton6 (cStr s)
/-- `IsIp` (validate/validate.h:107-109). -/
def isIp (P : CEnv) (s : Bytes) : Bool := isIpv4 P s || isIpv6 P s

/-- The well-known formats (templates/cc/string.go:121-185), an else-if chain. -/
def strWellKnownTpl (P : CEnv) (c : Ctx) (r : StringRules) (s : Bytes) : Run :=
  if r.getIp then when (!isIp P s) (fail c [.s "value must be a valid IP Address"])
  else if r.getIpv4 then when (!isIpv4 P s) (fail c [.s "value must be a valid IPv4 Address"])
  else if r.getIpv6 then when (!isIpv6 P s) (fail c [.s "value must be a valid IPv6 Address"])
  else if r.getEmail then throw "C++ email address validation is not implemented"
  else if r.getAddress then
    when (!isHostname s && !isIp P s) (fail c [.s "value must be an ip address, or a hostname."])
  else if r.getHostname then when (!isHostname s) (fail c [.s "value must be a valid hostname"])
  else if r.getUri then throw "C++ URI validation is not implemented"
  else if r.getUriRef then throw "C++ URI validation is not implemented"
  else if r.getUuid then when (!matchFull Go.uuidRe s) (fail c [.s "value must be a valid UUID"])
  else .ok ()

/-- templates/cc/string.go:3-189 (strTpl). -/
def strTpl (P : CEnv) (c : Ctx) (r : StringRules) (s : Bytes) : Run :=
  let lit := strVal P.isPrint
  let body :=
    withOpt r.const (fun k => when (s != lit k) (fail c [.s "value must equal ", .bytes k])) ⊳
    inTpl c r.ins r.notIns (fun l => (l.map lit).contains s) .bytess ⊳
    lenTpl charText c r.len r.minLen r.maxLen (utf8Len s) ⊳
    lenTpl byteText c r.lenBytes r.minBytes r.maxBytes s.length ⊳
    withOpt r.pfx (fun p => when (!isPrefix (lit p) s) (fail c [.s "value does not have prefix ", .bytes p])) ⊳
    withOpt r.sfx (fun p => when (!isSuffix (lit p) s) (fail c [.s "value does not have suffix ", .bytes p])) ⊳
    withOpt r.contains (fun p =>
      when (!contains s (lit p)) (fail c [.s "value does not contain substring ", .bytes p])) ⊳
    withOpt r.notContains (fun p =>
      when (contains s (lit p)) (fail c [.s "value contains substring ", .bytes p])) ⊳
    patternTpl P c r.pattern s ⊳
    strWellKnownTpl P c r s
  if optB r.ignoreEmpty then when (s != []) body else body

/-- A rule on a byte string, which counts as absent when it is empty (templates/cc/bytes.go). -/
def withBytes (o : Option Bytes) (k : Bytes → Run) : Run := if optS o = [] then .ok () else k (optS o)

/-- templates/cc/bytes.go:3-103 (bytesTpl). -/
def bytesTpl (P : CEnv) (c : Ctx) (r : BytesRules) (s : Bytes) : Run :=
  let body :=
    withBytes r.const (fun k => when (s != bytesVal k) (fail c [.s "value must equal ", .bytes k])) ⊳
    inTpl c r.ins r.notIns (fun l => (l.map bytesKey).contains s) .bytess ⊳
    lenTpl byteText c r.len r.minLen r.maxLen s.length ⊳
    withBytes r.pfx (fun p =>
      when (!isPrefix (bytesVal p) s) (fail c [.s "value does not have prefix ", .bytes p])) ⊳
    withBytes r.sfx (fun p =>
      when (!isSuffix (bytesVal p) s) (fail c [.s "value does not have suffix ", .bytes p])) ⊳
    withBytes r.contains (fun p =>
      when (!contains s (bytesVal p)) (fail c [.s "value does not contain substring ", .bytes p])) ⊳
    patternTpl P c r.pattern s ⊳
    when (r.getIp || r.getIpv4 || r.getIpv6) (throw "C++ ip address validation is not implemented")
  if optB r.ignoreEmpty then when (decide (s.length > 0)) body else body

/-! ### Enums and well-known messages -/

/-- templates/cc/enum.go:3-17 (enumTpl); `_IsValid` knows the declared numbers. -/
def enumTpl (c : Ctx) (declared : List Int) (r : EnumRules) (n : Int) : Run :=
  withOpt r.const (fun k => when (n != k) (fail c [.s "value must equal ", .int k])) ⊳
  inTpl c r.ins r.notIns (fun l => l.contains n) .ints ⊳
  when (optB r.definedOnly && !declared.contains n)
    (fail c [.s "value must be one of the defined enum values"])

/-- templates/cc/message.go:18-24 (requiredTpl); `has` is the `has_…()` accessor. -/
def requiredTpl (c : Ctx) (required has : Bool) : Run :=
  when (required && !has) (fail c [.s "value is required"])

/-- templates/cc/any.go:3-17 (anyTpl); `none` is an absent message. -/
def anyTpl (P : CEnv) (c : Ctx) (r : AnyRules) (url : Option Bytes) : Run :=
  let lit := strVal P.isPrint
  requiredTpl c (optB r.required) url.isSome ⊳
  match url with
  | none => .ok ()
  | some u =>
    if !r.ins.isEmpty then
      when (!(r.ins.map lit).contains u) (fail c [.s "type URL must be in list ", .bytess r.ins])
    else if !r.notIns.isEmpty then
      when ((r.notIns.map lit).contains u)
        (fail c [.s "type URL must not be in list ", .bytess r.notIns])
    else .ok ()

/-- `operator<` on durations in protobuf's time_util: seconds first, then nanos (for templates/cc/duration.go). -/
def durLess (a b : PDur) : Bool :=
  if a.seconds = b.seconds then decide (a.nanos < b.nanos) else decide (a.seconds < b.seconds)
/-- `<=`: not greater (for templates/cc/duration.go). -/
def durLe (a b : PDur) : Bool := !durLess b a
/-- `==`: neither is less (for templates/cc/duration.go). -/
def durEq (a b : PDur) : Bool := !durLess a b && !durLess b a

/-- `SecondsToDuration(s) + NanosecondsToDuration(n)` (templates/cc/register.go:363-367): the sum,
with seconds and nanos of one sign. -/
def durLit (d : PDur) : PDur :=
  ⟨(d.seconds * 1000000000 + d.nanos).tdiv 1000000000, (d.seconds * 1000000000 + d.nanos).tmod 1000000000⟩

/-- The validity test of templates/cc/duration.go:11-13. -/
def durInvalid (d : PDur) : Bool :=
  decide (d.nanos > 999999999) || decide (d.nanos < -999999999) ||
  decide (d.seconds > 315576000000) || decide (d.seconds < -315576000000)

/-- templates/cc/duration.go:27-75: range rules. -/
def durRangeTpl (c : Ctx) (r : DurationRules) (dur : PDur) : Run :=
  match r.lt with
  | some lt =>
    let ltv := durLit lt
    match r.gt with
    | some gt =>
      let gtv := durLit gt
      if durGt lt gt then
        when (durLe dur gtv || durLe ltv dur)
          (fail c [.s "value must be inside range (", .dur gt, .s ", ", .dur lt, .s ")"])
      else
        when (durLe ltv dur && durLe dur gtv)
          (fail c [.s "value must be outside range [", .dur lt, .s ", ", .dur gt, .s "]"])
    | none =>
      match r.gte with
      | some gte =>
        let gtev := durLit gte
        if durGt lt gte then
          when (durLess dur gtev || durLe ltv dur)
            (fail c [.s "value must be inside range [", .dur gte, .s ", ", .dur lt, .s ")"])
        else
          when (durLe ltv dur && durLess dur gtev)
            (fail c [.s "value must be outside range [", .dur lt, .s ", ", .dur gte, .s ")"])
      | none => when (durLe ltv dur) (fail c [.s "value must be less than ", .dur lt])
  | none =>
    match r.lte with
    | some lte =>
      let ltev := durLit lte
      match r.gt with
      | some gt =>
        let gtv := durLit gt
        if durGt lte gt then
          when (durLe dur gtv || durLess ltev dur)
            (fail c [.s "value must be inside range (", .dur gt, .s ", ", .dur lte, .s "]"])
        else
          when (durLess ltev dur && durLe dur gtv)
            (fail c [.s "value must be outside range (", .dur lte, .s ", ", .dur gt, .s "]"])
      | none =>
        match r.gte with
        | some gte =>
          let gtev := durLit gte
          if durGt lte gte then
            when (durLess dur gtev || durLess ltev dur)
              (fail c [.s "value must be inside range [", .dur gte, .s ", ", .dur lte, .s "]"])
          else
            when (durLess ltev dur && durLess dur gtev)
              (fail c [.s "value must be outside range (", .dur lte, .s ", ", .dur gte, .s ")"])
        | none => when (durLess ltev dur) (fail c [.s "value must be less than or equal to ", .dur lte])
    | none =>
      match r.gt with
      | some gt => when (durLe dur (durLit gt)) (fail c [.s "value must be greater than ", .dur gt])
      | none =>
        match r.gte with
        | some gte =>
          when (durLess dur (durLit gte)) (fail c [.s "value must be greater than or equal to ", .dur gte])
        | none => .ok ()

/-- templates/cc/duration.go:3-88 (durationTpl); `none` is an absent message. -/
def durationTpl (c : Ctx) (r : DurationRules) (d : Option PDur) : Run :=
  requiredTpl c (optB r.required) d.isSome ⊳
  if !r.ins.isEmpty || !r.notIns.isEmpty || r.lt.isSome || r.lte.isSome || r.gt.isSome ||
      r.gte.isSome || r.const.isSome then
    match d with
    | none => .ok ()
    | some d =>
      when (durInvalid d) (failIdx c none (some .address) [.s "value is not a valid duration"]) ⊳
      withOpt r.const (fun k => when (!durEq d (durLit k)) (fail c [.s "value must equal ", .dur k])) ⊳
      durRangeTpl c r d ⊳
      inTpl c r.ins r.notIns (fun l => setFind durLess (l.map durLit) d) .durs
  else .ok ()

/-- templates/cc/timestamp.go:3-108 (timestampTpl): everything but `required` throws. -/
def timestampTpl (c : Ctx) (r : TimestampRules) (t : Option PTime) : Run :=
  requiredTpl c (optB r.required) t.isSome ⊳
  when (r.lt.isSome || r.lte.isSome || r.gt.isSome || r.gte.isSome || r.ltNow.isSome ||
      r.gtNow.isSome || r.within.isSome || r.const.isSome)
    (throw "C++ timestamp comparison validations are not implemented")

/-! ### Elements, lists, maps -/

/-- Templates for scalar values; the kinds always fit in code that compiles (templates/shared/context.go:119-177). -/
def scalarTpl (P : CEnv) (c : Ctx) (e : ElemT) (t : TypeRules) (v : Scalar) : Run :=
  match t, v with
  | .num k r, .num n => numTpl P c k r n
  | .bool r, .bool b => boolTpl c r b
  | .string r, .str s => strTpl P c r s
  | .bytes r, .bytes b => bytesTpl P c r b
  | .enum r, .enum i =>
    match e with
    | .enum declared => enumTpl c declared r i
    | _ => .ok ()
  | _, _ => .ok ()

/-- Is the message absent? Items of lists and values of maps never are (templates/cc/register.go:138-148). -/
def isNull : Val → Bool
  | .null => true
  | _ => false

/-- templates/cc/message.go:3-16 (messageTpl). `rec v` is `Validator<T>::CheckMessage(v, &inner_err)`;
an exception is not caught. -/
def messageTpl (rec : Val → Run) (c : Ctx) (m : Option MessageRules) (v : Val) : Run :=
  requiredTpl c (msgRequired m) (!isNull v) ⊳
  if msgSkip m then .ok ()
  else if isNull v then .ok ()
  else match rec v with
    | .ok _ => .ok ()
    | .error (.invalid e) => failIdx c none (some e) [.s "embedded message failed validation"]
    | .error (.unimplemented w) => .error (.unimplemented w)

/-- templates/cc/wrapper.go:3-12 (wrapperTpl). The context of the unwrapped value has no index
(`Unwrap`, templates/shared/context.go:96-109). -/
def wrapperTpl (P : CEnv) (c : Ctx) (e : ElemT) (t : TypeRules) (m : Option MessageRules) (v : Val) :
    Run :=
  match v with
  | .wrapper s => scalarTpl P { c with index := none, onKey := false } e t s
  | .null => when (msgRequired m) (fail c [.s "value is required and must not be nil."])
  | _ => .ok ()

/-- Rendering of an element context (templates/cc/repeated.go; map.go). -/
def elemTpl (P : CEnv) (rec : Val → Run) (c : Ctx) (e : ElemT) (rules : FieldRules) (v : Val) : Run :=
  match resolve e rules with
  | .none => .ok ()
  | .message m => messageTpl rec c m v
  | .wrapper t m => wrapperTpl P c e t m v
  | .plain t =>
    match t, v with
    | .any r, .any url _ => anyTpl P c r (some url)
    | .any r, .null => anyTpl P c r none
    | .duration r, .dur d => durationTpl c r (some d)
    | .duration r, .null => durationTpl c r none
    | .timestamp r, .ts t => timestampTpl c r (some t)
    | .timestamp r, .null => timestampTpl c r none
    | t, .sc s => scalarTpl P c e t s
    | _, _ => .ok ()

/-- Item and pair counts (templates/cc/repeated.go:8-26, map.go:9-33); `what` is `item` or `pair`. -/
def countTpl (what : String) (c : Ctx) (min max : Option Nat) (n : Nat) : Run :=
  if optN min != 0 then
    if optN min == optN max then
      when (n != optN min)
        (fail c [.s "value must contain exactly ", .nat (optN min), .s s!" {what}(s)"])
    else if max.isSome then
      when (decide (n < optN min) || decide (n > optN max))
        (fail c [.s "value must contain between ", .nat (optN min), .s " and ", .nat (optN max),
          .s s!" {what}s, inclusive"])
    else
      when (decide (n < optN min))
        (fail c [.s "value must contain at least ", .nat (optN min), .s s!" {what}(s)"])
  else if max.isSome then
    when (decide (n > optN max))
      (fail c [.s "value must contain no more than ", .nat (optN max), .s s!" {what}(s)"])
  else .ok ()

/-- `==` on items, which `unordered_set` uses (templates/cc/repeated.go:28-46): two items are the same
when they compare equal. The hash, cut down to a `bool`, agrees on equal items. -/
def itemEq (e : ElemT) : Val → Val → Bool
  | .sc (.num a), .sc (.num b) =>
    match e with
    | .scalar k => (cnum k a).eq (cnum k b)
    | _ => false
  | .sc (.bool a), .sc (.bool b) => a == b
  | .sc (.str a), .sc (.str b) => a == b
  | .sc (.bytes a), .sc (.bytes b) => a == b
  | .sc (.enum a), .sc (.enum b) => a == b
  | _, _ => false

/-- The loop of templates/cc/repeated.go:49-61; `seen` is the set of references. -/
def repLoop (unique : Bool) (same : Val → Val → Bool) (c : Ctx) (item : Nat → Val → Run) :
    Nat → List Val → List Val → Run
  | _, _, [] => .ok ()
  | i, seen, v :: vs =>
    when (unique && seen.any (fun w => same w v))
      (failIdx c (some (.pos i)) none [.s "repeated value must contain unique items"]) ⊳
    item i v ⊳
    repLoop unique same c item (i + 1) (if unique then v :: seen else seen) vs

/-- templates/cc/repeated.go:3-66 (repTpl). -/
def repTpl (P : CEnv) (rec : Val → Run) (c : Ctx) (e : ElemT) (r : RepeatedRules) (items : FieldRules)
    (vs : List Val) : Run :=
  let body :=
    countTpl "item" c r.minItems r.maxItems vs.length ⊳
    if optB r.unique || elemTypNotNone e items then
      repLoop (optB r.unique) (itemEq e) c
        (fun i v => elemTpl P rec { c with index := some (.pos i) } e items v) 0 [] vs
    else .ok ()
  if optB r.ignoreEmpty then when (decide (vs.length > 0)) body else body

/-- `render (.Key "key" "key")` (templates/shared/context.go:47-65). -/
def keyTpl (P : CEnv) (c : Ctx) (e : ElemT) (rules : FieldRules) (k : Scalar) : Run :=
  match rules.type with
  | .unset => .ok ()
  | t => scalarTpl P c e t k

/-- The body of the loop of templates/cc/map.go:36-45. -/
def mapEntry (P : CEnv) (rec : Val → Run) (c : Ctx) (kt vt : ElemT) (keys values : FieldRules)
    (kv : Scalar × Val) : Run :=
  keyTpl P { c with index := some (.key kv.1) } kt keys kv.1 ⊳
  elemTpl P rec { c with index := some (.key kv.1) } vt values kv.2

/-- templates/cc/map.go:3-54 (mapTpl). -/
def mapTpl (P : CEnv) (rec : Val → Run) (c : Ctx) (kt vt : ElemT) (r : MapRules)
    (keys values : FieldRules) (kvs : List (Scalar × Val)) : Run :=
  let body :=
    countTpl "pair" c r.minPairs r.maxPairs kvs.length ⊳
    if optB r.noSparse || elemTypNotNone vt values || elemTypNotNone kt keys then
      forEach (P.order kvs) (mapEntry P rec c kt vt keys values) ⊳
      when (optB r.noSparse) (throw "no_sparse validation is not implemented for C++ because protobuf maps cannot be sparse in C++")
    else .ok ()
  if optB r.ignoreEmpty then when (decide (kvs.length > 0)) body else body

/-- `render (context .)` for a field; rule resolution is shared with Go
(templates/shared/context.go:26-45,119-177). -/
def renderField (P : CEnv) (rec : Val → Run) (msg : String) (f : FieldDesc) (v : Val) : Run :=
  let c : Ctx := { msg := msg, field := f.name }
  match f.typ, v with
  | .one e, v => elemTpl P rec c e f.rules v
  | .rep e, .list vs =>
    match f.rules.type with
    | .repeated r items => repTpl P rec c e r items vs
    | .unset => repTpl P rec c e {} .absent vs
    | _ => .ok ()
  | .map kt vt, .map kvs =>
    match f.rules.type with
    | .map r keys values => mapTpl P rec c kt vt r keys values kvs
    | .unset => if vt.isEmbed then mapTpl P rec c kt vt {} .absent .absent kvs else .ok ()
    | _ => .ok ()
  | _, _ => .ok ()

/-- One `switch` over a oneof (templates/cc/msg.go:106-118). -/
def oneofTpl (P : CEnv) (rec : Val → Run) (msg : String) (o : OneofDesc) (set : Option (String × Val)) :
    Run :=
  match set with
  | some (member, v) =>
    match o.fields.find? (fun f => f.name == member) with
    | some f => renderField P rec msg f v
    | none => .ok ()
  | none => when o.required (.error (.invalid (.oneof o.name)))

/-- The generated `Validate` of a message type (templates/cc/msg.go:96-122). -/
def validateMsg (P : CEnv) (rec : Val → Run) (d : MsgDesc) (fs : List (String × Val))
    (os : List (String × String × Val)) : Run :=
  if d.disabled then .ok ()
  else
    forEach d.fields (fun f => renderField P rec d.name f (getField fs f)) ⊳
    forEach d.oneofs (fun o => oneofTpl P rec d.name o (os.lookup o.name))

/-- `Validator<T>::CheckMessage` on a message: generated validators are registered for types that are
neither `ignored` nor `disabled` (templates/cc/file.go:24-32); other types may have been given a
validator elsewhere. -/
def checkStep (P : CEnv) (S : Schema) (rec : Val → Run) (v : Val) : Run :=
  match v with
  | .msg typ fs os =>
    match S typ with
    | .generated d => if d.ignored || d.disabled then P.other v else validateMsg P rec d fs os
    | _ => P.other v
  | _ => P.other v

/-- Calls nested at most `n` deep (templates/cc/message.go:11; msg.go:96-122). -/
def checkFuel (P : CEnv) (S : Schema) : Nat → Val → Run
  | 0 => fun _ => .ok ()
  | n + 1 => checkStep P S (checkFuel P S n)

/-- `CheckMessage(v, &err)`; the nesting depth of the value bounds the recursion
(templates/cc/message.go:11; validate/validate.h:59-66). -/
def checkMessage (P : CEnv) (S : Schema) (v : Val) : Run := checkFuel P S (depth v) v

end PGV.Cpp
