import Verif.Py.Lib
import Verif.Go.Validate

/-!
The validators that python/protoc_gen_validate/validator.py writes and executes at run time. Rule
constants of numeric and bytes rules are printed with `repr` and denote their values; NaN and the
infinities print as `nan` and `inf`, which are names that do not exist.
-/

namespace PGV.Py
open PGV Code
open PGV.Go (depth)

/-- Does the `str` of a rules message have any text, i.e. is any of its fields set?
(`if str(option_value.string):` and so on, validator.py:949-1019). -/
def typeText : TypeRules → Bool
  | .unset => false
  | .num _ r => r != {}
  | .bool r => r != {}
  | .string r => r != {}
  | .bytes r => r != {}
  | .enum r => r != {}
  | .repeated r items => r != {} || (match items with | .absent => false | _ => true)
  | .map r keys values =>
    r != {} || (match keys with | .absent => false | _ => true) ||
      (match values with | .absent => false | _ => true)
  | .any r => r != {}
  | .duration r => r != {}
  | .timestamp r => r != {}

/-- `str(option_value.message)` (python/protoc_gen_validate/validator.py:648,953,1002). -/
def messageText : Option MessageRules → Bool
  | some m => m != {}
  | none => false

/-- `str(o.repeated['items'])`: a present member prints its name, even when it is empty
(python/protoc_gen_validate/validator.py:868,901). -/
def rulesText : FieldRules → Bool
  | .absent => false
  | .mk m t => m.isSome || (match t with | .unset => false | _ => true)

/-! ### Numbers -/

/-- A number that prints as a number: not NaN and not infinite (python/protoc_gen_validate/validator.py:335-390). -/
def finite : Num → Bool
  | .int _ => true
  | .f32 b => b.toNat / 8388608 % 256 != 255
  | .f64 b => b.toNat / 4503599627370496 % 2048 != 2047

/-- A test that mentions printed numbers; `nan` and `inf` raise NameError. (Simplification: also
where `or`/`and` would not have evaluated that operand.) (python/protoc_gen_validate/validator.py:335-390). -/
def numTest (nm : String) (lits : List Num) (why : Text) (test : Num → Bool) : Code Num :=
  stmt fun x =>
    if lits.all finite then (if test x then .error (.failed nm why) else .ok ()) else .error .crash

/-- The range part of `num_template` (validator.py:343-390). Comparisons at generation time
(`num['lt'] > num['gt']`) are on Python numbers. -/
def numRange (nm : String) (r : NumRules) : Code Num :=
  let range (a b : Num) : Text := [.s "is not in range ", .pair (.num a) (.num b)]
  match r.lt, r.lte, r.gt, r.gte with
  | some lt, _, some gt, _ =>
    if lt.gt gt then numTest nm [gt, lt] (range lt gt) fun x => x.le gt || x.ge lt
    else numTest nm [lt, gt] (range gt lt) fun x => x.ge lt && x.le gt
  | some lt, _, none, some gte =>
    if lt.gt gte then numTest nm [gte, lt] (range lt gte) fun x => x.lt gte || x.ge lt
    else numTest nm [lt, gte] (range gte lt) fun x => x.ge lt && x.lt gte
  | some lt, _, none, none => numTest nm [lt] [.s "is not lesser than ", .item (.num lt)] fun x => x.ge lt
  | none, some lte, some gt, _ =>
    if lte.gt gt then numTest nm [gt, lte] (range lte gt) fun x => x.le gt || x.gt lte
    else numTest nm [lte, gt] (range gt lte) fun x => x.gt lte && x.le gt
  | none, some lte, none, some gte =>
    if lte.gt gte then numTest nm [gte, lte] (range lte gte) fun x => x.lt gte || x.gt lte
    else numTest nm [lte, gte] (range gte lte) fun x => x.gt lte && x.lt gte
  | none, some lte, none, none =>
    numTest nm [lte] [.s "is not lesser than or equal to ", .item (.num lte)] fun x => x.gt lte
  | none, none, some gt, _ => numTest nm [gt] [.s "is not greater than ", .item (.num gt)] fun x => x.le gt
  | none, none, none, some gte =>
    numTest nm [gte] [.s "is not greater than or equal to ", .item (.num gte)] fun x => x.lt gte
  | none, none, none, none => nothing

/-- `in_template` for numbers (validator.py:158-169). -/
def numIn (nm : String) (r : NumRules) : Code Num :=
  gen (!r.ins.isEmpty)
    (numTest nm r.ins [.s "not in ", .items (r.ins.map .num)] fun x => !r.ins.any fun k => x.eq k) ;;
  gen (!r.notIns.isEmpty)
    (numTest nm r.notIns [.s "in ", .items (r.notIns.map .num)] fun x => r.notIns.any fun k => x.eq k)

/-- `num_template` (validator.py:326-394): presence of `ignore_empty` counts, not its value. -/
def numCode (nm : String) (r : NumRules) : Code Num :=
  let body :=
    genOpt r.const (fun c => numTest nm [c] [.s "not equal to ", .item (.num c)] fun x => !x.eq c) ;;
    numIn nm r ;; numRange nm r
  if r.ignoreEmpty.isSome then block (fun x => !x.isZero) body else body

/-! ### Booleans, strings, bytes, enums -/

/-- `bool_template` with the `bool` branch of `const_template` (validator.py:139-141,319-323). It is
only used when the rules have text, so `const` is set. -/
def boolCode (nm : String) (r : BoolRules) : Code Bool :=
  gen (r != {}) (raiseIf nm [.s "not equal to ", .item (.bool (optB r.const))] fun x => x != optB r.const)

/-- A limit that is not zero: `{% if s['len'] %}` (python/protoc_gen_validate/validator.py:191-214). -/
def genPos {α : Type} (o : Option Nat) (k : Nat → Code α) : Code α :=
  gen (optN o != 0) (k (optN o))

/-- The length rules of `string_template` (validator.py:191-214). -/
def strLen (nm : String) (r : StringRules) : Code PStr :=
  genPos r.len (fun n => raiseIf nm [.s "length does not equal ", .nat n] fun x => x.length != n) ;;
  genPos r.minLen (fun n => raiseIf nm [.s "length is less than ", .nat n] fun x => decide (x.length < n)) ;;
  genPos r.maxLen (fun n => raiseIf nm [.s "length is more than ", .nat n] fun x => decide (x.length > n)) ;;
  genPos r.lenBytes (fun n => raiseIf nm [.s "length does not equal ", .nat n] fun x => byteLen x != n) ;;
  genPos r.minBytes (fun n => raiseIf nm [.s "length is less than ", .nat n] fun x => decide (byteLen x < n)) ;;
  genPos r.maxBytes (fun n => raiseIf nm [.s "length is greater than ", .nat n] fun x => decide (byteLen x > n))

/-- A rule whose constant is pasted between double quotes; unset and empty are the same
(python/protoc_gen_validate/validator.py:215-234). -/
def genText (P : PEnv) (o : Option Bytes) (k : PStr → Code PStr) : Code PStr :=
  gen (optS o != []) (match literal P (optS o) with | some l => k l | none => none)

/-- The affix rules of `string_template` (validator.py:219-234). -/
def strAffix (P : PEnv) (nm : String) (r : StringRules) : Code PStr :=
  genText P r.pfx (fun l =>
    raiseIf nm [.s "does not start with prefix ", .item (.str l)] fun x => !startswith x l) ;;
  genText P r.sfx (fun l => raiseIf nm [.s "does not end with suffix ", .item (.str l)] fun x => !endswith x l) ;;
  genText P r.contains (fun l => raiseIf nm [.s "does not contain ", .item (.str l)] fun x => !contains l x) ;;
  genText P r.notContains (fun l => raiseIf nm [.s "contains ", .item (.str l)] fun x => contains l x)

/-- The key of `regex_map` that a `well_known_regex` stands for (validator.py:17-22,175-180). -/
def regexName (k : KnownRegex) (strict : Option Bool) : String :=
  if !strict.getD true then "HEADER_STRING"
  else match k with
    | .headerName => "HTTP_HEADER_NAME"
    | .headerValue => "HTTP_HEADER_VALUE"
    | _ => "UNKNOWN"

/-- The pattern rule (validator.py:173-180,215-218). -/
def strPattern (P : PEnv) (nm : String) (r : StringRules) : Code PStr :=
  match knownRegex r.getRegex r.strict with
  | none => none
  | some (some test) =>
    raiseIf nm [.s "pattern does not match ", .known (regexName r.getRegex r.strict)] fun x => !test x
  | some none =>
    gen (optS r.pattern != [])
      (if patternOk P (optS r.pattern) then
        stmt fun x =>
          match P.search (optS r.pattern) x with
          | some true => .ok ()
          | some false => .error (.failed nm [.s "pattern does not match ", .pattern (optS r.pattern)])
          | none => .error .crash
       else none)

/-- The formats (validator.py:235-278). -/
def strFormat (P : PEnv) (nm : String) (r : StringRules) : Code PStr :=
  gen r.getEmail (stmt fun x =>
    match validateEmail P x with
    | some true => .ok ()
    | some false => .error (.failed nm [.s "is not a valid email"])
    | none => .error .crash) ;;
  gen r.getHostname (raiseIf nm [.s "is not a valid email"] fun x => !validateHostName x) ;;
  gen r.getAddress (raiseIf nm [.s "is not a valid address"] fun x => !(P.ipAddress x || validateHostName x)) ;;
  gen r.getIp (raiseIf nm [.s "is not a valid ip"] fun x => !P.ipAddress x) ;;
  gen r.getIpv4 (raiseIf nm [.s "is not a valid ipv4"] fun x => !P.ipv4Address x) ;;
  gen r.getIpv6 (raiseIf nm [.s "is not a valid ipv6"] fun x => !P.ipv6Address x) ;;
  gen r.getUri (stmt fun x =>
    match P.urlparse x with
    | some u => if u.scheme && u.netloc && u.path then .ok () else .error (.failed nm [.s "is not a valid uri"])
    | none => .error .crash) ;;
  gen r.getUriRef (stmt fun x =>
    match P.urlparse x with
    | some u =>
      if !(u.scheme && u.path) && u.fragment then .error (.failed nm [.s "is not a valid uri ref"]) else .ok ()
    | none => .error .crash) ;;
  gen r.getUuid (raiseIf nm [.s "is not a valid UUID"] fun x => !uuidOk P x)

/-- `in_template` for strings, bytes and enums (validator.py:158-169). -/
def inCode {α : Type} [BEq α] (nm : String) (shown : α → PItem) (printable : Bool) (ins notIns : List α) : Code α :=
  gen (!ins.isEmpty)
    (if printable then raiseIf nm [.s "not in ", .items (ins.map shown)] fun x => !ins.contains x else none) ;;
  gen (!notIns.isEmpty)
    (if printable then raiseIf nm [.s "in ", .items (notIns.map shown)] fun x => notIns.contains x else none)

/-- `string_template` (validator.py:172-281). -/
def strCode (P : PEnv) (nm : String) (r : StringRules) : Code PStr :=
  let body :=
    genOpt r.const (fun c =>
      match literal P c with
      | some l => raiseIf nm [.s "not equal to ", .item (.str l)] fun x => x != l
      | none => none) ;;
    inCode nm .str (listOk P (r.ins ++ r.notIns)) (r.ins.map pstr) (r.notIns.map pstr) ;;
    strLen nm r ;; strPattern P nm r ;; strAffix P nm r ;; strFormat P nm r
  if optB r.ignoreEmpty then block (fun x => !x.isEmpty) body else body

/-- The code of `string_template` with `ignore_empty` begins in the middle of a line
(validator.py:182-188), so it only fits where a line has just been indented: not in a loop body
after `for item in x:` and not in a oneof. -/
def inline (r : StringRules) (c : Code PStr) : Code PStr := if optB r.ignoreEmpty then none else c

/-- `bytes_template` (validator.py:701-780) for Python 3. Bytes constants print as bytes literals. -/
def bytesCode (P : PEnv) (nm : String) (r : BytesRules) : Code Bytes :=
  let printable := listOk P (r.ins ++ r.notIns ++ r.const.toList)
  let body :=
    genOpt r.const (fun c =>
      if printable then raiseIf nm [.s "not equal to ", .item (.bytes c)] fun x => x != c else none) ;;
    inCode nm .bytes printable r.ins r.notIns ;;
    genPos r.len (fun n => raiseIf nm [.s "length does not equal ", .nat n] fun x => x.length != n) ;;
    genPos r.minLen (fun n => raiseIf nm [.s "length is less than ", .nat n] fun x => decide (x.length < n)) ;;
    genPos r.maxLen (fun n => raiseIf nm [.s "length is more than ", .nat n] fun x => decide (x.length > n)) ;;
    gen r.getIp (raiseIf nm [.s "is not a valid ip"] fun x => !(x.length == 4 || x.length == 16)) ;;
    gen r.getIpv4 (raiseIf nm [.s "is not a valid ipv4"] fun x => x.length != 4) ;;
    gen r.getIpv6 (raiseIf nm [.s "is not a valid ipv6"] fun x => x.length != 16) ;;
    gen (optS r.pattern != []) (stmt fun x =>
      match P.searchBytes (optS r.pattern) x with
      | some true => .ok ()
      | some false =>
        .error (.failed nm [.s "pattern does not match b['pattern'].encode('unicode-escape')"])
      | none => .error .crash) ;;
    gen (optS r.contains != [])
      (if listOk P [optS r.contains] then
        raiseIf nm [.s "does not contain ", .item (.bytes (optS r.contains))] fun x => !contains (optS r.contains) x
       else none) ;;
    gen (optS r.pfx != [])
      (if listOk P [optS r.pfx] then
        raiseIf nm [.s "does not start with prefix ", .item (.bytes (optS r.pfx))] fun x => !startswith x (optS r.pfx)
       else none) ;;
    gen (optS r.sfx != [])
      (if listOk P [optS r.sfx] then
        raiseIf nm [.s "does not end with suffix ", .item (.bytes (optS r.sfx))] fun x => !endswith x (optS r.sfx)
       else none)
  if optB r.ignoreEmpty then block (fun x => !x.isEmpty) body else body

/-- `enum_template` with the `enum` branch of `const_template` (validator.py:142-144,662-672): a
`const` of zero is the same as none. -/
def enumCode (nm : String) (defined : List Int) (r : EnumRules) : Code Int :=
  gen (r.const.getD 0 != 0)
    (raiseIf nm [.s "not equal to ", .item (.enum (r.const.getD 0))] fun x => x != r.const.getD 0) ;;
  inCode nm .enum true r.ins r.notIns ;;
  gen (optB r.definedOnly) (raiseIf nm [.s "is not defined"] fun x => !defined.contains x)

/-! ### Well-known messages -/

/-- Is the value an absent message? (python/protoc_gen_validate/validator.py:124-132). -/
def isNull : Val → Bool
  | .null => true
  | _ => false

/-- `required_template` (validator.py:284-290). `present` is what `_has_field(p, ...)` answers: for a
field, whether the message is set; for a list item or map value it looks for a field of the
enclosing message that is called `item` or `x[key]`, which does not exist. (Simplification: no field
is called `item`.) -/
def requiredCode (nm : String) (req : Option Bool) (present : Val → Bool) : Code Val :=
  gen (optB req) (raiseIf nm [.s "is required."] fun v => !present v)

/-- Where a template is used: on a field of `p`, or on an item or map value
(python/protoc_gen_validate/validator.py:305-309,416-420). -/
inductive Place
  | field
  | element
  deriving DecidableEq, Repr

/-- `_has_field(p, name.split('.')[-1])` (python/protoc_gen_validate/validator.py:291). -/
def Place.has : Place → Val → Bool
  | .field, v => !isNull v
  | .element, _ => false

/-- The guard of the well-known type templates: `_has_field(p, ...)`, or the item itself, which as a
message is always true (python/protoc_gen_validate/validator.py:305-309,416-420). -/
def Place.guard : Place → Val → Bool
  | .field, v => !isNull v
  | .element, v => !isNull v

/-- Seconds of a Duration or Timestamp as a double (python/protoc_gen_validate/validator.py:421,509). -/
def secsOf : Val → Int
  | .dur d => valueSecs d.seconds d.nanos
  | .ts t => valueSecs t.seconds t.nanos
  | _ => 0

/-- Code about the seconds of a Duration or Timestamp; other values have none, which is an AttributeError
(python/protoc_gen_validate/validator.py:421,509). -/
def onSecs (c : Code Int) : Code Val :=
  c.map (List.map fun s v =>
    match v with
    | .dur d => s (secsOf (.dur d))
    | .ts t => s (secsOf (.ts t))
    | _ => .error .crash)

/-- The range part of `duration_template` and `timestamp_template` (validator.py:448-489,537-576).
`glued` is whether the text so far ends in a `raise` line without a line break, which makes the
single-sided and the inverted tests unparsable. -/
def timeRange (nm : String) (glued : Bool) (lt lte gt gte : Option Int) : Code Int :=
  let after (why : Text) (t : Int → Bool) : Code Int := if glued then none else raiseIf nm why t
  let range (a b : Int) : Text := [.s "is not in range ", .pair (.secs a) (.secs b)]
  match lt, lte, gt, gte with
  | some lt, _, some gt, _ =>
    if lt > gt then raiseIf nm (range lt gt) fun x => decide (x ≤ gt) || decide (x ≥ lt)
    else after (range gt lt) fun x => decide (x ≥ lt) && decide (x ≤ gt)
  | some lt, _, none, some gte =>
    if lt > gte then raiseIf nm (range lt gte) fun x => decide (x < gte) || decide (x ≥ lt)
    else after (range gte lt) fun x => decide (x ≥ lt) && decide (x < gte)
  | some lt, _, none, none => after [.s "is not lesser than ", .item (.secs lt)] fun x => decide (x ≥ lt)
  | none, some lte, some gt, _ =>
    if lte > gt then raiseIf nm (range lte gt) fun x => decide (x ≤ gt) || decide (x > lte)
    else after (range gt lte) fun x => decide (x > lte) && decide (x ≤ gt)
  | none, some lte, none, some gte =>
    if lte > gte then raiseIf nm (range lte gte) fun x => decide (x < gte) || decide (x > lte)
    else after (range gte lte) fun x => decide (x > lte) && decide (x < gte)
  | none, some lte, none, none =>
    after [.s "is not lesser than or equal to ", .item (.secs lte)] fun x => decide (x > lte)
  | none, none, some gt, _ => raiseIf nm [.s "is not greater than ", .item (.secs gt)] fun x => decide (x ≤ gt)
  | none, none, none, some gte =>
    raiseIf nm [.s "is not greater than or equal to ", .item (.secs gte)] fun x => decide (x < gte)
  | none, none, none, none => nothing

/-- `dur_lit` of a rule value (python/protoc_gen_validate/validator.py:408-410). -/
def durLit (d : PDur) : Int := litSecs d.seconds d.nanos
/-- `dur_lit` of a rule value (python/protoc_gen_validate/validator.py:408-410). -/
def tsLit (t : PTime) : Int := litSecs t.seconds t.nanos

/-- The block of `duration_template` (validator.py:421-490). It starts with the assignment to
`dur`. -/
def durBody (nm : String) (r : DurationRules) : Code Int :=
  stmt (fun _ => .ok ()) ;;
  genOpt r.const (fun c =>
    raiseIf nm [.s "is not equal to ", .item (.secs (durLit c))] fun x => x != durLit c) ;;
  gen (!r.ins.isEmpty)
    (raiseIf nm [.s "is not in ", .items (r.ins.map fun d => .secs (durLit d))]
      fun x => !(r.ins.map durLit).contains x) ;;
  gen (!r.notIns.isEmpty)
    (raiseIf nm [.s "is not in ", .items (r.notIns.map fun d => .secs (durLit d))]
      fun x => (r.notIns.map durLit).contains x) ;;
  timeRange nm (r.const.isSome || !r.ins.isEmpty || !r.notIns.isEmpty)
    (r.lt.map durLit) (r.lte.map durLit) (r.gt.map durLit) (r.gte.map durLit)

/-- `duration_template` (validator.py:413-498). -/
def durationCode (nm : String) (pl : Place) (r : DurationRules) : Code Val :=
  requiredCode nm r.required pl.has ;; block pl.guard (onSecs (durBody nm r))

/-- The relative rules of `timestamp_template` (validator.py:577-607); presence counts, and they
are only reached when there is no absolute bound. -/
def tsNow (P : PEnv) (nm : String) (r : TimestampRules) : Code Int :=
  let within (w : PDur) : Text := [.s "is not within range ", .item (.secs (durLit w))]
  match r.ltNow, r.gtNow, r.within with
  | some _, _, some w =>
    raiseIf nm (within w) fun x => decide (x ≥ P.now) || decide (x ≤ roundDouble (P.now - durLit w))
  | some _, _, none => raiseIf nm [.s "is not lesser than now"] fun x => decide (x ≥ P.now)
  | none, some _, some w =>
    raiseIf nm (within w) fun x => decide (x ≤ P.now) || decide (x ≥ roundDouble (P.now + durLit w))
  | none, some _, none => raiseIf nm [.s "is not greater than now"] fun x => decide (x ≤ P.now)
  | none, none, some w =>
    raiseIf nm (within w) fun x => decide (x ≥ roundDouble (P.now + durLit w)) ||
      decide (x ≤ roundDouble (P.now - durLit w))
  | none, none, none => nothing

/-- The block of `timestamp_template` (validator.py:509-607). -/
def tsBody (P : PEnv) (nm : String) (r : TimestampRules) : Code Int :=
  stmt (fun _ => .ok ()) ;;
  genOpt r.const (fun c =>
    raiseIf nm [.s "is not equal to ", .item (.secs (tsLit c))] fun x => x != tsLit c) ;;
  (if r.lt.isSome || r.lte.isSome || r.gt.isSome || r.gte.isSome then
    timeRange nm false (r.lt.map tsLit) (r.lte.map tsLit) (r.gt.map tsLit) (r.gte.map tsLit)
   else tsNow P nm r)

/-- `timestamp_template` (validator.py:501-611). -/
def timestampCode (P : PEnv) (nm : String) (pl : Place) (r : TimestampRules) : Code Val :=
  requiredCode nm r.required pl.has ;; block pl.guard (onSecs (tsBody P nm r))

/-- `if _has_field(...) and x.type_url ...: raise`; other messages than an Any have no type URL, which is an
AttributeError (python/protoc_gen_validate/validator.py:682-697). -/
def raiseUrl (nm : String) (why : Text) (test : PStr → Bool) : Code Val :=
  stmt fun v =>
    match v with
    | .null => .ok ()
    | .any url _ => if test (pstr url) then .error (.failed nm why) else .ok ()
    | _ => .error .crash

/-- `any_template` (validator.py:675-698). -/
def anyCode (P : PEnv) (nm : String) (pl : Place) (r : AnyRules) : Code Val :=
  let printable := listOk P (r.ins ++ r.notIns)
  requiredCode nm r.required pl.has ;;
  gen (!r.ins.isEmpty) (if printable then
    raiseUrl nm [.s "not in ", .items (r.ins.map fun u => .str (pstr u))]
      fun u => !(r.ins.map pstr).contains u else none) ;;
  gen (!r.notIns.isEmpty) (if printable then
    raiseUrl nm [.s "in ", .items (r.notIns.map fun u => .str (pstr u))]
      fun u => (r.notIns.map pstr).contains u else none)

/-- `message_template` (validator.py:298-316). On a field it calls `validate(p.x)`; on an item or map
value it refers to `p.item` or `p.p.x[key]`, which do not exist. `validate` returns None or raises,
so `return embedded` is never reached. -/
def messageCode (rec : Val → Run) (nm : String) (pl : Place) (m : Option MessageRules) : Code Val :=
  requiredCode nm (m.bind (·.required)) pl.has ;;
  (if msgSkip m then nothing
   else stmt fun v =>
     if pl.guard v then (match pl with | .field => rec v | .element => .error .crash) else .ok ())

/-! ### Dispatch on the rule type -/

/-- Code about a scalar, on a field value. A value of another kind raises TypeError (wrapper
messages in lists and maps; scalars always fit) (python/protoc_gen_validate/validator.py:948-990). -/
def onScalar {α : Type} (get : Scalar → Option α) (c : Code α) : Code Val :=
  c.map (List.map fun s v =>
    match v with
    | .sc x => (match get x with | some a => s a | none => .error .crash)
    | _ => .error .crash)

/-- The same for `name.value` of a wrapper message (python/protoc_gen_validate/validator.py:614-652). -/
def onWrapped {α : Type} (get : Scalar → Option α) (c : Code α) : Code Val :=
  c.map (List.map fun s v =>
    match v with
    | .wrapper x => (match get x with | some a => s a | none => .error .crash)
    | _ => .error .crash)

/-- The Python values of scalars (python/protoc_gen_validate/validator.py:957-980). -/
def getNum : Scalar → Option Num | .num n => some n | _ => none
/-- A bool (python/protoc_gen_validate/validator.py:955-956). -/
def getBool : Scalar → Option Bool | .bool b => some b | _ => none
/-- A string (python/protoc_gen_validate/validator.py:951-952). -/
def getStr : Scalar → Option PStr | .str s => some (pstr s) | _ => none
/-- A bytes value (python/protoc_gen_validate/validator.py:983-984). -/
def getBytes : Scalar → Option Bytes | .bytes s => some s | _ => none
/-- An enum value (python/protoc_gen_validate/validator.py:981-982). -/
def getEnum : Scalar → Option Int | .enum i => some i | _ => none

/-- The values of the element type if it is an enum (`field.enum_type.values`)
(python/protoc_gen_validate/validator.py:658-659). -/
def enumValues : ElemT → List Int
  | .enum vs => vs
  | _ => []

/-- `switcher_template` (validator.py:783-833): the code for list items and map values. Rules
without text emit nothing, and there is no branch for bytes. -/
def switcher (P : PEnv) (rec : Val → Run) (nm : String) (e : ElemT) (rules : FieldRules) : Code Val :=
  match rules with
  | .absent => nothing
  | .mk m t =>
    if typeText t then
      match t with
      | .num _ r => onScalar getNum (numCode nm r)
      | .bool r => onScalar getBool (boolCode nm r)
      | .string r => onScalar getStr (inline r (strCode P nm r))
      | .enum r => onScalar getEnum (enumCode nm (enumValues e) r)
      | .duration r => durationCode nm .element r
      | .timestamp r => timestampCode P nm .element r
      | .any r => if messageText m then messageCode rec nm .element m else anyCode P nm .element r
      | _ => gen (messageText m) (messageCode rec nm .element m)
    else gen (messageText m) (messageCode rec nm .element m)

/-- `item in seen` for scalars: IEEE equality on floats (each item is a fresh object), equality
otherwise. Messages are not hashable (python/protoc_gen_validate/validator.py:855). -/
def sameItem : Val → Val → Bool
  | .sc (.num a), .sc (.num b) => a.eq b
  | .sc (.bool a), .sc (.bool b) => a == b
  | .sc (.str a), .sc (.str b) => pstr a == pstr b
  | .sc (.bytes a), .sc (.bytes b) => a == b
  | .sc (.enum a), .sc (.enum b) => a == b
  | _, _ => false

/-- Is the value hashable? (python/protoc_gen_validate/validator.py:855). -/
def hashable : Val → Bool
  | .sc _ => true
  | _ => false

/-- `%s` of an item (python/protoc_gen_validate/validator.py:857). -/
def shownItem : Val → List Piece
  | .sc (.num n) => [.item (.num n)]
  | .sc (.bool b) => [.item (.bool b)]
  | .sc (.str s) => [.item (.str (pstr s))]
  | .sc (.bytes b) => [.item (.bytes b)]
  | .sc (.enum i) => [.item (.enum i)]
  | _ => []

/-- The loop over `seen` (validator.py:855-861). -/
def uniqueLoop (nm : String) (seen : List Val) : List Val → Run
  | [] => .ok ()
  | v :: vs =>
    if !hashable v then .error .crash
    else if seen.any fun w => sameItem v w then
      .error (.failed nm ([.s "must contain unique items. "] ++ shownItem v ++ [.s " has been repeated."]))
    else uniqueLoop nm (v :: seen) vs

/-- `if x: ... ` around everything, for `ignore_empty` on lists and maps
(python/protoc_gen_validate/validator.py:839-843,888-892). -/
def ignoreBlock {α : Type} (ignore : Option Bool) (empty : α → Bool) (c : Code α) : Code α :=
  if optB ignore then block (fun x => !empty x) c else c

/-- `repeated_template` (validator.py:836-877) on the items of a list. -/
def repeatedCode (P : PEnv) (rec : Val → Run) (nm : String) (e : ElemT) (r : RepeatedRules) (items : FieldRules) :
    Code (List Val) :=
  ignoreBlock r.ignoreEmpty (·.isEmpty)
    (genPos r.minItems (fun n => raiseIf nm [.s "needs to contain at least ", .nat n, .s " items"]
      fun x => decide (x.length < n)) ;;
     genPos r.maxItems (fun n => raiseIf nm [.s "needs to contain at most ", .nat n, .s " items"]
      fun x => decide (x.length > n)) ;;
     gen (optB r.unique) (stmt (uniqueLoop nm [])) ;;
     gen e.isEmbed (loop (gen (!msgSkip items.message) (stmt rec))) ;;
     gen (rulesText items) (loop (switcher P rec "item" e items)))

/-- The code for map keys (validator.py:906-932). -/
def keyCode (P : PEnv) (keys : FieldRules) : Code Val :=
  match keys.type with
  | .num .float _ => nothing
  | .num k r => gen (typeText (.num k r)) (onScalar getNum (numCode "key" r))
  | .bool r => gen (typeText (.bool r)) (onScalar getBool (boolCode "key" r))
  | .string r => gen (typeText (.string r)) (onScalar getStr (inline r (strCode P "key" r)))
  | _ => nothing

/-- `map_template` (validator.py:891-943). `no_sparse` has no Python code. Message values are
validated only when neither key nor value rules are given. -/
def mapCode (P : PEnv) (rec : Val → Run) (nm : String) (vt : ElemT) (r : MapRules) (keys values : FieldRules) :
    Code (List (Scalar × Val)) :=
  ignoreBlock r.ignoreEmpty (·.isEmpty)
    (genPos r.minPairs (fun n => raiseIf nm [.s "needs to contain at least ", .nat n, .s " items"]
      fun x => decide (x.length < n)) ;;
     genPos r.maxPairs (fun n => raiseIf nm [.s "can contain at most ", .nat n, .s " items"]
      fun x => decide (x.length > n)) ;;
     (if rulesText keys || rulesText values then
        on P.order (loop (on (fun kv => Val.sc kv.1) (keyCode P keys) ;;
          on Prod.snd (switcher P rec (nm ++ "[key]") vt values)))
      else gen vt.isEmbed (on P.order (loop (on Prod.snd (stmt rec))))))

/-- The items of a list value (python/protoc_gen_validate/validator.py:861,869). -/
def itemsOf : Val → List Val
  | .list vs => vs
  | _ => []

/-- The entries of a map value (python/protoc_gen_validate/validator.py:902,936). -/
def entriesOf : Val → List (Scalar × Val)
  | .map kvs => kvs
  | _ => []

/-- The body of `wrapper_template` (validator.py:614-655) for the six numeric kinds that have
wrappers and for bool, string and bytes. -/
def wrappedCode (P : PEnv) (nm : String) : TypeRules → Code Val
  | .num _ r => onWrapped getNum (numCode (nm ++ ".value") r)
  | .bool r => onWrapped getBool (boolCode (nm ++ ".value") r)
  | .string r => onWrapped getStr (strCode P (nm ++ ".value") r)
  | .bytes r => onWrapped getBytes (bytesCode P (nm ++ ".value") r)
  | _ => nothing

/-- `wrapper_template` (validator.py:614-655). -/
def wrapperCode (P : PEnv) (nm : String) (t : TypeRules) (m : Option MessageRules) : Code Val :=
  block (fun v => !isNull v) (wrappedCode P nm t) ;;
  gen (msgRequired m) (raiseIf nm [.s "is required."] isNull)

/-- Rule kinds that `rule_type` hands to `wrapper_template` (validator.py:1003-1006). -/
def wrapperKind : TypeRules → Bool
  | .num k _ => k == .float || k == .double || k == .int32 || k == .int64 || k == .uint32 || k == .uint64
  | .bool _ | .string _ | .bytes _ => true
  | _ => false

/-- Is this a field in a oneof? There the emitted text is indented once more, first line included
(python/protoc_gen_validate/validator.py:1039). -/
def oneofText (inOneof : Bool) (r : StringRules) (c : Code PStr) : Code PStr :=
  if inOneof then inline r c else c

/-- `name = "p." + field.name` (python/protoc_gen_validate/validator.py:947). -/
def pName (f : FieldDesc) : String := "p." ++ f.name

/-- `rule_type` for fields without a message type (validator.py:946-993). Rules without text end in
an AttributeError: `FieldRules` has no member `required`. -/
def scalarField (P : PEnv) (inOneof : Bool) (f : FieldDesc) (e : ElemT) (list : Bool) : Code Val :=
  match f.rules with
  | .absent => nothing
  | .mk m t =>
    if typeText t && !messageText m || (match t with | .string r => r != {} | _ => false) then
      match t with
      | .string r => onScalar getStr (oneofText inOneof r (strCode P (pName f) r))
      | .num _ r => onScalar getNum (numCode (pName f) r)
      | .bool r => onScalar getBool (boolCode (pName f) r)
      | .enum r => onScalar getEnum (enumCode (pName f) (enumValues e) r)
      | .bytes r => onScalar getBytes (bytesCode P (pName f) r)
      | .repeated r items =>
        if list then on itemsOf (repeatedCode P (fun _ => .error .crash) (pName f) e r items)
        else stmt fun _ => .error .crash
      | _ => none
    else if messageText m then
      requiredCode f.name (m.bind (·.required)) (fun _ => true) ;;
      (if msgSkip m then nothing else stmt fun _ => .error .crash)
    else none

/-- `rule_type` for a singular field with a message type (validator.py:994-1022). -/
def messageField (P : PEnv) (rec : Val → Run) (f : FieldDesc) (wkt : Option WKT) : Code Val :=
  match f.rules with
  | .absent => if wkt.isSome then nothing else messageCode rec f.name .field none
  | .mk m t =>
    match t with
    | .duration r => if r != {} then durationCode (pName f) .field r else messageOr rec f.name m none
    | .timestamp r => if r != {} then timestampCode P (pName f) .field r else messageOr rec f.name m none
    | .any r => messageOr rec f.name m (if r != {} then anyCode P (pName f) .field r else none)
    | t =>
      if typeText t && wrapperKind t then wrapperCode P (pName f) t m
      else messageOr rec f.name m none
where
  /-- The later branches: message rules, else `other`. -/
  messageOr (rec : Val → Run) (nm : String) (m : Option MessageRules) (other : Code Val) : Code Val :=
    if messageText m then messageCode rec nm .field m else other

/-- `rule_type` for a repeated field of messages. Message rules on the field itself make the code
call `validate` on the list (python/protoc_gen_validate/validator.py:991-1017). -/
def messageList (P : PEnv) (rec : Val → Run) (f : FieldDesc) (e : ElemT) (wkt : Option WKT) :
    Code Val :=
  match f.rules with
  | .absent => if wkt.isSome then nothing else on itemsOf (repeatedCode P rec (pName f) e {} .absent)
  | .mk m t =>
    if messageText m then (if msgSkip m then nothing else stmt fun _ => .error .crash)
    else
      match t with
      | .repeated r items =>
        if typeText t then on itemsOf (repeatedCode P rec (pName f) e r items) else none
      | _ => none

/-- `rule_type` for a map field, whose message type is the entry type
(python/protoc_gen_validate/validator.py:991-1015). -/
def mapField (P : PEnv) (rec : Val → Run) (f : FieldDesc) (vt : ElemT) : Code Val :=
  match f.rules with
  | .absent => on entriesOf (mapCode P rec (pName f) vt {} .absent .absent)
  | .mk m t =>
    if messageText m then (if msgSkip m then nothing else stmt fun _ => .error .crash)
    else
      match t with
      | .map r keys values =>
        if typeText t then on entriesOf (mapCode P rec (pName f) vt r keys values) else none
      | _ => none

/-- `is_map`, for a repeated field of messages that is not a map
(python/protoc_gen_validate/validator.py:880-882). -/
def isMap (P : PEnv) (t : String) : Bool :=
  match P.fieldsOf t with
  | [k, v] => k.1 == "key" && v.1 == "value"
  | _ => false

/-- `map_template` without rules, for a list that `is_map` takes for a map: if the field `value` has a
message type, the list is indexed with its own items
(python/protoc_gen_validate/validator.py:933-936). -/
def pairList (P : PEnv) (t : String) : Code Val :=
  gen (match P.fieldsOf t with | [_, v] => v.2 | _ => false)
    (on itemsOf (loop (stmt fun _ => .error .crash)))

/-- The field has no `validate.rules` option (validator.py:994-995). -/
def unruled (f : FieldDesc) : Bool :=
  match f.rules with
  | .absent => true
  | .mk _ _ => false

/-- `rule_type` (validator.py:946-1023). The test for `google.protobuf` comes before all others for
fields without rules; it is left out for the entry types of maps (a map declared inside a file of the
package `google.protobuf`). -/
def fieldCode (P : PEnv) (rec : Val → Run) (inOneof : Bool) (f : FieldDesc) : Code Val :=
  match f.typ with
  | .one (.embed t wkt) => if unruled f && P.google t then nothing else messageField P rec f wkt
  | .one e => scalarField P inOneof f e false
  | .rep (.embed t wkt) =>
    if unruled f && P.google t then nothing
    else if unruled f && wkt.isNone && isMap P t then pairList P t
    else messageList P rec f (.embed t wkt) wkt
  | .rep e => scalarField P inOneof f e true
  | .map _ vt => mapField P rec f vt

/-! ### Messages -/

/-- The values of a message: its set fields and the set member of each oneof
(python/protoc_gen_validate/validator.py:1034-1052). -/
abbrev Content := List (String × Val) × List (String × String × Val)

/-- The members of a oneof, one `if _has_field(p, ...)` after the other (validator.py:1036-1040). -/
def memberCode (P : PEnv) (rec : Val → Run) (o : OneofDesc) : List FieldDesc → Code Content
  | [] => nothing
  | f :: fs =>
    block (fun c => match c.2.lookup o.name with | some (n, _) => n == f.name | none => false)
      (stmt (fun _ => .ok ()) ;;
       on (fun c => match c.2.lookup o.name with | some (_, v) => v | none => .null)
        (fieldCode P rec true f)) ;;
    memberCode P rec o fs

/-- A oneof (validator.py:1034-1047). -/
def oneofCode (P : PEnv) (rec : Val → Run) (o : OneofDesc) : Code Content :=
  memberCode P rec o o.fields ;;
  gen o.required (raiseIf ("Oneof " ++ o.name) [.s "is required"] fun c =>
    !(match c.2.lookup o.name with | some (n, _) => o.fields.any (fun f => f.name == n) | none => false))

/-- Texts one after the other (python/protoc_gen_validate/validator.py:1034-1052). -/
def seqAll {α β : Type} (l : List α) (k : α → Code β) : Code β :=
  match l with
  | [] => nothing
  | a :: as => k a ;; seqAll as k

/-- `file_template` (validator.py:1023-1054): `disabled` and `ignored` put `return None` first; then
come the oneofs, then the fields outside oneofs. The text after `return None` must still parse. -/
def msgCode (P : PEnv) (rec : Val → Run) (d : MsgDesc) : Code Content :=
  let body := seqAll d.oneofs (oneofCode P rec) ;;
    seqAll d.fields (fun f => on (fun c => getField c.1 f) (fieldCode P rec false f))
  if d.disabled || d.ignored then body.map fun _ => [] else body

/-- One call of `validate` (validator.py:51-63), given what it does for embedded messages. Message
types the schema does not generate code for are left to `other`. -/
def validateStep (P : PEnv) (S : Schema) (rec : Val → Run) (v : Val) : Run :=
  match v with
  | .msg typ fs os =>
    match S typ with
    | .generated d => (msgCode P rec d).run (fs, os)
    | _ => P.other v
  | _ => P.other v

/-- Calls nested at most `n` deep (python/protoc_gen_validate/validator.py:49-50,310,865,937). -/
def validateFuel (P : PEnv) (S : Schema) : Nat → Val → Run
  | 0 => fun _ => .ok ()
  | n + 1 => validateStep P S (validateFuel P S n)

/-- `validate(v)`; the nesting depth of the value bounds the recursion
(python/protoc_gen_validate/validator.py:49-50). -/
def validate (P : PEnv) (S : Schema) (v : Val) : Run := validateFuel P S (depth v) v

end PGV.Py
