import Verif.Go.Templates

/-!
Rule resolution (templates/shared/context.go), embedded messages, wrappers, repeated and map fields,
and the generated `Validate` / `ValidateAll` methods (templates/goshared/msg.go).
-/

namespace PGV.Go
open PGV Exec

/-- The result of `resolveRules` (templates/shared/context.go:119-177): which template is rendered
for an element, and with which rules. `wrapper` is the "wrapper" template with the scalar rules. -/
inductive Resolved
  | none
  | message (m : Option MessageRules)
  | wrapper (t : TypeRules) (m : Option MessageRules)
  | plain (t : TypeRules)

/-- `resolveRules` on an element type or singular field (templates/shared/context.go:119-177; the
`ft.IsRepeated`/`ft.IsMap` cases are in `renderField`). -/
def resolve (e : ElemT) (rules : FieldRules) : Resolved :=
  match rules.type with
  | .unset => if e.isEmbed then .message rules.message else .none
  | .num k r =>
    match k with
    | .float | .double | .int32 | .int64 | .uint32 | .uint64 =>
      if e.isEmbed then .wrapper (.num k r) rules.message else .plain (.num k r)
    | _ => .plain (.num k r)
  | .bool r => if e.isEmbed then .wrapper (.bool r) rules.message else .plain (.bool r)
  | .string r => if e.isEmbed then .wrapper (.string r) rules.message else .plain (.string r)
  | .bytes r => if e.isEmbed then .wrapper (.bytes r) rules.message else .plain (.bytes r)
  | t => .plain t

/-- The callback used for embedded messages: `rec all v` is `v.Validate()` (`all = false`) or
`v.ValidateAll()` (`all = true`) (templates/go/message.go:14,19,24). -/
abbrev Rec := Bool → Val → Option Err

/-- Which validation methods the dynamic type of a message value has (templates/go/message.go:13,17,23). -/
inductive Methods
  | both | validateOnly | none
  deriving DecidableEq, Repr

/-- Method set of a value held in a message-typed field. A nil pointer still has its type's
methods, but they return nil on a nil receiver (templates/goshared/msg.go:28; older generated code
has the same line), so a nil value is given the empty method set. Well-known types have no
methods. `ignored` types get no methods (msg.go:4). -/
def methods (S : Schema) : Val → Methods
  | .msg typ _ _ =>
    match S typ with
    | .generated d => if d.ignored then .none else .both
    | .legacy => .validateOnly
    | .foreign => .none
  | _ => .none

/-- Is the value a nil pointer? (templates/goshared/msg.go:28). -/
def Val.isNull : Val → Bool
  | .null => true
  | _ => false

/-- templates/go/message.go:4-29 (messageTpl). -/
def messageTpl (E : Env) (S : Schema) (all : Bool) (rec : Rec) (c : Ctx) (m : Option MessageRules)
    (v : Val) : Exec :=
  requiredTpl all c (msgRequired m) (Val.isNull v) ;;
  if msgSkip m then skip
  else if all then
    match methods S v with
    | .both =>
      match rec true v with
      | some e => append (errCause c e [.s "embedded message failed validation"])
      | none => skip
    | .validateOnly =>
      match E.legacy v with
      | some e => append (errCause c e [.s "embedded message failed validation"])
      | none => skip
    | .none => skip
  else
    match methods S v with
    | .both =>
      match rec false v with
      | some e => ret (errCause c e [.s "embedded message failed validation"])
      | none => skip
    | .validateOnly =>
      match E.legacy v with
      | some e => ret (errCause c e [.s "embedded message failed validation"])
      | none => skip
    | .none => skip

/-- Templates that apply to a non-repeated, non-map value with its own rule kind. A value of
another Go type than the rules expect cannot occur (the generated code would not compile), and
repeated/map rules inside items/keys/values are rejected by the checker (`CheckRepeated`,
`CheckMap`); those combinations do nothing here (templates/shared/context.go:119-177). -/
def scalarTpl (E : Env) (all : Bool) (c : Ctx) (e : ElemT) (t : TypeRules) (v : Scalar) : Exec :=
  match t, v with
  | .num _ r, .num n => numTpl all c r n
  | .bool r, .bool b => boolTpl all c r b
  | .string r, .str s => strTpl E all c r s
  | .bytes r, .bytes b => bytesTpl E all c r b
  | .enum r, .enum i =>
    match e with
    | .enum defined => enumTpl all c defined r i
    | _ => skip
  | _, _ => skip

/-- templates/goshared/wrapper.go:3-13 (wrapperTpl). The context of the unwrapped value has no
index and no key flag (`Unwrap`, templates/shared/context.go:96-109). -/
def wrapperTpl (E : Env) (all : Bool) (c : Ctx) (e : ElemT) (t : TypeRules)
    (m : Option MessageRules) (v : Val) : Exec :=
  match v with
  | .wrapper s => scalarTpl E all { c with index := none, onKey := false } e t s
  | .null =>
    when (msgRequired m) (report all (err c [.s "value is required and must not be nil."]))
  | _ => skip

/-- Rendering of an element context: `{{ render … }}` (templates/shared/context.go:111-117) for
everything but repeated and map. -/
def elemTpl (E : Env) (S : Schema) (all : Bool) (rec : Rec) (c : Ctx) (e : ElemT)
    (rules : FieldRules) (v : Val) : Exec :=
  match resolve e rules with
  | .none => skip
  | .message m => messageTpl E S all rec c m v
  | .wrapper t m => wrapperTpl E all c e t m v
  | .plain t =>
    match t, v with
    | .any r, .any url _ => anyTpl all c r (some url)
    | .any r, .null => anyTpl all c r none
    | .duration r, .dur d => durationTpl all c r (some d)
    | .duration r, .null => durationTpl all c r none
    | .timestamp r, .ts t => timestampTpl E.now all c r (some t)
    | .timestamp r, .null => timestampTpl E.now all c r none
    | t, .sc s => scalarTpl E all c e t s
    | _, _ => skip

/-- Does rendering an element context do anything: `(.Elem "" "").Typ != "none"`
(templates/goshared/repeated.go:46; map.go:38). -/
def elemTypNotNone (e : ElemT) (rules : FieldRules) : Bool :=
  match resolve e rules with
  | .none => false
  | _ => true

/-- templates/goshared/repeated.go:10-36: min_items / max_items. -/
def repLenTpl (all : Bool) (c : Ctx) (r : RepeatedRules) (len : Nat) : Exec :=
  if optN r.minItems != 0 then
    if optN r.minItems == optN r.maxItems then
      when (len != optN r.minItems)
        (report all (err c [.s "value must contain exactly ", .nat (optN r.minItems), .s " item(s)"]))
    else if r.maxItems.isSome then
      when (decide (len < optN r.minItems) || decide (len > optN r.maxItems))
        (report all (err c [.s "value must contain between ", .nat (optN r.minItems), .s " and ",
          .nat (optN r.maxItems), .s " items, inclusive"]))
    else
      when (decide (len < optN r.minItems))
        (report all (err c [.s "value must contain at least ", .nat (optN r.minItems), .s " item(s)"]))
  else if r.maxItems.isSome then
    when (decide (len > optN r.maxItems))
      (report all (err c [.s "value must contain no more than ", .nat (optN r.maxItems), .s " item(s)"]))
  else skip

/-- Go's `==` on map keys, as the `Unique` table of templates/goshared/repeated.go:38-57 uses it:
numbers compare as numbers (NaN is never equal to anything), bytes are converted to string. -/
def keyEq : Val → Val → Bool
  | .sc (.num a), .sc (.num b) => a.eq b
  | .sc (.bool a), .sc (.bool b) => a == b
  | .sc (.str a), .sc (.str b) => a == b
  | .sc (.bytes a), .sc (.bytes b) => a == b
  | .sc (.enum a), .sc (.enum b) => a == b
  | _, _ => false

/-- The loop of templates/goshared/repeated.go:47-60. `seen` is the `Unique` table. -/
def repLoop (all : Bool) (unique : Bool) (c : Ctx) (item : Nat → Val → Exec) :
    Nat → List Val → List Val → Exec
  | _, _, [] => skip
  | idx, seen, v :: vs =>
    let dup := unique && seen.any (fun w => keyEq w v)
    when dup (report all (errIdx c (.pos idx) [.s "repeated value must contain unique items"])) ;;
    item idx v ;;
    repLoop all unique c item (idx + 1) (if unique && !dup then v :: seen else seen) vs

/-- templates/goshared/repeated.go:3-66 (repTpl). -/
def repTpl (E : Env) (S : Schema) (all : Bool) (rec : Rec) (c : Ctx) (e : ElemT)
    (r : RepeatedRules) (items : FieldRules) (vs : List Val) : Exec :=
  let body :=
    repLenTpl all c r vs.length ;;
    if optB r.unique || elemTypNotNone e items then
      repLoop all (optB r.unique) c
        (fun idx v => elemTpl E S all rec { c with index := some (.pos idx) } e items v) 0 [] vs
    else skip
  if optB r.ignoreEmpty then when (decide (vs.length > 0)) body else body

/-- templates/goshared/map.go:10-36: min_pairs / max_pairs. -/
def mapLenTpl (all : Bool) (c : Ctx) (r : MapRules) (len : Nat) : Exec :=
  if optN r.minPairs != 0 then
    if optN r.minPairs == optN r.maxPairs then
      when (len != optN r.minPairs)
        (report all (err c [.s "value must contain exactly ", .nat (optN r.minPairs), .s " pair(s)"]))
    else if r.maxPairs.isSome then
      when (decide (len < optN r.minPairs) || decide (len > optN r.maxPairs))
        (report all (err c [.s "value must contain between ", .nat (optN r.minPairs), .s " and ",
          .nat (optN r.maxPairs), .s " pairs, inclusive"]))
    else
      when (decide (len < optN r.minPairs))
        (report all (err c [.s "value must contain at least ", .nat (optN r.minPairs), .s " pair(s)"]))
  else if r.maxPairs.isSome then
    when (decide (len > optN r.maxPairs))
      (report all (err c [.s "value must contain no more than ", .nat (optN r.maxPairs), .s " pair(s)"]))
  else skip

/-- `.Key` contexts resolve rules on the key type (templates/shared/context.go:47-65) and ignore the
wrapped flag; map keys are never messages, so the flag is always false. The context keeps the field
and sets the index, but never sets `OnKey`. -/
def keyTpl (E : Env) (all : Bool) (c : Ctx) (e : ElemT) (rules : FieldRules) (k : Scalar) : Exec :=
  match rules.type with
  | .unset => skip
  | t => scalarTpl E all c e t k

/-- Body of the loop of templates/goshared/map.go:38-53 for one entry. -/
def mapEntry (E : Env) (S : Schema) (all : Bool) (rec : Rec) (c : Ctx) (kt vt : ElemT)
    (r : MapRules) (keys values : FieldRules) (kv : Scalar × Val) : Exec :=
  when (optB r.noSparse && Val.isNull kv.2)
    (report all (errIdx c (.key kv.1) [.s "value cannot be sparse, all pairs must be non-nil"])) ;;
  keyTpl E all { c with index := some (.key kv.1) } kt keys kv.1 ;;
  elemTpl E S all rec { c with index := some (.key kv.1) } vt values kv.2

/-- templates/goshared/map.go:3-60 (mapTpl). -/
def mapTpl (E : Env) (S : Schema) (all : Bool) (rec : Rec) (c : Ctx) (kt vt : ElemT)
    (r : MapRules) (keys values : FieldRules) (kvs : List (Scalar × Val)) : Exec :=
  let body :=
    mapLenTpl all c r kvs.length ;;
    if optB r.noSparse || elemTypNotNone vt values || elemTypNotNone kt keys then
      forEach (E.order kvs) (mapEntry E S all rec c kt vt r keys values)
    else skip
  if optB r.ignoreEmpty then when (decide (kvs.length > 0)) body else body

/-- `render (context .)` for a field: `rulesContext` (templates/shared/context.go:26-45) with the
repeated/map branches of `resolveRules` (context.go:153-156 and 163-167). -/
def renderField (E : Env) (S : Schema) (all : Bool) (rec : Rec) (msg : String) (f : FieldDesc)
    (v : Val) : Exec :=
  let c : Ctx := { msg := msg, field := f.name }
  match f.typ, v with
  | .one e, v => elemTpl E S all rec c e f.rules v
  | .rep e, .list vs =>
    match f.rules.type with
    | .repeated r items => repTpl E S all rec c e r items vs
    | .unset => repTpl E S all rec c e {} .absent vs
    | _ => skip
  | .map kt vt, .map kvs =>
    match f.rules.type with
    | .map r keys values => mapTpl E S all rec c kt vt r keys values kvs
    | .unset => if vt.isEmbed then mapTpl E S all rec c kt vt {} .absent .absent kvs else skip
    | _ => skip
  | _, _ => skip

/-- One `switch` over a oneof (templates/goshared/msg.go:36-52). -/
def oneofTpl (E : Env) (S : Schema) (all : Bool) (rec : Rec) (msg : String) (o : OneofDesc)
    (set : Option (String × Val)) : Exec :=
  match set with
  | some (member, v) =>
    match o.fields.find? (fun f => f.name == member) with
    | some f => renderField E S all rec msg f v
    | none => skip
  | none =>
    when o.required (report all (.viol msg ⟨o.name, none⟩ [.s "value is required"] none false))

/-- The statements between `var errors []error` and the final return
(templates/goshared/msg.go:30-52). -/
def bodyExec (E : Env) (S : Schema) (all : Bool) (rec : Rec) (d : MsgDesc)
    (fs : List (String × Val)) (os : List (String × String × Val)) : Exec :=
  forEach d.fields (fun f => renderField E S all rec d.name f (getField fs f)) ;;
  forEach d.oneofs (fun o => oneofTpl E S all rec d.name o (os.lookup o.name))

/-- The end of the method (templates/goshared/msg.go:54-57): an early return, nil, or the collected
errors as a multi-error. -/
def finish (name : String) : Except Err (List Err) → Option Err
  | .error e => some e
  | .ok [] => none
  | .ok (e :: es) => some (.multi name (e :: es))

/-- The generated `validate(all bool) error` method (templates/goshared/msg.go:24-59) with the
calls on embedded messages abstracted as `rec`. A nil receiver gives nil. -/
def validateStep (E : Env) (S : Schema) (rec : Rec) (all : Bool) (v : Val) : Option Err :=
  match v with
  | .msg typ fs os =>
    match S typ with
    | .generated d =>
      if d.disabled then none
      else finish d.name (bodyExec E S all rec d fs os [])
    | _ => none
  | _ => none

mutual
/-- Nesting depth of a value (a bound for the recursion of templates/go/message.go:14,19,24). -/
def depth : Val → Nat
  | .msg _ fs os => max (depthFields fs) (depthOneofs os) + 1
  | .list vs => depthList vs + 1
  | .map kvs => depthMap kvs + 1
  | _ => 1
/-- Maximal depth of the field values of a message
(a bound for the recursion of templates/go/message.go:14,19,24). -/
def depthFields : List (String × Val) → Nat
  | [] => 0
  | (_, v) :: fs => max (depth v) (depthFields fs)
/-- Maximal depth of the set oneof members of a message
(a bound for the recursion of templates/go/message.go:14,19,24). -/
def depthOneofs : List (String × String × Val) → Nat
  | [] => 0
  | (_, _, v) :: fs => max (depth v) (depthOneofs fs)
/-- Maximal depth of list elements (a bound for the recursion of templates/go/message.go:14,19,24). -/
def depthList : List Val → Nat
  | [] => 0
  | v :: vs => max (depth v) (depthList vs)
/-- Maximal depth of map values (a bound for the recursion of templates/go/message.go:14,19,24). -/
def depthMap : List (Scalar × Val) → Nat
  | [] => 0
  | (_, v) :: kvs => max (depth v) (depthMap kvs)
end

/-- Calls nested at most `n` deep (templates/goshared/msg.go:10-59; templates/go/message.go:14,19,24). -/
def validateFuel (E : Env) (S : Schema) : Nat → Rec
  | 0 => fun _ _ => none
  | n + 1 => validateStep E S (validateFuel E S n)

/-- `Validate()` (`all = false`) and `ValidateAll()` (`all = true`) of a message
(templates/goshared/msg.go:10-21). Calls recurse into embedded messages only, so the nesting depth
of the value bounds the call depth; `validate_eq` (Lemmas/Knot.lean) proves that the bound is never
felt, i.e. this is the unbounded recursion of the generated code. -/
def validate (E : Env) (S : Schema) (all : Bool) (v : Val) : Option Err :=
  validateFuel E S (depth v) all v

end PGV.Go
