import Verif.Core.Schema

/-!
The generator's rule checks (module/checker.go). A failed `m.Assert`, `m.Failf` or `m.CheckErr`
aborts the plugin (protoc-gen-star's debugger calls `os.Exit(1)`), so each check is modelled by
whether it lets the rules through, and, where it modifies them, by the modified rules.
-/

namespace PGV.Checker
open PGV

/-- What is passed as `FieldType` to `CheckFieldRules`: the type of a field (`pgs.FieldType`) or of
a list element, map key or map value (`pgs.FieldTypeElem`) (module/checker.go:29-32). -/
inductive Ty
  | field (t : FieldT)
  | elem (e : ElemT)
  deriving DecidableEq, Repr

/-- `ProtoType()`. A repeated field has the proto type of its elements, a map field is a (repeated)
message for protoc (module/checker.go:30). -/
def Ty.protoType : Ty → ProtoType
  | .field (.one e) => e.protoType
  | .field (.rep e) => e.protoType
  | .field (.map _ _) => .message
  | .elem e => e.protoType

/-- `Embed()`: the embedded message's well-known type, when there is an embedded message. Repeated
and map types have none (module/checker.go:31). -/
def Ty.embed : Ty → Option (Option WKT)
  | .field (.one (.embed _ w)) => some w
  | .elem (.embed _ w) => some w
  | _ => none

/-- `IsEmbed()` of a field's type (used in module/checker.go:274). -/
def Ty.isEmbed : Ty → Bool
  | .field (.one e) => e.isEmbed
  | .elem e => e.isEmbed
  | _ => false

/-- `typ.(Repeatable)` and `IsRepeated()`: element types have no such method (module/checker.go:34-36). -/
def Ty.isRepeated : Ty → Bool
  | .field (.rep _) => true
  | _ => false

/-- `MustType` (module/checker.go:138-155). `wrapper` is `none` for `UnknownWKT`. A wrapper
message's first field has the wrapped type. -/
def mustType (t : Ty) (pt : ProtoType) (wrapper : Option WKT) : Bool :=
  match t.embed, wrapper with
  | some (some w), some w' =>
    if w = w' then
      match w.wrapped with
      | some p => p == pt
      | none => false
    else !t.isRepeated && t.protoType == pt
  | _, _ => !t.isRepeated && t.protoType == pt

/-- `checkIns` (module/checker.go:438-442). -/
def checkIns (nIn nNotIn : Nat) : Bool := nIn == 0 || nNotIn == 0

/-- `checkNums` (module/checker.go:393-436), for a type of bounds with an equality as
`reflect.DeepEqual` decides it on two different pointers. -/
def checkNums {α : Type} (eq : α → α → Bool) (nIn nNotIn : Nat) (const lt lte gt gte : Option α) :
    Bool :=
  checkIns nIn nNotIn &&
  (const.isNone ||
    (nIn == 0 && nNotIn == 0 && lt.isNone && lte.isNone && gt.isNone && gte.isNone)) &&
  (nIn == 0 || (lt.isNone && lte.isNone && gt.isNone && gte.isNone)) &&
  (lt.isNone || lte.isNone) &&
  (gt.isNone || gte.isNone) &&
  (match lt with
   | some l =>
     (match gt with | some g => !eq l g | none => true) &&
     (match gte with | some g => !eq l g | none => true)
   | none =>
     match lte with
     | some l =>
       (match gt with | some g => !eq l g | none => true) &&
       (match gte with | some g => !eq l g | none => true)
     | none => true)

/-- `CheckFloat` .. `CheckSFixed64` (module/checker.go:157-203). `reflect.DeepEqual` compares floats
with `==`. -/
def checkNum (r : NumRules) : Bool :=
  checkNums Num.eq r.ins.length r.notIns.length r.const r.lt r.lte r.gt r.gte

/-- `checkMinMax` (module/checker.go:444-452). -/
def checkMinMax (min max : Option Nat) : Bool :=
  match min, max with
  | some a, some b => decide (a ≤ b)
  | _, _ => true

/-- `checkLen` (module/checker.go:454-466). -/
def checkLen (len min max : Option Nat) : Bool :=
  match len with
  | none => true
  | some _ => min.isNone && max.isNone

/-- The pattern `^:?[0-9a-zA-Z!#$%&'*+-.^_|~\x60]+$` (module/checker.go:17). -/
def httpHeaderName : Bytes := asc "^:?[0-9a-zA-Z!#$%&'*+-.^_|~`]+$"

/-- The pattern `^[^\u0000-\u0008\u000A-\u001F\u007F]*$`, with the escapes already replaced by the
Go compiler (module/checker.go:18). -/
def httpHeaderValue : Bytes :=
  asc "^[^" ++ [0x00] ++ asc "-" ++ [0x08, 0x0A] ++ asc "-" ++ [0x1F, 0x7F] ++ asc "]*$"

/-- The pattern `^[^\u0000\u000A\u000D]*$` (module/checker.go:19). -/
def headerString : Bytes := asc "^[^" ++ [0x00, 0x0A, 0x0D] ++ asc "]*$"

/-- `regex_map[wk.String()]` (module/checker.go:22-27): a nil pointer for unknown numbers. -/
def regexMap : KnownRegex → Option Bytes
  | .unknown => some []
  | .headerName => some httpHeaderName
  | .headerValue => some httpHeaderValue
  | .other _ => none

/-- `checkWellKnownRegex` (module/checker.go:468-479): fails (`none`) or gives the rules with the
pattern written into them. -/
def checkWellKnownRegex (r : StringRules) : Option StringRules :=
  match r.getRegex with
  | .unknown => some r
  | wk =>
    if r.pattern.isSome then none
    else
      let nonStrict := r.strict == some false
      if (wk == .headerName || wk == .headerValue) && nonStrict then
        some { r with pattern := some headerString }
      else some { r with pattern := regexMap wk }

/-- `checkPattern` (module/checker.go:481-487); `compiles` is `regexp.Compile` succeeding. -/
def checkPattern (compiles : Bytes → Bool) (p : Option Bytes) (nIn : Nat) : Bool :=
  match p with
  | none => true
  | some p => nIn == 0 && compiles p

/-- Go's conversion `int(x)` of a uint64 (module/checker.go:215,226,239). -/
def toInt (n : Nat) : Int := wrap64 n

/-- `CheckString` (module/checker.go:205-231). -/
def checkString (compiles : Bytes → Bool) (r : StringRules) : Option StringRules :=
  if checkLen r.len r.minLen r.maxLen && checkLen r.lenBytes r.minBytes r.maxBytes &&
      checkMinMax r.minLen r.maxLen && checkMinMax r.minBytes r.maxBytes &&
      checkIns r.ins.length r.notIns.length then
    match checkWellKnownRegex r with
    | none => none
    | some r =>
      if checkPattern compiles r.pattern r.ins.length &&
          (match r.maxLen with
           | none => true
           | some m =>
             decide ((runeCount (optS r.pfx) : Int) ≤ toInt m) &&
             decide ((runeCount (optS r.sfx) : Int) ≤ toInt m) &&
             decide ((runeCount (optS r.contains) : Int) ≤ toInt m) &&
             (match r.maxBytes with | none => true | some b => decide (m ≤ b))) &&
          (match r.maxBytes with
           | none => true
           | some m =>
             decide (((optS r.pfx).length : Int) ≤ toInt m) &&
             decide (((optS r.sfx).length : Int) ≤ toInt m) &&
             decide (((optS r.contains).length : Int) ≤ toInt m)) then
        some r
      else none
  else none

/-- `CheckBytes` (module/checker.go:233-244). -/
def checkBytes (compiles : Bytes → Bool) (r : BytesRules) : Bool :=
  checkMinMax r.minLen r.maxLen && checkIns r.ins.length r.notIns.length &&
  checkPattern compiles r.pattern r.ins.length &&
  (match r.maxLen with
   | none => true
   | some m =>
     decide (((optS r.pfx).length : Int) ≤ toInt m) &&
     decide (((optS r.sfx).length : Int) ≤ toInt m) &&
     decide (((optS r.contains).length : Int) ≤ toInt m))

/-- `Enum().Values()` of the type (module/checker.go:258-263). -/
def Ty.enumValues : Ty → List Int
  | .field (.one (.enum vs)) => vs
  | .elem (.enum vs) => vs
  | _ => []

/-- `CheckEnum` (module/checker.go:246-271). -/
def checkEnum (t : Ty) (r : EnumRules) : Bool :=
  checkIns r.ins.length r.notIns.length &&
  (if optB r.definedOnly && decide (r.ins.length > 0) then
     r.ins.all fun i => t.enumValues.contains i
   else true)

/-- `CheckMessage` (module/checker.go:273-290). -/
def checkMessage (t : Ty) (rules : FieldRules) : Bool :=
  t.isEmbed &&
  (match t.embed with
   | some (some .any) | some (some .duration) | some (some .timestamp) => false
   | _ => true) &&
  !((match rules.type with | .unset => false | _ => true) && msgSkip rules.message)

/-- `checkDur` (module/checker.go:489-497): validity of an optional duration. -/
def durOk (d : Option PDur) : Bool := match d with | none => true | some d => d.valid
/-- `checkTS` (module/checker.go:499-507): validity of an optional timestamp. -/
def tsOk (t : Option PTime) : Bool := match t with | none => true | some t => t.valid

/-- `CheckDuration` (module/checker.go:337-356). The type is not looked at. -/
def checkDuration (r : DurationRules) : Bool :=
  durOk r.const && durOk r.lt && durOk r.lte && durOk r.gt && durOk r.gte &&
  checkNums (fun a b => decide (a = b)) r.ins.length r.notIns.length
    (r.const.map PDur.asDuration) (r.lt.map PDur.asDuration) (r.lte.map PDur.asDuration)
    (r.gt.map PDur.asDuration) (r.gte.map PDur.asDuration) &&
  r.ins.all PDur.valid && r.notIns.all PDur.valid

/-- The value `checkTS` returns: `UnixNano()` (module/checker.go:506). -/
def tsNano (t : PTime) : Int := t.asTime.unixNano

/-- `CheckTimestamp` (module/checker.go:358-382). The type is not looked at. -/
def checkTimestamp (r : TimestampRules) : Bool :=
  tsOk r.const && tsOk r.lt && tsOk r.lte && tsOk r.gt && tsOk r.gte &&
  checkNums (fun a b => decide (a = b)) 0 0 (r.const.map tsNano) (r.lt.map tsNano)
    (r.lte.map tsNano) (r.gt.map tsNano) (r.gte.map tsNano) &&
  ((r.ltNow.isNone && r.gtNow.isNone) ||
    (r.lt.isNone && r.lte.isNone && r.gt.isNone && r.gte.isNone)) &&
  (r.within.isNone || (r.lt.isNone && r.lte.isNone && r.gt.isNone && r.gte.isNone)) &&
  (r.ltNow.isNone || r.gtNow.isNone) &&
  durOk r.within &&
  (match r.within with | none => true | some d => decide (d.asDuration > 0))

/-- The wrapper type named for each numeric kind (module/checker.go:75-110). -/
def wrapperOf : NumKind → Option WKT
  | .float => some .floatValue
  | .double => some .doubleValue
  | .int32 => some .int32Value
  | .int64 => some .int64Value
  | .uint32 => some .uint32Value
  | .uint64 => some .uint64Value
  | _ => none

mutual
/-- `CheckFieldRules` (module/checker.go:69-136): failure, or the rules with patterns written in. -/
def checkFieldRules (compiles : Bytes → Bool) (t : Ty) : FieldRules → Option FieldRules
  | .absent => some .absent
  | .mk m tr => (checkTypeRules compiles t tr).map (FieldRules.mk m)
/-- The switch of `CheckFieldRules` (module/checker.go:74-135). -/
def checkTypeRules (compiles : Bytes → Bool) (t : Ty) : TypeRules → Option TypeRules
  | .unset => some .unset
  | .num k r =>
    if mustType t (.num k) (wrapperOf k) && checkNum r then some (.num k r) else none
  | .bool r => if mustType t .bool (some .boolValue) then some (.bool r) else none
  | .string r =>
    if mustType t .string (some .stringValue) then (checkString compiles r).map TypeRules.string
    else none
  | .bytes r =>
    if mustType t .bytes (some .bytesValue) && checkBytes compiles r then some (.bytes r) else none
  | .enum r => if mustType t .enum none && checkEnum t r then some (.enum r) else none
  | .repeated r items =>
    -- CheckRepeated (module/checker.go:292-308)
    match t with
    | .field (.rep e) =>
      if checkMinMax r.minItems r.maxItems && !(optB r.unique && e.isEmbed) then
        (checkFieldRules compiles (.elem e) items).map (TypeRules.repeated r)
      else none
    | _ => none
  | .map r keys values =>
    -- CheckMap (module/checker.go:310-331)
    match t with
    | .field (.map kt vt) =>
      if checkMinMax r.minPairs r.maxPairs && (!optB r.noSparse || vt.isEmbed) then
        match checkFieldRules compiles (.elem kt) keys with
        | none => none
        | some keys' => (checkFieldRules compiles (.elem vt) values).map (TypeRules.map r keys')
      else none
    | _ => none
  | .any r => if checkIns r.ins.length r.notIns.length then some (.any r) else none
  | .duration r => if checkDuration r then some (.duration r) else none
  | .timestamp r => if checkTimestamp r then some (.timestamp r) else none
end

/-- One field of `CheckRules` (module/checker.go:50-66). -/
def checkField (compiles : Bytes → Bool) (f : FieldDesc) : Option FieldDesc :=
  if f.rules.message.isSome &&
      !(mustType (.field f.typ) .message none && checkMessage (.field f.typ) f.rules) then none
  else (checkFieldRules compiles (.field f.typ) f.rules).map fun r => { f with rules := r }

/-- A list of fields (module/checker.go:51). -/
def checkFields (compiles : Bytes → Bool) : List FieldDesc → Option (List FieldDesc)
  | [] => some []
  | f :: fs =>
    match checkField compiles f, checkFields compiles fs with
    | some f', some fs' => some (f' :: fs')
    | _, _ => none

/-- The members of each oneof (module/checker.go:51). -/
def checkOneofs (compiles : Bytes → Bool) : List OneofDesc → Option (List OneofDesc)
  | [] => some []
  | o :: os =>
    match checkFields compiles o.fields, checkOneofs compiles os with
    | some fs', some os' => some ({ o with fields := fs' } :: os')
    | _, _ => none

/-- `CheckRules` (module/checker.go:38-67) on a message; `msg.Fields()` are all its fields, those in
oneofs included. -/
def checkMsg (compiles : Bytes → Bool) (d : MsgDesc) : Option MsgDesc :=
  if d.disabled then some d
  else
    match checkFields compiles d.fields, checkOneofs compiles d.oneofs with
    | some fs, some os => some { d with fields := fs, oneofs := os }
    | _, _ => none

end PGV.Checker
