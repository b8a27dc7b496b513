import Verif.Core.Rules

/-!
Schemas (what protoc-gen-star's entities give the generator) and message values.
-/

namespace PGV

/-- protobuf's scalar/complex proto types as protoc-gen-star names them (`pgs.ProtoType`)
(module/checker.go:75-120). -/
inductive ProtoType
  | num (k : NumKind) | bool | string | bytes | enum | message | group
  deriving DecidableEq, Repr

/-- Wrapper well-known types `google.protobuf.*Value` and the other well-known types the generator
distinguishes (`pgs.WellKnownType`). -/
inductive WKT
  | any | duration | timestamp
  | floatValue | doubleValue | int32Value | int64Value | uint32Value | uint64Value
  | boolValue | stringValue | bytesValue
  | other
  deriving DecidableEq, Repr

/-- The proto type of the `value` field of a wrapper (for templates/goshared/register.go:294-295). -/
def WKT.wrapped : WKT → Option ProtoType
  | .floatValue => some (.num .float)
  | .doubleValue => some (.num .double)
  | .int32Value => some (.num .int32)
  | .int64Value => some (.num .int64)
  | .uint32Value => some (.num .uint32)
  | .uint64Value => some (.num .uint64)
  | .boolValue => some .bool
  | .stringValue => some .string
  | .bytesValue => some .bytes
  | _ => none

/-- Element type (`pgs.FieldTypeElem`): also the type of a singular field (for templates/shared/context.go:58,84). -/
inductive ElemT
  | scalar (k : NumKind)
  | bool | string | bytes
  | enum (values : List Int)
  | embed (typ : String) (wkt : Option WKT)
  deriving DecidableEq, Repr

/-- `IsEmbed()` (templates/shared/context.go:119). -/
def ElemT.isEmbed : ElemT → Bool
  | .embed _ _ => true
  | _ => false

/-- `ProtoType()` (templates/goshared/register.go:193-197). -/
def ElemT.protoType : ElemT → ProtoType
  | .scalar k => .num k
  | .bool => .bool
  | .string => .string
  | .bytes => .bytes
  | .enum _ => .enum
  | .embed _ _ => .message

/-- Field type (`pgs.FieldType`) (for templates/shared/context.go:35). -/
inductive FieldT
  | one (e : ElemT)
  | rep (e : ElemT)
  | map (k v : ElemT)
  deriving DecidableEq, Repr

/-- A field with its validation rules (`pgs.Field` and its `validate.rules` extension)
(templates/shared/context.go:26-30). -/
structure FieldDesc where
  name : String
  typ : FieldT
  rules : FieldRules

/-- A oneof with its `validate.required` extension (templates/shared/disabled.go:21-24). -/
structure OneofDesc where
  name : String
  required : Bool
  fields : List FieldDesc

/-- A message type: `fields` are the fields outside oneofs (`NonOneOfFields`)
(templates/goshared/msg.go:31, templates/shared/disabled.go:9-18). -/
structure MsgDesc where
  name : String
  disabled : Bool := false
  ignored : Bool := false
  fields : List FieldDesc := []
  oneofs : List OneofDesc := []

/-- What is linked for a message type: code generated by this plugin version, code generated by a
plugin version that had no `ValidateAll`, or no validation methods at all
(the interfaces of templates/go/message.go:11-27). -/
inductive TypeInfo
  | generated (d : MsgDesc)
  | legacy
  | foreign

/-- All message types of the program, by full name. Recursive types are allowed
(for templates/go/message.go:11-27). -/
abbrev Schema := String → TypeInfo

/-- Scalar run-time values (for templates/goshared/register.go:94-100). -/
inductive Scalar
  | num (n : Num)
  | bool (b : Bool)
  | str (s : Bytes)
  | bytes (b : Bytes)
  | enum (i : Int)
  deriving DecidableEq, Repr

/-- Run-time field values. `null` is a nil message pointer. A message value carries the values of
the set fields outside oneofs and, for each oneof with a member set, that member and its value
(for templates/goshared/register.go:94-100). -/
inductive Val
  | sc (s : Scalar)
  | wrapper (s : Scalar)
  | dur (d : PDur)
  | ts (t : PTime)
  | any (url : Bytes) (value : Bytes)
  | msg (typ : String) (fields : List (String × Val)) (oneofs : List (String × String × Val))
  | null
  | list (vs : List Val)
  | map (kvs : List (Scalar × Val))

/-- Zero value of an element type, as a Go getter returns it (for templates/goshared/register.go:94-100). -/
def ElemT.zero : ElemT → Val
  | .scalar k => .sc (.num k.zero)
  | .bool => .sc (.bool false)
  | .string => .sc (.str [])
  | .bytes => .sc (.bytes [])
  | .enum _ => .sc (.enum 0)
  | .embed _ _ => .null

/-- Zero value of a field type, as a Go getter returns it (for templates/goshared/register.go:94-100). -/
def FieldT.zero : FieldT → Val
  | .one e => e.zero
  | .rep _ => .list []
  | .map _ _ => .map []

/-- The generated Go getter `m.GetX()` for a field outside oneofs
(`accessor`, templates/goshared/register.go:94-100). -/
def getField (fs : List (String × Val)) (f : FieldDesc) : Val :=
  (fs.lookup f.name).getD f.typ.zero

end PGV
