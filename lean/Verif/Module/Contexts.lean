import Verif.Core.Schema

/-!
Which templates are executed for a field (templates/shared/context.go), and which templates each language has
(templates/go/register.go, templates/goshared/register.go, templates/cc/register.go, templates/java/register.go).
-/

namespace PGV.Module
open PGV

/-- The name of a number type's rules, which is that of its template (templates/shared/context.go:121-144). -/
def numTemplate : NumKind → String
  | .float => "float" | .double => "double" | .int32 => "int32" | .int64 => "int64"
  | .uint32 => "uint32" | .uint64 => "uint64" | .sint32 => "sint32" | .sint64 => "sint64"
  | .fixed32 => "fixed32" | .fixed64 => "fixed64" | .sfixed32 => "sfixed32" | .sfixed64 => "sfixed64"

/-- `resolveRules` (templates/shared/context.go:119-177): the rule type, and whether it is wrapped. `embed` is `typ.IsEmbed()`;
the cases of repeated fields and maps without rules are in `fieldTemplates`. The `default` case ("error") is for members of the
oneof that this version of validate.proto does not have. -/
def resolveRules (embed : Bool) : TypeRules → String × Bool
  | .num k _ => (numTemplate k, match k with
    | .float | .double | .int32 | .int64 | .uint32 | .uint64 => embed
    | _ => false)
  | .bool _ => ("bool", embed)
  | .string _ => ("string", embed)
  | .bytes _ => ("bytes", embed)
  | .enum _ => ("enum", false)
  | .repeated _ _ => ("repeated", false)
  | .map _ _ _ => ("map", false)
  | .any _ => ("any", false)
  | .duration _ => ("duration", false)
  | .timestamp _ => ("timestamp", false)
  | .unset => (if embed then "message" else "none", false)

/-- The templates that `render` executes for a context with these rules: that of the rule type, or "wrapper" and then that of the
rule type (`Unwrap`, templates/shared/context.go:26-117; templates/goshared/wrapper.go:7, cc/wrapper.go:8,
java/wrapper.go:4,8). -/
def own (embed : Bool) (t : TypeRules) : List String :=
  match resolveRules embed t with
  | (n, true) => ["wrapper", n]
  | (n, false) => [n]

mutual
/-- The templates that are executed for the rules of a key, an item or a value, and those inside them. `embed` is whether the
value is a message, `elem` whether items and values of the field are (`Key`, `Elem`; templates/shared/context.go:47-94). -/
def innerTemplates (embed elem : Bool) : FieldRules → List String
  | .absent => own embed .unset
  | .mk _ t => own embed t ++ partTemplates elem t
/-- The templates for keys, items and values (templates/goshared/repeated.go:59, map.go:50,52, cc/repeated.go:60,
cc/map.go:42,44, java/repeated.go:3,19, java/map.go:5,6,25,28). Some are executed under conditions. Keys are never messages. -/
def partTemplates (elem : Bool) : TypeRules → List String
  | .repeated _ items => innerTemplates elem elem items
  | .map _ keys values => innerTemplates false elem keys ++ innerTemplates elem elem values
  | _ => []
end

/-- Are the items or values of the field messages? (`ctx.Field.Type().Element()`, templates/shared/context.go:84). -/
def elemEmbed : FieldT → Bool
  | .one e | .rep e | .map _ e => e.isEmbed

/-- The templates that are executed for a field (`render (context .)`, templates/shared/context.go:26-45,161-170). -/
def fieldTemplates (f : FieldDesc) : List String :=
  match f.rules.type, f.typ with
  | .unset, .rep e => "repeated" :: innerTemplates e.isEmbed e.isEmbed .absent
  | .unset, .map _ v =>
    if v.isEmbed then "map" :: (innerTemplates false true .absent ++ innerTemplates true true .absent) else ["none"]
  | t, .one e => own e.isEmbed t ++ partTemplates (elemEmbed f.typ) t
  | t, _ => own false t ++ partTemplates (elemEmbed f.typ) t

/-- The templates of the generator for one language: those registered by name, and for each the templates that it includes with
`{{ template }}` (templates/pkg.go:17-30). -/
structure Templates where
  registered : List String
  includes : String → List String

/-- The templates for all kinds of numbers (templates/goshared/register.go:59-70, cc/register.go:60-71,
java/register.go:66-89). -/
def numbers : List String :=
  ["float", "double", "int32", "int64", "uint32", "uint64", "sint32", "sint64", "fixed32", "fixed64", "sfixed32", "sfixed64"]

/-- Go: templates/goshared/register.go:53-89 and templates/go/register.go:12-16. What they include: goshared/num.go:8-10,
string.go:10,11, enum.go:5,6, any.go:4, msg.go:61-65, go/timestamp.go:4,14, go/duration.go:4,14,
go/message.go:6. -/
def goTemplates : Templates where
  registered := ["msg", "const", "ltgt", "in", "none"] ++ numbers ++
    ["bool", "string", "bytes", "email", "hostname", "address", "uuid", "enum", "repeated", "map", "any", "timestampcmp",
      "durationcmp", "wrapper"] ++
    ["required", "timestamp", "duration", "message"]
  includes := fun n =>
    if n ∈ numbers then ["const", "ltgt", "in"]
    else if n ∈ ["string", "enum"] then ["const", "in"]
    else if n = "msg" then ["hostname", "email", "uuid"]
    else if n ∈ ["any", "message"] then ["required"]
    else if n = "timestamp" then ["required", "timestampcmp"]
    else if n = "duration" then ["required", "durationcmp"]
    else []

/-- C++: templates/cc/register.go:52-93. What they include: cc/num.go:7-9, string.go:8,9, bytes.go:8,9, enum.go:5,6, any.go:4,
duration.go:4, timestamp.go:4, message.go:5. -/
def ccTemplates : Templates where
  registered := ["msg", "const", "ltgt", "in", "required", "none"] ++ numbers ++
    ["bool", "string", "bytes", "email", "hostname", "address", "uuid", "enum", "message", "repeated", "map", "any", "duration",
      "timestamp", "wrapper"]
  includes := fun n =>
    if n ∈ numbers then ["const", "ltgt", "in"]
    else if n ∈ ["string", "bytes", "enum"] then ["const", "in"]
    else if n ∈ ["any", "duration", "timestamp", "message"] then ["required"]
    else []

/-- Java: templates/java/register.go:60-115. What they include: java/any.go:20, duration.go:35, timestamp.go:24, message.go:7,
msg.go:9,19,31. -/
def javaTemplates : Templates where
  registered := ["msg", "msgInner", "none"] ++ numbers ++ numbers.map (· ++ "Const") ++
    ["bool", "string", "stringConst", "bytes", "bytesConst", "any", "anyConst", "enum", "enumConst", "message", "repeated",
      "repeatedConst", "map", "mapConst", "oneOf", "oneOfConst", "required", "timestamp", "timestampConst", "duration",
      "durationConst", "wrapper", "wrapperConst"]
  includes := fun n =>
    if n ∈ ["any", "duration", "timestamp", "message"] then ["required"]
    else if n = "msg" then ["msgInner"]
    else if n = "msgInner" then ["oneOfConst", "oneOf"]
    else []

end PGV.Module
