import Verif.Go.Emit

/-!
Whether C++ generation succeeds for a message, and which names the generated C++ file declares and
refers to.
-/

namespace PGV.Cpp
open PGV
open PGV.Go (Var tables declIf rendered resolve)

/-! ### Failures of the generator -/

/-- `inType` on the list of a field's own `in` or `not_in` rule (templates/cc/register.go:286-301) calls
`Embed()` on the nil result of `f.Type().Element()` when the field is a singular message and the list is
neither one of strings nor one of durations. -/
def inTypeFails (t : FieldT) (r : TypeRules) : Bool :=
  match t with
  | .one (.embed _ _) =>
    match r with
    | .num _ _ | .bytes _ | .enum _ => true
    | _ => false
  | _ => false

/-- The declarations of a field's own tables (templates/cc/msg.go:17-31) fail. -/
def tablesFail (f : FieldDesc) : Bool :=
  ((tables f.rules.type).1 || (tables f.rules.type).2.1) && inTypeFails f.typ f.rules.type

/-- `render (.Elem …)` on a wrapper: `unwrap` (templates/cc/register.go:400-410) asks the type of the
field, not of the element, for its embedded message, and gets nil for lists and maps. -/
def elemFails (e : ElemT) (rules : FieldRules) : Bool :=
  match resolve e rules with
  | .wrapper _ _ => true
  | _ => false

/-- Rendering a field fails (templates/cc/repeated.go:60, map.go:44). -/
def renderFails (f : FieldDesc) : Bool :=
  match f.typ, f.rules.type with
  | .rep e, .repeated _ items => elemFails e items
  | .map _ v, .map _ _ values => elemFails v values
  | _, _ => false

/-- Generating the code of a message fails, and with it the whole run of the plugin
(templates/cc/msg.go:9-122). Disabled messages still get tables, but no rendered fields. -/
def genFails (d : MsgDesc) : Bool :=
  !d.ignored &&
    ((Go.allFields d).any tablesFail || (!d.disabled && (Go.allFields d).any renderFails))

/-! ### Names in the namespace -/

/-- `lookup` (templates/cc/register.go:220-227): `_<Message>_<Field>_<name>`, with the name of the
message alone, without those of the messages around it. -/
def varName (msg field : String) (v : Var) : String :=
  "_" ++ msg ++ "_" ++ field ++ "_" ++ v.text

/-- The variables declared for a field, in order (templates/cc/msg.go:16-92). -/
def decls (f : FieldDesc) : List Var :=
  match f.rules.type with
  | .repeated _ items =>
    match items.type with
    | .string r =>
      declIf (!r.ins.isEmpty) .inLookup ++ declIf (!r.notIns.isEmpty) .notInLookup ++
        declIf r.pattern.isSome .pattern
    | .enum r => declIf (!r.ins.isEmpty) .inLookup ++ declIf (!r.notIns.isEmpty) .notInLookup
    | _ => []
  | .map _ keys values =>
    (match keys.type with | .string r => declIf r.pattern.isSome .pattern | _ => []) ++
    (match values.type with | .string r => declIf r.pattern.isSome .pattern | _ => [])
  | t => declIf (tables t).1 .inLookup ++ declIf (tables t).2.1 .notInLookup ++
      declIf (tables t).2.2 .pattern

/-- The variables one rendered rule message refers to: in.go:4-12, any.go:6-16, duration.go:77-83,
string.go:112-119, bytes.go:69-76 (all in templates/cc). -/
def refsOf (t : TypeRules) : List Var :=
  (if (tables t).1 then [.inLookup] else declIf (tables t).2.1 .notInLookup) ++
    declIf (tables t).2.2 .pattern

/-- The variables the code of a field refers to (templates/cc/msg.go:102-111). -/
def refs (f : FieldDesc) : List Var := (rendered f).flatMap refsOf

/-- A message and its name without those of the messages around it, in upper camel case
(templates/cc/register.go:220-227). -/
structure Named where
  short : String
  desc : MsgDesc

/-- The variables a message's code declares in the namespace of the package (templates/cc/msg.go:10,17-94). -/
def msgDecls (m : Named) : List String :=
  if m.desc.ignored then [] else
  (Go.allFields m.desc).flatMap fun f => (decls f).map (varName m.short f.name)

/-- The variables a message's code refers to (templates/cc/msg.go:96-122). -/
def msgRefs (m : Named) : List String :=
  if m.desc.ignored || m.desc.disabled then [] else
  (Go.allFields m.desc).flatMap fun f => (refs f).map (varName m.short f.name)

/-- The messages of a file, nested ones included (templates/cc/file.go:39-41). -/
abbrev File := List Named

/-- The variables a file declares (templates/cc/file.go). -/
def fileDecls (F : File) : List String := F.flatMap msgDecls
/-- The variables a file refers to (templates/cc/file.go). -/
def fileRefs (F : File) : List String := F.flatMap msgRefs

/-! ### Names in the body of `Validate` -/

/-- What a field outside oneofs declares in the outermost block of the generated function: `unique`
defines two classes and a set there (templates/cc/repeated.go:28-46), unless `ignore_empty` puts them in
a block of their own (repeated.go:5-7). All other templates use blocks of their own. (Oneof members are
never lists.) -/
def locals (msg : String) (f : FieldDesc) : List String :=
  match f.typ, f.rules.type with
  | .rep _, .repeated r _ =>
    if optB r.unique && !optB r.ignoreEmpty then
      ["cmp", "hash", "_" ++ msg ++ "_" ++ f.name ++ "_Unique"]
    else []
  | _, _ => []

/-- The outermost block of the generated function (templates/cc/msg.go:96-105). -/
def msgLocals (m : Named) : List String :=
  if m.desc.ignored || m.desc.disabled then [] else m.desc.fields.flatMap (locals m.short)

end PGV.Cpp
