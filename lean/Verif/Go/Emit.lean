import Verif.Go.Validate

/-!
What a generated Go file declares and refers to: lookup tables, regular expressions and the helpers
for well-known string formats.
-/

namespace PGV.Go
open PGV

/-- `unwrap` on an element of a list or map (templates/goshared/register.go:288-298): it asks the type of the
field, not of the element, for its embedded message, and protoc-gen-star gives nil for lists and maps. The
nil dereference ends the execution of the template with an error. -/
def elemFails (e : ElemT) (rules : FieldRules) : Bool :=
  match resolve e rules with
  | .wrapper _ _ => true
  | _ => false

/-- Rendering a field fails (templates/goshared/repeated.go:59, map.go:52, wrapper.go:7). -/
def renderFails (f : FieldDesc) : Bool :=
  match f.typ, f.rules.type with
  | .rep e, .repeated _ items => elemFails e items
  | .map _ v, .map _ _ values => elemFails v values
  | _, _ => false

/-- All fields of a message (`.Fields`): protoc-gen-star lists oneof members among them. The order
is not significant here (used in templates/goshared/msg.go:135 and templates/shared/well_known.go:29). -/
def allFields (d : MsgDesc) : List FieldDesc := d.fields ++ d.oneofs.flatMap (·.fields)

/-- Generating the code of a message fails (templates/goshared/msg.go:4,25,31-48). Simplification: the rules
of disabled messages, which the generator does not check, are taken to fit their fields. -/
def genFails (d : MsgDesc) : Bool :=
  !d.ignored && !d.disabled && (allFields d).any renderFails

/-- The package-level variables of a field: the second argument of `lookup`
(templates/goshared/register.go:157-164). `Unique` is a local variable of the generated method
(templates/goshared/repeated.go:39) and not modelled here. -/
inductive Var
  | inLookup | notInLookup | pattern
  deriving DecidableEq, Repr

/-- The name `lookup` passes to `Sprintf` (templates/goshared/in.go:5,11; msg.go:135-208). -/
def Var.text : Var → String
  | .inLookup => "InLookup"
  | .notInLookup => "NotInLookup"
  | .pattern => "Pattern"

/-- `lookup` (templates/goshared/register.go:157-164): `_<Message>_<Field>_<name>`. -/
def varName (msg field : String) (v : Var) : String :=
  "_" ++ msg ++ "_" ++ field ++ "_" ++ v.text

/-- Which of the `in`, `not_in` and `pattern` members a rule message has, and whether they are set:
`{{ if .Rules.In }}` on a list is non-emptiness, `{{ if .Rules.Pattern }}` on a pointer is presence
(templates/goshared/msg.go:136-208). -/
def tables : TypeRules → Bool × Bool × Bool
  | .num _ r => (!r.ins.isEmpty, !r.notIns.isEmpty, false)
  | .string r => (!r.ins.isEmpty, !r.notIns.isEmpty, r.pattern.isSome)
  | .bytes r => (!r.ins.isEmpty, !r.notIns.isEmpty, r.pattern.isSome)
  | .enum r => (!r.ins.isEmpty, !r.notIns.isEmpty, false)
  | .any r => (!r.ins.isEmpty, !r.notIns.isEmpty, false)
  | .duration r => (!r.ins.isEmpty, !r.notIns.isEmpty, false)
  | _ => (false, false, false)

/-- One variable, if the condition holds (templates/goshared/msg.go:136-208). -/
def declIf (b : Bool) (v : Var) : List Var := if b then [v] else []

/-- The rules rendered for a value of element type `e`: `resolveRules`
(templates/shared/context.go:119-177) followed by `render`. -/
def renderedElem (e : ElemT) (rules : FieldRules) : List TypeRules :=
  match resolve e rules with
  | .plain t => [t]
  | .wrapper t _ => [t]
  | _ => []

/-- The rule messages rendered inside the generated code of a field: its own, or those of its items,
keys and values (templates/goshared/repeated.go:59, map.go:50-52). -/
def rendered (f : FieldDesc) : List TypeRules :=
  match f.typ with
  | .one e => renderedElem e f.rules
  | .rep e =>
    match f.rules.type with
    | .repeated _ items => renderedElem e items
    | _ => []
  | .map _ vt =>
    match f.rules.type with
    | .map _ keys values =>
      (match keys.type with | .unset => [] | t => [t]) ++ renderedElem vt values
    | _ => []

/-- The variables one rendered rule message refers to: in.go:4-16, bytes.go:70-82,112-118,
any.go:7-18, duration.go:105-117, string.go:178-184 (all in templates/goshared). -/
def refsOf (t : TypeRules) : List Var :=
  let (i, n, p) := tables t
  (if i then [.inLookup] else declIf n .notInLookup) ++ declIf p .pattern

/-- The variables the code of a field refers to (templates/goshared/msg.go:32-41). -/
def refs (f : FieldDesc) : List Var := (rendered f).flatMap refsOf

/-- The variables declared for a field (templates/goshared/msg.go:135-208), in order. `.Rules` is
the rule message of the field's own context. -/
def decls (f : FieldDesc) : List Var :=
  match f.rules.type with
  | .repeated _ items =>
    match items.type with
    | .string r =>
      declIf r.pattern.isSome .pattern ++ declIf (!r.ins.isEmpty) .inLookup ++
        declIf (!r.notIns.isEmpty) .notInLookup
    | .enum r => declIf (!r.ins.isEmpty) .inLookup ++ declIf (!r.notIns.isEmpty) .notInLookup
    | _ => []
  | .map _ keys values =>
    (match keys.type with | .string r => declIf r.pattern.isSome .pattern | _ => []) ++
    (match values.type with | .string r => declIf r.pattern.isSome .pattern | _ => [])
  | t =>
    let (i, n, p) := tables t
    declIf i .inLookup ++ declIf n .notInLookup ++ declIf p .pattern

/-- The variables a message's code declares: nothing for ignored messages
(templates/goshared/msg.go:4). -/
def msgDecls (d : MsgDesc) : List String :=
  if d.ignored then [] else
  (allFields d).flatMap fun f => (decls f).map (varName d.name f.name)

/-- The variables a message's code refers to: nothing for ignored and disabled messages
(templates/goshared/msg.go:4,25). -/
def msgRefs (d : MsgDesc) : List String :=
  if d.ignored || d.disabled then [] else
  (allFields d).flatMap fun f => (refs f).map (varName d.name f.name)

/-- The helpers for well-known formats (templates/shared/well_known.go:10-14). -/
inductive Helper
  | email | hostname | uuid
  deriving DecidableEq, Repr

/-- The helpers the rendered string rules call (templates/goshared/string.go:134-175), with the call
of `_validateHostname` inside `_validateEmail` (known.go:53). -/
def calls : TypeRules → List Helper
  | .string r =>
    if r.getEmail then [.email, .hostname]
    else if r.getHostname then [.hostname]
    else if r.getAddress then [.hostname]
    else if r.getUuid then [.uuid]
    else []
  | _ => []

/-- The helpers the code of a message calls (templates/goshared/msg.go:4,25-58). -/
def msgCalls (d : MsgDesc) : List Helper :=
  if d.ignored || d.disabled then [] else
  (allFields d).flatMap fun f => (rendered f).flatMap calls

/-- `strRulesNeeds` (templates/shared/well_known.go:64-81) on rules that may not be string rules
(`GetString_()` is nil then). -/
def strRulesNeeds (t : TypeRules) (h : Helper) : Bool :=
  match t with
  | .string r =>
    match h with
    | .email => r.getEmail
    | .hostname => r.getEmail || r.getHostname || r.getAddress
    | .uuid => r.getUuid
  | _ => false

/-- The body of the loop of `Needs` (templates/shared/well_known.go:30-59). -/
def fieldNeeds (f : FieldDesc) (h : Helper) : Bool :=
  match f.typ with
  | .rep e =>
    if e.protoType == .string then
      match f.rules.type with
      | .repeated _ items => strRulesNeeds items.type h
      | _ => false
    else false
  | .map k v =>
    match f.rules.type with
    | .map _ keys values =>
      (k.protoType == .string && strRulesNeeds keys.type h) ||
      (v.protoType == .string && strRulesNeeds values.type h)
    | _ => false
  | .one e =>
    if e.protoType == .string then strRulesNeeds f.rules.type h
    else match e with
      | .embed _ (some .stringValue) => strRulesNeeds f.rules.type h
      | _ => false

/-- `Needs` (templates/shared/well_known.go:28-62). A helper is emitted for a message exactly when
this holds (templates/goshared/msg.go:61-65), unless the message is ignored. -/
def needs (d : MsgDesc) (h : Helper) : Bool := (allFields d).any fun f => fieldNeeds f h

/-- A proto file: its top-level messages and the messages nested in them
(what templates/go/file.go:3-54 is rendered with). -/
structure FileDesc where
  top : List MsgDesc
  nested : List MsgDesc

/-- `AllMessages()`: top-level and nested (templates/go/file.go:51). -/
def FileDesc.all (f : FileDesc) : List MsgDesc := f.top ++ f.nested

/-- `FileNeeds` (templates/shared/well_known.go:16-24): `Messages()` are the top-level ones. The
uuid pattern variable is declared exactly when `fileNeeds f .uuid` (templates/go/file.go:46-49). -/
def fileNeeds (f : FileDesc) (h : Helper) : Bool := f.top.any fun d => needs d h

/-- The package-level lookup variables of a file (templates/go/file.go:51-53). -/
def fileDecls (f : FileDesc) : List String := f.all.flatMap msgDecls

/-- The lookup variables the file refers to (templates/go/file.go:51-53). -/
def fileRefs (f : FileDesc) : List String := f.all.flatMap msgRefs

end PGV.Go
