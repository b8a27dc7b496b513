import Verif.Go.Emit

/-!
The contents of the lookup tables and regular expressions of generated Go code, and the rules the code then checks: the
members a check refers to are those of the table its name stands for, not those of the rule it was written for.
-/

namespace PGV.Go
open PGV

/-- What a package-level variable of a field holds (templates/goshared/msg.go:135-208). -/
inductive Table
  | nums (l : List Num)
  | texts (l : List Bytes)
  | enums (l : List Int)
  | durs (l : List PDur)
  | regex (p : Bytes)
  deriving DecidableEq

/-- One table, if it has members (templates/goshared/msg.go:136-150). -/
def listTable {α : Type} (v : Var) (k : List α → Table) (l : List α) : List (Var × Table) :=
  if l.isEmpty then [] else [(v, k l)]

/-- `regexp.MustCompile` of a pattern, if there is one (templates/goshared/msg.go:152-154). -/
def regexTable (p : Option Bytes) : List (Var × Table) :=
  match p with
  | some p => [(.pattern, .regex p)]
  | none => []

/-- The tables of `in` and `not_in` (templates/goshared/msg.go:136-150). -/
def listTables {α : Type} (k : List α → Table) (ins notIns : List α) : List (Var × Table) :=
  listTable .inLookup k ins ++ listTable .notInLookup k notIns

/-- The regular expression of the keys or values of a map (templates/goshared/msg.go:194-206). -/
def sideRegex : TypeRules → List (Var × Table)
  | .string r => regexTable r.pattern
  | _ => []

/-- The variables declared for a field, with what they hold (templates/goshared/msg.go:135-208). -/
def fieldTables (f : FieldDesc) : List (Var × Table) :=
  match f.rules.type with
  | .repeated _ items =>
    match items.type with
    | .string r => regexTable r.pattern ++ listTables .texts r.ins r.notIns
    | .enum r => listTables .enums r.ins r.notIns
    | _ => []
  | .map _ keys values =>
    sideRegex keys.type ++ sideRegex values.type
  | .num _ r => listTables .nums r.ins r.notIns
  | .string r => listTables .texts r.ins r.notIns ++ regexTable r.pattern
  | .bytes r => listTables .texts r.ins r.notIns ++ regexTable r.pattern
  | .enum r => listTables .enums r.ins r.notIns
  | .any r => listTables .texts r.ins r.notIns
  | .duration r => listTables .durs r.ins r.notIns
  | _ => []

/-- The members of a table of numbers (for templates/goshared/in.go:5,11). -/
def Table.asNums : Table → Option (List Num)
  | .nums l => some l
  | _ => none
/-- The members of a table of strings or bytes (for templates/goshared/in.go:5,11, any.go:9,15). -/
def Table.asTexts : Table → Option (List Bytes)
  | .texts l => some l
  | _ => none
/-- The members of a table of enum values (for templates/goshared/in.go:5,11). -/
def Table.asEnums : Table → Option (List Int)
  | .enums l => some l
  | _ => none
/-- The members of a table of durations (for templates/goshared/duration.go:105-117). -/
def Table.asDurs : Table → Option (List PDur)
  | .durs l => some l
  | _ => none
/-- The pattern (for templates/goshared/string.go:178-184, bytes.go:112-118). -/
def Table.asRegex : Table → Option Bytes
  | .regex p => some p
  | _ => none

/-- The two lists that inTpl checks, with the members it finds under their names: `not_in` is looked at only without
`in`, and only its table matters then (templates/goshared/in.go:3-17). `none` if there is no such table. -/
def foundLists {α : Type} (G : Var → Option Table) (as : Table → Option (List α)) (ins notIns : List α) :
    Option (List α × List α) :=
  if !ins.isEmpty then ((G .inLookup).bind as).map fun l => (l, notIns)
  else if !notIns.isEmpty then ((G .notInLookup).bind as).map fun l => (ins, l)
  else some (ins, notIns)

/-- The pattern that is matched (templates/goshared/string.go:178-184, bytes.go:112-118). -/
def foundRegex (G : Var → Option Table) (p : Option Bytes) : Option (Option Bytes) :=
  match p with
  | some _ => ((G .pattern).bind Table.asRegex).map some
  | none => some none

/-- The rules that the code of one rule message checks: members and patterns are those under the field's names
(templates/goshared/in.go:3-17, bytes.go:70-82,112-118, any.go:7-18, duration.go:105-117, string.go:178-184).
`none` if a name is not declared. -/
def checkedRules (G : Var → Option Table) : TypeRules → Option TypeRules
  | .num k r => (foundLists G Table.asNums r.ins r.notIns).map fun l => .num k { r with ins := l.1, notIns := l.2 }
  | .string r =>
    (foundLists G Table.asTexts r.ins r.notIns).bind fun l => (foundRegex G r.pattern).map fun p =>
      .string { r with ins := l.1, notIns := l.2, pattern := p }
  | .bytes r =>
    (foundLists G Table.asTexts r.ins r.notIns).bind fun l => (foundRegex G r.pattern).map fun p =>
      .bytes { r with ins := l.1, notIns := l.2, pattern := p }
  | .enum r => (foundLists G Table.asEnums r.ins r.notIns).map fun l => .enum { r with ins := l.1, notIns := l.2 }
  | .any r => (foundLists G Table.asTexts r.ins r.notIns).map fun l => .any { r with ins := l.1, notIns := l.2 }
  | .duration r =>
    (foundLists G Table.asDurs r.ins r.notIns).map fun l => .duration { r with ins := l.1, notIns := l.2 }
  | t => some t

/-- The rules of a field, item, key or value with others in their place (for templates/goshared/msg.go:32-41). -/
def withType (rules : FieldRules) (t : TypeRules) : FieldRules :=
  match rules with
  | .absent => .absent
  | .mk m _ => .mk m t

/-- The field as its generated code checks it; `none` if the code refers to a name that is not declared, or declares one
twice (templates/goshared/msg.go:32-41,135-208, repeated.go:59, map.go:50-52, register.go:157-164). Only the verdict of
the result is that of the code: the reason of a pattern error names the rule's own pattern (string.go:181, bytes.go:115). -/
def checkedField (f : FieldDesc) : Option FieldDesc :=
  if ((fieldTables f).map (·.1)).Nodup then
    let G v := (fieldTables f).lookup v
    match f.typ, f.rules.type with
    | .one _, t => (checkedRules G t).map fun t => { f with rules := withType f.rules t }
    | .rep _, .repeated r items =>
      (checkedRules G items.type).map fun t => { f with rules := withType f.rules (.repeated r (withType items t)) }
    | .map _ _, .map r keys values =>
      (checkedRules G keys.type).bind fun k => (checkedRules G values.type).map fun v =>
        { f with rules := withType f.rules (.map r (withType keys k) (withType values v)) }
    | _, _ => some f
  else none

/-- A oneof as its generated code checks it (templates/goshared/msg.go:36-52). -/
def checkedOneof (o : OneofDesc) : Option OneofDesc :=
  (o.fields.mapM checkedField).map fun fs => { o with fields := fs }

/-- A message as its generated code checks it. There is no code for an ignored message, and the code of a disabled one
declares its tables without using them (templates/goshared/msg.go:4,24-59,135). -/
def checkedMsg (d : MsgDesc) : Option MsgDesc :=
  if d.ignored then some d
  else if d.disabled then
    if (allFields d).all fun f => decide ((fieldTables f).map (·.1)).Nodup then some d else none
  else (d.fields.mapM checkedField).bind fun fs => (d.oneofs.mapM checkedOneof).map fun os =>
    { d with fields := fs, oneofs := os }

/-- A message type as linked (templates/goshared/msg.go:4-208). -/
def checkedInfo : TypeInfo → Option TypeInfo
  | .generated d => (checkedMsg d).map .generated
  | t => some t

/-- The pattern of the uuid helper (templates/go/file.go:48). -/
def uuidSource : Bytes := asc "^[0-9a-fA-F]{8}-[0-9a-fA-F]{4}-[0-9a-fA-F]{4}-[0-9a-fA-F]{4}-[0-9a-fA-F]{12}$"

/-- The patterns given to `regexp.MustCompile` in the code of a message: nothing is written for ignored messages
(templates/goshared/msg.go:4,152-206). -/
def msgRegexes (d : MsgDesc) : List Bytes :=
  if d.ignored then [] else (allFields d).flatMap fun f => (fieldTables f).filterMap fun v => v.2.asRegex

/-- A program with the file in it panics before `main`: `regexp.MustCompile` of a package-level variable does
(templates/go/file.go:46-53, templates/goshared/msg.go:152-206). `compiles` is `regexp.Compile` succeeding. -/
def startPanics (compiles : Bytes → Bool) (F : FileDesc) : Bool :=
  (fileNeeds F .uuid && !compiles uuidSource) || F.all.any fun d => (msgRegexes d).any fun p => !compiles p

end PGV.Go
