import Verif.Go.Emit

/-!
The imports of a generated Go file and the enum types of other packages that its code mentions.
-/

namespace PGV.Go
open PGV

/-- Where an entity is declared: the proto package (`Package().ProtoName()`), the Go package name
(`PackageName`) and the Go import path (`ImportPath`), all computed by protoc-gen-star
(used in templates/goshared/register.go:309,322). -/
structure Pkg where
  proto : String
  goName : String
  path : String
  deriving DecidableEq, Repr

/-- An enum type: its package and its Go name (templates/goshared/register.go:309). -/
structure EnumRef where
  pkg : Pkg
  name : String
  deriving DecidableEq, Repr

/-- A file with its package, and the enum type behind each field of enum, list of enum or map to enum type
(what templates/go/file.go:3-54 is rendered with). -/
structure PkgFile where
  pkg : Pkg
  file : FileDesc
  enumOf : MsgDesc → FieldDesc → EnumRef

/-- `externalEnums` (templates/goshared/register.go:304-316): fields that are themselves enums, if both the proto
package and the Go package name differ. -/
def externalEnums (F : PkgFile) : List EnumRef :=
  F.file.all.flatMap fun d => (allFields d).flatMap fun f =>
    match f.typ with
    | .one (.enum _) =>
      let en := F.enumOf d f
      if en.pkg.proto != F.pkg.proto && en.pkg.goName != F.pkg.goName then [en] else []
    | _ => []

/-- An entry of a Go map: a later one for the same key replaces it (templates/goshared/register.go:322). -/
def mapPut (k v : String) : List (String × String) → List (String × String)
  | [] => [(k, v)]
  | (k', v') :: m => if k' = k then (k, v) :: m else (k', v') :: mapPut k v m

/-- `enumPackages` (templates/goshared/register.go:318-326): import path to package name. -/
def enumPackages (es : List EnumRef) : List (String × String) :=
  es.foldl (fun m e => mapPut e.pkg.path e.pkg.goName m) []

/-- The fixed imports (templates/go/file.go:9-20), as name and path. -/
def fixedImports : List (String × String) :=
  [("bytes", "bytes"), ("errors", "errors"), ("fmt", "fmt"), ("net", "net"), ("mail", "net/mail"),
   ("url", "net/url"), ("regexp", "regexp"), ("strings", "strings"), ("time", "time"),
   ("utf8", "unicode/utf8"), ("anypb", "google.golang.org/protobuf/types/known/anypb")]

/-- The import block (templates/go/file.go:8-25), as name and path. -/
def imports (F : PkgFile) : List (String × String) :=
  fixedImports ++ (enumPackages (externalEnums F)).map fun (path, name) => (name, path)

/-- The enum rules say something that prints the enum's type in the body of `validate`: `defined_only`
(templates/goshared/enum.go:8-9). -/
def enumInBody (r : EnumRules) : Bool := optB r.definedOnly

/-- The enum rules have a list, whose table has the enum as key type (templates/goshared/msg.go:136-148,170-190;
register.go:213-233). -/
def enumInTable (r : EnumRules) : Bool := !r.ins.isEmpty || !r.notIns.isEmpty

/-- The code of a field mentions the enum type of the field. `unique` prints the element type
(templates/goshared/repeated.go:42). Tables are declared also for disabled messages; inside maps there are none. -/
def mentionsEnum (d : MsgDesc) (f : FieldDesc) : Bool :=
  !d.ignored &&
  match f.typ, f.rules.type with
  | .one (.enum _), .enum r => enumInTable r || (!d.disabled && enumInBody r)
  | .rep (.enum _), .repeated r items =>
    (!d.disabled && optB r.unique) ||
    match items.type with
    | .enum i => enumInTable i || (!d.disabled && enumInBody i)
    | _ => false
  | .map _ (.enum _), .map _ _ values =>
    match values.type with
    | .enum i => !d.disabled && enumInBody i
    | _ => false
  | _, _ => false

/-- The enum types the file mentions, with the name of their package before them: pgsgo's `Type` writes the package
name unless the import paths are the same. The `_ = pkg.Enum(0)` of templates/go/file.go:41-43 mentions exactly
the external enums. -/
def qualified (F : PkgFile) : List EnumRef :=
  F.file.all.flatMap fun d => (allFields d).flatMap fun f =>
    if mentionsEnum d f && (F.enumOf d f).pkg.path != F.pkg.path then [F.enumOf d f] else []

/-- Every name before a dot is imported, and no name is imported twice (for templates/go/file.go:8-44). -/
def importsCompile (F : PkgFile) : Bool :=
  decide ((imports F).map Prod.fst).Nodup &&
    (externalEnums F ++ qualified F).all fun e => (imports F).contains (e.pkg.goName, e.pkg.path)

end PGV.Go
