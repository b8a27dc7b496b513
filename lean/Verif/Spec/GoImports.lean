import Verif.Spec.Checks
import Verif.Go.Imports

/-!
Enum types of other packages, without the generator's functions.
-/

namespace PGV.Spec
open PGV PGV.Go

/-- The field `f` of message `d` of the file is of enum type, singular, repeated or the values of a map. -/
def EnumField (F : PkgFile) (d : MsgDesc) (f : FieldDesc) : Prop :=
  (d ∈ F.file.top ∨ d ∈ F.file.nested) ∧ FieldOf d f ∧
    ((∃ vs, f.typ = .one (.enum vs)) ∨ (∃ vs, f.typ = .rep (.enum vs)) ∨ ∃ k vs, f.typ = .map k (.enum vs))

/-- The rules of the field are about its enum as a type: a list of members, `defined_only`, or `unique`. -/
def NeedsEnumType (f : FieldDesc) : Prop :=
  (∃ t m r, RuleAt f t (.mk m (.enum r)) ∧ (r.ins ≠ [] ∨ r.notIns ≠ [] ∨ r.definedOnly = some true)) ∨
  ∃ m r items, f.rules = .mk m (.repeated r items) ∧ r.unique = some true

/-- The enum is in another proto package and in a Go package of another name. -/
def FarEnum (F : PkgFile) (e : EnumRef) : Prop := e.pkg.proto ≠ F.pkg.proto ∧ e.pkg.goName ≠ F.pkg.goName

/-- The file has a singular field of an enum from the package with this import path, which is far away. -/
def ReachedBySingular (F : PkgFile) (path : String) : Prop :=
  ∃ d f vs, EnumField F d f ∧ f.typ = .one (.enum vs) ∧ FarEnum F (F.enumOf d f) ∧ (F.enumOf d f).pkg.path = path

/-- Package names that every generated file imports. -/
def fixedNames : List String :=
  ["bytes", "errors", "fmt", "net", "mail", "url", "regexp", "strings", "time", "utf8", "anypb"]

end PGV.Spec
