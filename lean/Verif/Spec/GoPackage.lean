import Verif.Go.Package
import Verif.Spec.Emit

/-!
What protoc-gen-go guarantees about the names in a package, and what makes the validation code of the package clash.
-/

namespace PGV.Spec.GoPackage
open PGV PGV.Go PGV.Spec

/-- What protoc-gen-go sees to: no name is declared twice, none begins with an underscore, and the fields of a message
have different names. -/
structure FromProtoc (P : GoPackage) : Prop where
  nodup : (P.others ++ P.messages.map (·.name)).Nodup
  start : ∀ x ∈ P.others ++ P.messages.map (·.name), x.toList.head? ≠ some '_' ∧ x ≠ ""
  fields : ∀ d ∈ P.messages, ((allFields d).map (·.name)).Nodup

/-- A message or another type is called like the error type of a message. -/
def ErrorNamed (P : GoPackage) : Prop :=
  ∃ d ∈ P.messages, d.ignored = false ∧
    ∃ x ∈ P.others ++ P.messages.map (·.name), x = d.name ++ "MultiError" ∨ x = d.name ++ "ValidationError"

/-- String rules that ask for a uuid. -/
def UuidRules (r : FieldRules) : Prop := ∃ s, r.type = .string s ∧ s.wellKnown = some (.uuid true)

/-- A string field, a `StringValue` field, the items of a list of strings, or string keys or values of a map that must
be uuids. -/
def HasUuid (f : FieldDesc) : Prop :=
  match f.typ with
  | .one .string => UuidRules f.rules
  | .one (.embed _ (some .stringValue)) => UuidRules f.rules
  | .rep .string => ∃ r items, f.rules.type = .repeated r items ∧ UuidRules items
  | .map k v => ∃ r keys values, f.rules.type = .map r keys values ∧
      ((k = .string ∧ UuidRules keys) ∨ (v = .string ∧ UuidRules values))
  | _ => False

/-- A top-level message of the file has such a field. -/
def UuidFile (F : GoFile) : Prop := ∃ d ∈ F.file.top, ∃ f, FieldOf d f ∧ HasUuid f

/-- Two files with uuid rules in top-level messages have the same base name in snake case. -/
def SamePattern (P : GoPackage) : Prop :=
  ¬ P.files.Pairwise fun F G => UuidFile F → UuidFile G → snakeBase F.path ≠ snakeBase G.path

/-- A map with patterns for both its keys and its values. -/
def TwoPatterns (f : FieldDesc) : Prop :=
  ∃ r keys values k v, f.rules.type = .map r keys values ∧ keys.type = .string k ∧ values.type = .string v ∧
    k.pattern.isSome = true ∧ v.pattern.isSome = true

/-- The rules have an `in` list. -/
def InList : TypeRules → Prop
  | .num _ r => r.ins ≠ []
  | .string r => r.ins ≠ []
  | .bytes r => r.ins ≠ []
  | .enum r => r.ins ≠ []
  | .any r => r.ins ≠ []
  | .duration r => r.ins ≠ []
  | _ => False

/-- The rules have a `not_in` list. -/
def NotInList : TypeRules → Prop
  | .num _ r => r.notIns ≠ []
  | .string r => r.notIns ≠ []
  | .bytes r => r.notIns ≠ []
  | .enum r => r.notIns ≠ []
  | .any r => r.notIns ≠ []
  | .duration r => r.notIns ≠ []
  | _ => False

/-- The field has a table for `in` or `not_in`, or a compiled pattern: for its own rules, for those of its items if they
are strings or enums (patterns: strings), and a pattern for keys or values that are strings. -/
def Declares (f : FieldDesc) : Var → Prop
  | .inLookup =>
    match f.rules.type with
    | .repeated _ items => (IsString items.type ∨ IsEnum items.type) ∧ InList items.type
    | .map _ _ _ => False
    | t => InList t
  | .notInLookup =>
    match f.rules.type with
    | .repeated _ items => (IsString items.type ∨ IsEnum items.type) ∧ NotInList items.type
    | .map _ _ _ => False
    | t => NotInList t
  | .pattern =>
    match f.rules.type with
    | .repeated _ items => IsString items.type ∧ HasPattern items.type
    | .map _ keys values => (IsString keys.type ∧ HasPattern keys.type) ∨ (IsString values.type ∧ HasPattern values.type)
    | t => HasPattern t

/-- A field `s_g` of a message `M` and a field `g` of the message `M_s` have the same table or pattern. -/
def NestedClash (P : GoPackage) : Prop :=
  ∃ d ∈ P.messages, ∃ e ∈ P.messages, d.ignored = false ∧ e.ignored = false ∧
    ∃ s f g v, FieldOf d f ∧ FieldOf e g ∧ e.name = d.name ++ "_" ++ s ∧ f.name = s ++ "_" ++ g.name ∧
      Declares f v ∧ Declares g v

end PGV.Spec.GoPackage
