import Verif.Spec.Checks
import Verif.Go.Emit

/-!
Vocabulary about generated files.
-/

namespace PGV.Spec
open PGV PGV.Go

/-- The rules have a non-empty `in` or `not_in` list. -/
def HasList : TypeRules → Prop
  | .num _ r => r.ins ≠ [] ∨ r.notIns ≠ []
  | .string r => r.ins ≠ [] ∨ r.notIns ≠ []
  | .bytes r => r.ins ≠ [] ∨ r.notIns ≠ []
  | .enum r => r.ins ≠ [] ∨ r.notIns ≠ []
  | .any r => r.ins ≠ [] ∨ r.notIns ≠ []
  | .duration r => r.ins ≠ [] ∨ r.notIns ≠ []
  | _ => False

/-- The rules have a pattern. -/
def HasPattern : TypeRules → Prop
  | .string r => r.pattern ≠ none
  | .bytes r => r.pattern ≠ none
  | _ => False

def IsString : TypeRules → Prop
  | .string _ => True
  | _ => False

def IsEnum : TypeRules → Prop
  | .enum _ => True
  | _ => False

/-- Inside lists, only string and enum rules have lists and patterns; inside maps there are no lists,
and only one of keys and values has a pattern, in string rules. -/
def TablesSupported (f : FieldDesc) : Prop :=
  match f.rules.type with
  | .repeated _ items => HasList items.type ∨ HasPattern items.type → IsString items.type ∨ IsEnum items.type
  | .map _ keys values =>
    ¬ HasList keys.type ∧ ¬ HasList values.type ∧
    (HasPattern keys.type → IsString keys.type ∧ ¬ HasPattern values.type) ∧
    (HasPattern values.type → IsString values.type)
  | _ => True

/-- A list of messages whose items have scalar rules (those of a wrapper such as `StringValue`), or a map to
messages whose values have scalar rules. -/
def WrappedElems (f : FieldDesc) : Prop :=
  (∃ e r items, f.typ = .rep e ∧ f.rules.type = .repeated r items ∧ e.isEmbed = true ∧
    WrapperKind items.type) ∨
  (∃ k e r keys values, f.typ = .map k e ∧ f.rules.type = .map r keys values ∧ e.isEmbed = true ∧
    WrapperKind values.type)

/-- Messages of a file have different names, and so have the fields of a message. -/
def WellNamed (F : FileDesc) : Prop :=
  (F.all.map (·.name)).Nodup ∧ ∀ d ∈ F.all, ((allFields d).map (·.name)).Nodup

end PGV.Spec
