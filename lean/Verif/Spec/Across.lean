import Verif.Spec.Nesting
import Verif.Module.Execute
import Verif.Py.Lib

/-!
Messages embedded across files, and the fields whose embedded messages Python looks at.
-/

namespace PGV.Spec
open PGV PGV.Go

/-- The types that have a Java validator, when all files are compiled with `lang=java`: only those
declared in a file that imports a file called `…validate.proto`. `fileOf typ` is the file that declares
`typ`. -/
def javaSchema (fileOf : String → Module.Target) (S : Schema) : Schema := fun typ =>
  if (fileOf typ).deps.any (fun d => "validate.proto".toList.isSuffixOf d.toList) then S typ else .foreign

/-- Python validates the messages in this field: the type is not well-known, and, if the field has no
rules, not of the package `google.protobuf` nor in a list and with the fields `key` and `value`; a list
or map is not itself marked `message.skip` (which the plugin refuses anyway); and if a map has rules for
its keys or values, the values have message rules. -/
inductive PyFollows (P : Py.PEnv) (f : FieldDesc) : Prop
  | one {t} : f.typ = .one (.embed t none) → (f.rules = .absent → P.google t = false) → PyFollows P f
  | rep {t} : f.typ = .rep (.embed t none) → msgSkip f.rules.message = false →
      (f.rules = .absent → P.google t = false) →
      (f.rules = .absent → ∀ k v, P.fieldsOf t ≠ [("key", k), ("value", v)]) → PyFollows P f
  | map {kt t} : f.typ = .map kt (.embed t none) → msgSkip f.rules.message = false →
      (∀ r keys values, f.rules.type = .map r keys values →
        (keys = .absent ∧ values = .absent) ∨ ∃ m, values.message = some m ∧ m ≠ {}) → PyFollows P f

/-- `NestedVia ok S v u`: `u` is `v` or embedded in it at any depth, through fields that satisfy `ok`. -/
inductive NestedVia (ok : FieldDesc → Prop) (S : Schema) : Val → Val → Prop
  | self (v : Val) : NestedVia ok S v v
  | inner {typ fs os d f v i rules w u} : S typ = .generated d → d.disabled = false →
      Active d fs os f v → HeldBy f v i rules w → rules.type = .unset →
      msgSkip rules.message = false → Validated S w → ok f → NestedVia ok S w u →
      NestedVia ok S (.msg typ fs os) u

end PGV.Spec
