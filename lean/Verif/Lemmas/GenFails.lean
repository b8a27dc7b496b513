import Verif.Spec.Emit
import Verif.Java.Emit
import Verif.Cpp.Emit

/-!
Fields for which the generator fails.
-/

set_option linter.unusedSimpArgs false

namespace PGV.Props
open PGV PGV.Spec

theorem elemFails_kind (e : ElemT) (rules : FieldRules) :
    Go.elemFails e rules = true ↔ e.isEmbed = true ∧ WrapperKind rules.type := by
  unfold Go.elemFails Go.resolve
  cases e.isEmbed <;> cases rules.type with
  | num k r => cases k <;> simp [WrapperKind]
  | _ => simp [WrapperKind]

theorem goRenderFails_iff (f : FieldDesc) : Go.renderFails f = true ↔ WrappedElems f := by
  unfold Go.renderFails WrappedElems
  cases f.typ <;> cases f.rules.type <;> simp only [elemFails_kind, reduceCtorEq, false_and, and_false,
    exists_false, or_false, false_or, Bool.false_eq_true, false_iff, not_false_eq_true, iff_false,
    exists_const]
  · exact ⟨fun h => ⟨_, _, _, rfl, rfl, h⟩, fun ⟨_, _, _, h1, h2, h⟩ => by cases h1; cases h2; exact h⟩
  · exact ⟨fun h => ⟨_, _, _, _, _, rfl, rfl, h⟩,
      fun ⟨_, _, _, _, _, h1, h2, h⟩ => by cases h1; cases h2; exact h⟩

theorem javaRenderFails_eq (f : FieldDesc) : Java.renderFails f = Go.renderFails f := rfl

theorem cppRenderFails_eq (f : FieldDesc) : Cpp.renderFails f = Go.renderFails f := rfl

theorem goGenFails_iff (d : MsgDesc) : Go.genFails d = true ↔
    d.ignored = false ∧ d.disabled = false ∧ ∃ f, FieldOf d f ∧ WrappedElems f := by
  unfold Go.genFails
  simp only [Bool.and_eq_true, Bool.not_eq_true', List.any_eq_true, goRenderFails_iff, and_assoc]
  refine and_congr_right fun _ => and_congr_right fun _ => exists_congr fun f => and_congr_left fun _ => ?_
  simp [Go.allFields, FieldOf]

theorem innerFails_iff (d : MsgDesc) : Java.innerFails d = true ↔ ∃ f, FieldOf d f ∧ WrappedElems f := by
  unfold Java.innerFails
  simp only [List.any_eq_true, javaRenderFails_eq, goRenderFails_iff]
  refine exists_congr fun f => and_congr_left fun _ => ?_
  simp [Go.allFields, FieldOf]

theorem javaGenFails_iff (d : MsgDesc) : Java.genFails d = true ↔
    d.ignored = false ∧ ∃ f, FieldOf d f ∧ WrappedElems f := by
  unfold Java.genFails
  simp only [Bool.and_eq_true, Bool.not_eq_true', innerFails_iff]

end PGV.Props
