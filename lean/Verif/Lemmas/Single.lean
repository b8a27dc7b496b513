import Verif.Lemmas.Fix
import Verif.Spec.Api

/-!
Messages with a single field.
-/

set_option linter.unusedSimpArgs false

namespace PGV.Go
open PGV Exec PGV.Spec

theorem getField_single (f : FieldDesc) (v : Val) : getField [(f.name, v)] f = v := by
  simp [getField]

/-- A one-field message is accepted exactly when the field satisfies its rules. -/
theorem accepts_iff {E : Env} {S : Schema} {typ : String} {f : FieldDesc} (h : OnlyField S typ f)
    (v : Val) : Accepts E S typ f v ↔ FieldOk E S (fun w => validate E S false w = none) f v := by
  obtain ⟨d, hS, hd, hf, ho⟩ := h
  unfold Accepts
  rw [validate_spec]
  simp [MessageOk, hS, hd, hf, ho, getField_single]

theorem errorList_multi (n : String) (l : List Err) :
    errorList (if l = [] then none else some (.multi n l)) = l := by
  cases l <;> simp [errorList]

/-- The errors of a one-field message. -/
theorem errorsFor_eq {E : Env} {S : Schema} {typ : String} {d : MsgDesc} {f : FieldDesc}
    (hS : S typ = .generated d) (hd : d.disabled = false) (hf : d.fields = [f])
    (ho : d.oneofs = []) (v : Val) :
    errorsFor E S typ f v = allErrs fun all => renderField E S all (validate E S) d.name f v := by
  unfold errorsFor
  rw [validate_all_msg hS hd]
  simp only [errorList_multi]
  simp [hf, ho, getField_single]

theorem errorsFor_nil_iff {E : Env} {S : Schema} {typ : String} {f : FieldDesc}
    (h : OnlyField S typ f) (v : Val) : errorsFor E S typ f v = [] ↔ Accepts E S typ f v := by
  rw [accepts_iff h]
  obtain ⟨d, hS, hd, hf, ho⟩ := h
  rw [errorsFor_eq hS hd hf ho]
  exact (field_ok E S _ (validate_recOk E S) d.name f v).specAll

end PGV.Go
