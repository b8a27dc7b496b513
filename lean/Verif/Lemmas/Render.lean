import Verif.Lemmas.Single
import Verif.Lemmas.Utf8

/-!
Results of whole messages from equal renderings of their fields.
-/

set_option linter.unusedSimpArgs false

namespace PGV.Go
open PGV Exec PGV.Spec

/-- Two messages of types with the same name whose fields and oneofs execute alike get the same
result. -/
theorem validate_congr_msg {E : Env} {S : Schema} {all : Bool} {typ typ' : String} {d d' : MsgDesc}
    {fs fs' : List (String × Val)} {os os' : List (String × String × Val)}
    (hS : S typ = .generated d) (hS' : S typ' = .generated d') (hn : d.name = d'.name)
    (hd : d.disabled = false) (hd' : d'.disabled = false)
    (h : bodyExec E S all (validate E S) d fs os = bodyExec E S all (validate E S) d' fs' os') :
    validate E S all (.msg typ fs os) = validate E S all (.msg typ' fs' os') := by
  rw [validate_eq, validate_eq]
  simp only [validateStep, hS, hS', hd, hd', Bool.false_eq_true, if_false, hn, h]

theorem forEach_single {α : Type} (a : α) (f : α → Exec) : Exec.forEach [a] f = f a := by
  funext es
  simp only [Exec.forEach, Exec.seq, Exec.skip]
  cases f a es <;> rfl

theorem seq_skip (x : Exec) : Exec.seq x Exec.skip = x := by
  funext es
  simp only [Exec.seq, Exec.skip]
  cases x es <;> rfl

theorem skip_seq (x : Exec) : Exec.seq Exec.skip x = x := by
  funext es; rfl

theorem body_single {E : Env} {S : Schema} {all : Bool} {rec : Rec} {d : MsgDesc} {f : FieldDesc}
    {fs : List (String × Val)} {os : List (String × String × Val)} (hf : d.fields = [f])
    (ho : d.oneofs = []) :
    bodyExec E S all rec d fs os = renderField E S all rec d.name f (getField fs f) := by
  unfold bodyExec
  rw [hf, ho, forEach_single]
  exact seq_skip _

theorem body_oneof {E : Env} {S : Schema} {all : Bool} {rec : Rec} {d : MsgDesc} {o : OneofDesc}
    {fs : List (String × Val)} {os : List (String × String × Val)} (hf : d.fields = [])
    (ho : d.oneofs = [o]) :
    bodyExec E S all rec d fs os = oneofTpl E S all rec d.name o (os.lookup o.name) := by
  unfold bodyExec
  rw [hf, ho, forEach_single]
  exact skip_seq _

end PGV.Go
