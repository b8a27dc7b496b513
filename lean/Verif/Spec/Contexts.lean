import Verif.Module.Contexts

/-!
What it takes for the generator not to fail for want of a template.
-/

namespace PGV.Spec
open PGV PGV.Module

/-- Executing this template executes that one, through any number of `{{ template }}`. -/
inductive Executes (L : Templates) : String → String → Prop
  | self (n : String) : Executes L n n
  | step {n m k : String} : Executes L n m → k ∈ L.includes m → Executes L n k

/-- Whatever is executed for the field is there. -/
def Renders (L : Templates) (f : FieldDesc) : Prop :=
  ∀ n ∈ fieldTemplates f, ∀ m, Executes L n m → m ∈ L.registered

end PGV.Spec
