import Verif.Cpp.Link

/-!
When the C++ files of a program fit together.
-/

namespace PGV.Spec.CppLink
open PGV PGV.Cpp

/-- The messages of a program whose validation is on. -/
def validated (prog : List (List LinkMessage)) : List LinkMessage :=
  (prog.flatMap id).filter fun m => m.ignored = false ∧ m.disabled = false

/-- The program links: no variable is defined twice. -/
def Links (prog : List (List LinkMessage)) : Prop := (prog.flatMap variables).Nodup

/-- A part of a C++ name with no two underscores in a row, none at the ends, and no colon. -/
def Tidy (s : Ident) : Prop :=
  s ≠ [] ∧ s.head? ≠ some '_' ∧ s.getLast? ≠ some '_' ∧ ¬ ['_', '_'] <:+: s ∧ ':' ∉ s

/-- A name of lower-case letters and underscores. -/
def LowerSnake (s : Ident) : Prop := ∀ c ∈ s, isLow c = true ∨ c = '_'

end PGV.Spec.CppLink
