import Verif.Harness.Dispatch

/-!
How a message type is named in a test case, and which types a test program can know.
-/

namespace PGV.Spec
open PGV PGV.Cpp PGV.Harness

/-- The address of a type ends in a slash and the full name of the type. -/
def OfType (url : Ident) (m : LinkMessage) : Prop := ∃ host, url = host ++ '/' :: typeName m

/-- Message types: names are not empty and have no slash, and no two types have the same full name. -/
def Types (ms : List LinkMessage) : Prop :=
  (∀ m ∈ ms, typeName m ≠ [] ∧ '/' ∉ typeName m) ∧ ∀ m ∈ ms, ∀ m' ∈ ms, typeName m = typeName m' → m = m'

/-- A module has something at its top level that `import *` takes under this name: a message, an enum, an enum value or an
extension. -/
def Takes (p : PyModule) (n : Ident) : Prop :=
  n ≠ [] ∧ n.head? ≠ some '_' ∧ ((∃ m ∈ p.messages, m.path = [n]) ∨ n ∈ p.others)

/-- The Python program can see the message: it is at the top level of a module it imports, has a name that `import *` takes,
and no later import (and no variable of the program) takes its name away. -/
def Visible (imports : List PyModule) (m : LinkMessage) : Prop :=
  ∃ n before p after, m.path = [n] ∧ imports = before ++ p :: after ∧ m ∈ p.messages ∧ n ≠ [] ∧ n.head? ≠ some '_' ∧
    (∀ q ∈ after, ¬ Takes q n) ∧ n ≠ "message_classes".toList

end PGV.Spec
