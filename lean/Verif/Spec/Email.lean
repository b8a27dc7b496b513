import Verif.Java.Templates
import Verif.Py.Templates

/-!
Mail addresses with a display name: `Ann <ann@ex.org>`.
-/

namespace PGV.Spec
open PGV

/-- In `a`, read from its end, every `<` stands inside quotes. -/
def Shielded (a : List Nat) : Prop := ∀ x y, a = x ++ 0x3C :: y → y.count 0x22 % 2 = 1

/-- `s` is a display name, possibly empty, followed by `a` in angle brackets. -/
def Bracketed (s a : List Nat) : Prop :=
  (∃ name, s = name ++ 0x3C :: (a ++ [0x3E])) ∧ Shielded a ∧ a.count 0x22 % 2 = 0

/-- No two characters outside the Basic Multilingual Plane stand next to each other in the UTF-16 text. -/
def NoAdjacentPairs (s : List Nat) : Prop :=
  ∀ x lo hi y, s = x ++ lo :: hi :: y → ¬ (0xDC00 ≤ lo ∧ lo ≤ 0xDFFF ∧ 0xD800 ≤ hi ∧ hi ≤ 0xDBFF)

/-- `a` is the text after the first `<` of `s`, up to the next `<` or `>`, or the end. -/
def AfterBracket (s a : List Nat) : Prop :=
  ∃ name rest, s = name ++ 0x3C :: (a ++ rest) ∧ 0x3C ∉ name ∧ 0x3C ∉ a ∧ 0x3E ∉ a ∧
    (rest = [] ∨ ∃ r, rest = 0x3C :: r ∨ rest = 0x3E :: r)

/-- What Python takes for the address in `x`. -/
def PyAddress (x a : List Nat) : Prop :=
  if 0x3C ∈ x ∧ 0x3E ∈ x then AfterBracket x a else a = x

/-- The parts of `a` before its first `@` and from there to the next one. -/
def AtParts (a l h : List Nat) : Prop :=
  ∃ rest, a = l ++ 0x40 :: (h ++ rest) ∧ 0x40 ∉ l ∧ 0x40 ∉ h ∧ (rest = [] ∨ ∃ r, rest = 0x40 :: r)

end PGV.Spec
