import Verif.Core.Bytes

/-!
Text vocabulary for the string properties: code points, hostnames, limits.
-/

namespace PGV.Spec
open PGV

/-- A Unicode scalar value: a code point that is not a surrogate. -/
def CodePoint (c : Nat) : Prop := c < 0x110000 ∧ ¬ (0xD800 ≤ c ∧ c < 0xE000)

/-- UTF-8 encoding of a sequence of code points. -/
def utf8 (cs : List Nat) : Bytes := cs.flatMap encodeRune

/-- A count respects an exact, a minimal and a maximal limit, each where given. -/
def WithinLimits (len min max : Option Nat) (n : Nat) : Prop :=
  (∀ k, len = some k → n = k) ∧ (∀ k, min = some k → k ≤ n) ∧ (∀ k, max = some k → n ≤ k)

/-- Letters of either case, digits and hyphen. -/
def LabelByte (b : UInt8) : Prop :=
  (0x61 ≤ b ∧ b ≤ 0x7A) ∨ (0x41 ≤ b ∧ b ≤ 0x5A) ∨ (0x30 ≤ b ∧ b ≤ 0x39) ∨ b = 0x2D

/-- A hostname label. -/
def Label (l : Bytes) : Prop :=
  1 ≤ l.length ∧ l.length ≤ 63 ∧ (∀ b ∈ l, LabelByte b) ∧
  l.head? ≠ some 0x2D ∧ l.getLast? ≠ some 0x2D

/-- A hostname: at most 253 bytes, one or more labels separated by dots, optionally followed by one
more dot. -/
def Hostname (s : Bytes) : Prop :=
  s.length ≤ 253 ∧ ∃ labels : List Bytes, labels ≠ [] ∧ (∀ l ∈ labels, Label l) ∧
    (s = List.intercalate [0x2E] labels ∨ s = List.intercalate [0x2E] labels ++ [0x2E])

end PGV.Spec
