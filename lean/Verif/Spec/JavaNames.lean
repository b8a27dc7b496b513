import Verif.Java.Names

/-!
What a user can say of the names in a .proto file.
-/

namespace PGV.Spec.JavaNames
open PGV.Cpp (Ident isLow isUp isDig)
open PGV.JavaNames (NamedField protocFieldCap)

/-- An identifier of a .proto file: letters, digits and underscores. -/
def Identifier (s : Ident) : Prop := ∀ c ∈ s, isLow c = true ∨ isUp c = true ∨ isDig c = true ∨ c = '_'

/-- A word of one lower-case letter runs into upper-case letters, as in `aB`, `x_yZ` or `iOS`: the letter is first or
comes after something that is no letter, and the upper-case letter after it is not followed by a lower-case one. -/
def LoneLower (s : Ident) : Prop :=
  ∃ a v x r, s = a ++ v :: x :: r ∧ isLow v = true ∧ isUp x = true ∧
    (∀ y, a.getLast? = some y → isLow y = false ∧ isUp y = false) ∧ (∀ y, r.head? = some y → isLow y = false)

/-- The lower-case letters that Java names would have in upper case: the first character, and any after a digit. -/
def StartsLow (s : Ident) : Prop :=
  ∃ a v r, s = a ++ v :: r ∧ isLow v = true ∧ (a = [] ∨ ∃ y, a.getLast? = some y ∧ isDig y = true)

/-- A lower-case letter right after a digit, as in `choice_2fa`. -/
def DigitThenLow (s : Ident) : Prop := ∃ a d v r, s = a ++ d :: v :: r ∧ isDig d = true ∧ isLow v = true

/-- Two upper-case letters next to each other, as in `fooURL`. -/
def UpperPair (s : Ident) : Prop := ∃ a x y r, s = a ++ x :: y :: r ∧ isUp x = true ∧ isUp y = true

/-- The rules that have constants (templates/java/num.go:5-27, string.go:5-19, bytes.go:5-31, any.go:5-12, enum.go:5-12,
duration.go:5-27, timestamp.go:5-20). -/
def constantRules : List Ident :=
  ["Const", "Lt", "Lte", "Gt", "Gte", "In", "NotIn", "Pattern", "Prefix", "Contains", "Suffix",
   "Within"].map String.toList

/-- What a constant's name says about where the rule applies: to the field or its items, to the keys, or to the values
of a map (templates/java/map.go:5-6). -/
def constantPlaces : List Ident := ["", "Key", "Value"].map String.toList

/-- The names of two fields get in each other's way in protoc's Java classes: they are the same in method names, or one
is that of a list or map and the other is the same followed by `Count` or `List`. -/
def InTheWay (forbidden : Ident → Bool) (f g : NamedField) : Prop :=
  let cap (x : NamedField) := protocFieldCap forbidden x.name
  cap f = cap g ∨
    (f.kind ≠ .one ∧ (cap g = cap f ++ "Count".toList ∨ cap g = cap f ++ "List".toList)) ∨
    (g.kind ≠ .one ∧ (cap f = cap g ++ "Count".toList ∨ cap f = cap g ++ "List".toList))

end PGV.Spec.JavaNames
