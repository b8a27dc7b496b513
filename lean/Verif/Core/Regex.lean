import Verif.Core.Bytes

/-!
Regular expressions over runes, for the fixed patterns that occur in the code (uuid, HTTP header
names and values). Go's regexp package decides membership in the denoted language; patterns of the
form `^r$` without flags are matched against the whole text. The Go package works on runes, with an
invalid UTF-8 byte read as U+FFFD, which is `PGV.runes`.
-/

namespace PGV

/-- A character class: a list of inclusive ranges, possibly negated (as in module/checker.go:17-19). -/
structure CClass where
  neg : Bool
  ranges : List (Nat × Nat)
  deriving DecidableEq, Repr

/-- Membership in a class (as in module/checker.go:17-19). -/
def CClass.has (c : CClass) (r : Nat) : Bool :=
  xor c.neg (c.ranges.any fun p => decide (p.1 ≤ r) && decide (r ≤ p.2))

/-- Regular expressions (those of module/checker.go:17-19 and templates/go/file.go:48). -/
inductive Re
  | empty
  | eps
  | cls (c : CClass)
  | alt (a b : Re)
  | cat (a b : Re)
  | star (a : Re)
  deriving DecidableEq, Repr

namespace Re

/-- The language of an expression (for templates/goshared/string.go:179). -/
inductive Matches : Re → List Nat → Prop
  | eps : Matches .eps []
  | cls {c r} : c.has r = true → Matches (.cls c) [r]
  | altL {a b s} : Matches a s → Matches (.alt a b) s
  | altR {a b s} : Matches b s → Matches (.alt a b) s
  | cat {a b s t} : Matches a s → Matches b t → Matches (.cat a b) (s ++ t)
  | starNil {a} : Matches (.star a) []
  | starCons {a s t} : Matches a s → Matches (.star a) t → Matches (.star a) (s ++ t)

/-- Does the expression match the empty text? (for templates/goshared/string.go:179). -/
def nullable : Re → Bool
  | .empty => false
  | .eps => true
  | .cls _ => false
  | .alt a b => a.nullable || b.nullable
  | .cat a b => a.nullable && b.nullable
  | .star _ => true

/-- Brzozowski derivative with respect to one rune (for templates/goshared/string.go:179). -/
def deriv (r : Nat) : Re → Re
  | .empty => .empty
  | .eps => .empty
  | .cls c => if c.has r then .eps else .empty
  | .alt a b => .alt (deriv r a) (deriv r b)
  | .cat a b =>
    if a.nullable then .alt (.cat (deriv r a) b) (deriv r b) else .cat (deriv r a) b
  | .star a => .cat (deriv r a) (.star a)

/-- Decides whether the whole text is in the language (for templates/goshared/string.go:179). -/
def accepts (e : Re) : List Nat → Bool
  | [] => e.nullable
  | r :: rs => (deriv r e).accepts rs

/-- A literal character (as in module/checker.go:17-19). -/
def chr (r : Nat) : Re := .cls ⟨false, [(r, r)]⟩
/-- `e{n}` (as in templates/go/file.go:48). -/
def rep : Nat → Re → Re
  | 0, _ => .eps
  | n + 1, e => .cat e (rep n e)
/-- `e+` (as in module/checker.go:17). -/
def plus (e : Re) : Re := .cat e (.star e)
/-- `e?` (as in module/checker.go:17). -/
def opt (e : Re) : Re := .alt .eps e
/-- Concatenation of a list (as in module/checker.go:17-19). -/
def seq : List Re → Re
  | [] => .eps
  | e :: es => .cat e (seq es)

end Re

/-- `MatchString` of a compiled pattern `^e$` (templates/goshared/string.go:179). -/
def matchFull (e : Re) (s : Bytes) : Bool := e.accepts (runes s)

end PGV
