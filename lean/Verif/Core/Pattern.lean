import Verif.Core.Regex

/-!
The concrete syntax of regular expressions, for the fragment of Go's regexp/syntax that the fixed
patterns in the code use: `^...$` around literals, character classes and the postfix operators
`*`, `+`, `?`, `{n}`. Everything else (groups, alternation, escapes, flags) is refused, so that a
pattern is either given its meaning in `Re` or none.
-/

namespace PGV

/-- The items of a character class up to the closing bracket, as ranges, and what follows it.
`pending` is a character that may turn out to begin a range, `dash` whether a `-` followed it
(for the patterns of module/checker.go:17-19). -/
def classItems (pending : Option Nat) (dash : Bool) : List Nat → Option (List (Nat × Nat) × List Nat)
  | [] => none
  | c :: rest =>
    if c = 0x5D then
      match pending with
      | none => some ([], rest)
      | some p => some (if dash then [(p, p), (0x2D, 0x2D)] else [(p, p)], rest)
    else if c = 0x5B ∨ c = 0x5C then none
    else
      match pending with
      | none => classItems (some c) false rest
      | some p =>
        if dash then
          if c < p then none
          else (classItems none false rest).map fun (rs, k) => ((p, c) :: rs, k)
        else if c = 0x2D then classItems (some p) true rest
        else (classItems (some c) false rest).map fun (rs, k) => ((p, p) :: rs, k)

/-- Characters with a meaning of their own: `\ ( ) { } | . * + ? ^ $ ]`
(for the patterns of module/checker.go:17-19). -/
def special : List Nat :=
  [0x5C, 0x28, 0x29, 0x7B, 0x7D, 0x7C, 0x2E, 0x2A, 0x2B, 0x3F, 0x5E, 0x24, 0x5D]

/-- A class or a literal (for the patterns of module/checker.go:17-19). -/
def atom (c : Nat) (rest : List Nat) : Option (Re × List Nat) :=
  if c = 0x5B then
    match rest with
    | 0x5E :: rest' => (classItems none false rest').map fun (rs, k) => (.cls ⟨true, rs⟩, k)
    | _ => (classItems none false rest).map fun (rs, k) => (.cls ⟨false, rs⟩, k)
  else if c ∈ special then none
  else some (.chr c, rest)

/-- A decimal count up to the closing brace (for the pattern of templates/go/file.go:48). -/
def count (acc : Nat) : List Nat → Option (Nat × List Nat)
  | [] => none
  | c :: rest =>
    if c = 0x7D then some (acc, rest)
    else if 0x30 ≤ c ∧ c ≤ 0x39 then count (acc * 10 + (c - 0x30)) rest
    else none

/-- An optional postfix operator (for the patterns of module/checker.go:17-19). -/
def postfixOp (a : Re) : List Nat → Option (Re × List Nat)
  | [] => some (a, [])
  | c :: rest =>
    if c = 0x2A then some (.star a, rest)
    else if c = 0x2B then some (.plus a, rest)
    else if c = 0x3F then some (.opt a, rest)
    else if c = 0x7B then (count 0 rest).map fun (n, k) => (.rep n a, k)
    else some (a, c :: rest)

/-- A sequence of atoms up to `$`; the number bounds the atoms (for the patterns of module/checker.go:17-19). -/
def items : Nat → List Nat → Option (List Re)
  | 0, _ => none
  | _ + 1, [] => none
  | n + 1, c :: rest =>
    if c = 0x24 then (if rest = [] then some [] else none)
    else
      match atom c rest with
      | none => none
      | some (a, k) =>
        match postfixOp a k with
        | none => none
        | some (e, k') => (items n k').map (e :: ·)

/-- The expression between `^` and `$` of a pattern in the fragment
(for `regexp.MustCompile`, templates/goshared/msg.go:152 and templates/go/file.go:48). -/
def parsePattern (p : Bytes) : Option Re :=
  match runes p with
  | [] => none
  | c :: rest => if c = 0x5E then (items (rest.length + 1) rest).map .seq else none

end PGV
