import Verif.Lemmas.CppRead

/-!
C71: the C++ literals the generator writes.
-/

set_option linter.unusedSimpArgs false

namespace PGV.Props
open PGV PGV.Cpp PGV.Spec.Cpp
open PGV.Go (litString)

/-- **C71** The literal written for a bytes rule, and for a member of a bytes lookup table, is a C++ string
literal whose characters are exactly those bytes. -/
theorem C71_bytes (x : Bytes) : readLit (litBytes x) = some x ∧ readLit (byteStr x) = some x :=
  ⟨read_litBytes x, read_byteStr x⟩

/-- **C71, partial** The literal written for a string rule is a C++ string literal whose characters are
exactly that string, if the string is UTF-8 and no control character that Go writes as `\xhh` comes before
a hexadecimal digit. Missing: see `C71_escape_runs_on` and `C71_escape_too_large`. -/
theorem C71_string_partial (isPrint : Nat → Bool) (hp : ∀ r, isPrint r = true → 0x20 ≤ r) (s : Bytes)
    (h : CText s) : readLit (litString isPrint s) = some s := read_litString isPrint hp h

/-- **C71** Exactly which UTF-8 strings keep their characters: those in which no control character that Go writes as
`\xhh` comes before a hexadecimal digit. -/
theorem C71_string_iff (isPrint : Nat → Bool) (hp : PrintsAscii isPrint) (s : Bytes) (h : Spec.Utf8 s) :
    readLit (litString isPrint s) = some s ↔ CText s :=
  (litString_iff isPrint hp h).trans ⟨fun ha => ⟨h, ha⟩, fun ha => ha.2⟩

/-- **C71** Exactly which UTF-8 strings become C++ literals at all: those in which each such control character and the
hexadecimal digits after it make a number below 256. -/
theorem C71_compiles_iff (isPrint : Nat → Bool) (hp : PrintsAscii isPrint) (s : Bytes) (h : Spec.Utf8 s) :
    readLit (litString isPrint s) ≠ none ↔ CLiteral s := by
  rw [← textLit_iff isPrint hp h, textLit]
  cases readLit (litString isPrint s) <;> simp

/-- **C71** (negation) Go writes `\x00` and C++ reads on: the literal for a NUL and the letter `a` is the
one character `\x0a`. -/
theorem C71_escape_runs_on (isPrint : Nat → Bool) (h0 : isPrint 0 = false) (ha : isPrint 0x61 = true) :
    readLit (litString isPrint [0, 0x61]) = some [0x0A] := by
  have e : litString isPrint [0, 0x61] = [0x22, 0x5C, 0x78, 0x30, 0x30, 0x61, 0x22] := by
    simp [litString, Go.quoteBody, decodeRune, Go.escapedRune, h0, ha, Go.simpleEscape, Go.hexDigits,
      runeError]
    decide
  rw [e]
  decide

/-- **C71** (negation) With another digit the literal is too large for a character and does not compile. -/
theorem C71_escape_too_large (isPrint : Nat → Bool) (h0 : isPrint 1 = false) (ha : isPrint 0x61 = true) :
    readLit (litString isPrint [1, 0x61, 0x61]) = none := by
  have e : litString isPrint [1, 0x61, 0x61] = [0x22, 0x5C, 0x78, 0x30, 0x31, 0x61, 0x61, 0x22] := by
    simp [litString, Go.quoteBody, decodeRune, Go.escapedRune, h0, ha, Go.simpleEscape, Go.hexDigits,
      runeError]
    decide
  rw [e]
  decide

/-- **C71** (negation) Where the literal becomes a `std::string`, all that follows the first NUL is lost:
rule values with NULs in them are not the ones that are compared. -/
theorem C71_cut_at_nul (a b : Bytes) (h : NoNul a) :
    bytesVal (a ++ 0 :: b) = a ∧ bytesKey (a ++ 0 :: b) = a := by
  have cut : cStr (a ++ 0 :: b) = a := by
    unfold cStr
    rw [List.takeWhile_append_of_pos]
    · simp
    · intro x hx
      simp only [bne_iff_ne, ne_eq]
      rintro rfl
      exact h hx
  exact ⟨by unfold bytesVal; rw [read_litBytes]; exact cut, by unfold bytesKey; rw [read_byteStr]; exact cut⟩

/-- **C71** Without NULs, the `std::string`s are the rule values. -/
theorem C71_values (isPrint : Nat → Bool) (hp : ∀ r, isPrint r = true → 0x20 ≤ r) (s : Bytes)
    (h : NoNul s) : bytesVal s = s ∧ bytesKey s = s ∧ (CText s → strVal isPrint s = s) :=
  ⟨bytesVal_eq h, bytesKey_eq h, fun hc => strVal_eq isPrint hp ⟨hc, h⟩⟩

/-- The hypothesis on `isPrint` can be met. -/
example : PrintsAscii fun c => decide (0x20 ≤ c ∧ c < 0x7F) := by
  intro c _
  simp

/-- The hypotheses are met by text with a quote, a tab and a control character. -/
example : CText [0x61, 0x22, 0x09, 0x41, 0x01, 0x7A] ∧ NoNul [0x61, 0x22, 0x09, 0x41, 0x01, 0x7A] := by
  refine ⟨⟨⟨[0x61, 0x22, 0x09, 0x41, 0x01, 0x7A], ?_, by decide⟩, ?_⟩, by unfold NoNul; decide⟩
  · simp [Spec.ScalarValue]
  · intro a c d t e hc
    match a, e with
    | [], e => simp at e; obtain ⟨rfl, rfl, _⟩ := e; simp [HexEscaped] at hc
    | [_], e => simp at e; obtain ⟨_, rfl, rfl, _⟩ := e; simp [HexEscaped] at hc
    | [_, _], e => simp at e; obtain ⟨_, _, rfl, rfl, _⟩ := e; simp [HexEscaped] at hc
    | [_, _, _], e => simp at e; obtain ⟨_, _, _, rfl, rfl, _⟩ := e; simp [HexEscaped] at hc
    | [_, _, _, _], e =>
      simp at e; obtain ⟨_, _, _, _, rfl, rfl, _⟩ := e
      simp [PGV.Spec.HexDigit]
    | _ :: _ :: _ :: _ :: _ :: a, e =>
      have := congrArg List.length e
      simp at this
      omega

end PGV.Props
