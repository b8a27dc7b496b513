import Verif.Lemmas.JavaPattern

/-!
C74: the Java literals the generator writes for strings, patterns and bytes.
-/

set_option linter.unusedSimpArgs false

namespace PGV.Props
open PGV PGV.Java PGV.Spec

/-! ### Byte arrays -/

theorem java_hexAll (b : UInt8) (rest : Bytes) : hexAll 0 (hexLow b ++ 0x2C :: rest) = (b.toNat, 0x2C :: rest) := by
  have hb := UInt8.toNat_lt b
  have hc : hexVal 0x2C = none := by decide
  unfold hexLow
  split
  · rename_i h
    simp only [List.cons_append, List.nil_append, hexAll, hexVal_lower h, hc]
    congr 1; omega
  · simp only [List.cons_append, List.nil_append, hexAll, hexVal_lower (n := b.toNat / 16) (by omega),
      hexVal_lower (n := b.toNat % 16) (by omega), hc]
    congr 1; omega

theorem hexLow_head (b : UInt8) : ∃ d t, hexLow b = d :: t ∧ (hexVal d).isSome = true := by
  have hb := UInt8.toNat_lt b
  unfold hexLow
  split
  · exact ⟨_, _, rfl, by rw [hexVal_lower (by assumption)]; rfl⟩
  · exact ⟨_, _, rfl, by rw [hexVal_lower (by omega)]; rfl⟩

theorem java_elems : ∀ (x : Bytes) (n : Nat), x.length < n →
    javaElems n (x.flatMap (fun b => byteCast ++ [0x30, 0x78] ++ hexLow b ++ [0x2C]) ++ [0x7D]) = some x := by
  intro x
  induction x with
  | nil =>
    intro n hn
    cases n with
    | zero => omega
    | succ n => rfl
  | cons b x ih =>
    intro n hn
    cases n with
    | zero => omega
    | succ n =>
      have hb := UInt8.toNat_lt b
      obtain ⟨d, t, hd, hv⟩ := hexLow_head b
      have hx := java_hexAll b (x.flatMap (fun b => byteCast ++ [0x30, 0x78] ++ hexLow b ++ [0x2C]) ++ [0x7D])
      rw [hd] at hx
      simp only [List.cons_append, List.append_assoc] at hx
      have ih' := ih n (by simp only [List.length_cons] at hn; omega)
      simp only [List.cons_append, List.append_assoc] at ih'
      simp only [List.flatMap_cons, byteCast, hd, List.cons_append, List.nil_append, List.append_assoc] at hx ih' ⊢
      simp only [javaElems, hx]
      rw [if_pos ⟨hv, by omega⟩, ih', Nat.mod_eq_of_lt hb]
      simp

/-- **C74** The byte array written for a bytes rule (constants, list members, prefixes, suffixes, contained bytes) has
exactly these bytes. -/
theorem C74_bytes (x : Bytes) : javaByteArray (byteArrayLit x) = some x := by
  unfold byteArrayLit arrayStart
  simp only [List.cons_append, List.nil_append, javaByteArray]
  refine java_elems x _ ?_
  have : ∀ x : Bytes, x.length ≤ (x.flatMap (fun b => byteCast ++ [0x30, 0x78] ++ hexLow b ++ [0x2C])).length := by
    intro x
    induction x with
    | nil => simp
    | cons b x ih => simp only [List.flatMap_cons, List.length_append, List.length_cons, byteCast] at ih ⊢; omega
  have := this x
  simp only [List.length_append, List.length_cons, List.length_nil]
  omega

/-! ### Strings -/

/-- **C74, partial** A string rule other than a pattern is written as a literal that denotes it if, and only if, it has
no quote, backslash or end of line in it. Missing: the strings that have. -/
theorem C74_string_partial (s : Bytes) : javaString (rawString s) = some s ↔ JavaPlain s := read_raw s

/-- **C74** (negation) `in: ["a\"b"]` and `const: "two\nlines"` are not Java literals; `prefix: "C:\\temp"` is read with a
tab. -/
theorem C74_string_not_escaped :
    javaString (rawString [0x61, 0x22, 0x62]) = none ∧
    javaString (rawString [0x61, 0x0A, 0x62]) = none ∧
    javaString (rawString [0x43, 0x3A, 0x5C, 0x74, 0x65, 0x6D, 0x70]) = some [0x43, 0x3A, 0x09, 0x65, 0x6D, 0x70] := by
  decide

/-! ### Patterns -/

/-- **C74, partial** What the literal for a pattern denotes, for every pattern: nothing unless the pattern is as
`JavaPattern` says; then the pattern with its unprintable characters below 256 as `\xhh`. Missing: the other patterns,
see `C74_pattern_quote` and `C74_pattern_hex`. (`isPrint` is `strconv.IsPrint`, of which only ASCII matters.) -/
theorem C74_pattern_partial (isPrint : Nat → Bool)
    (hp : ∀ c, c < 0x80 → (isPrint c = true ↔ 0x20 ≤ c ∧ c < 0x7F))
    (cs : List Nat) (hs : ∀ c ∈ cs, ScalarValue c) (v : Bytes) :
    javaString (javaStringEscape isPrint (cs.flatMap encodeRune)) = some v ↔
      JavaPattern isPrint cs ∧ v = cs.flatMap (patternChar isPrint) := by
  unfold javaStringEscape
  rw [List.cons_append, javaString_quote, escapeBody_eq isPrint cs hs]
  exact read_final hp cs hs v

/-- **C74** A pattern of printable characters without a quote and without `\x` is written as a literal that denotes it. -/
theorem C74_pattern_printable (isPrint : Nat → Bool)
    (hp : ∀ c, c < 0x80 → (isPrint c = true ↔ 0x20 ≤ c ∧ c < 0x7F))
    (cs : List Nat) (hs : ∀ c ∈ cs, ScalarValue c) (hpr : ∀ c ∈ cs, isPrint c = true ∧ c ≠ 0x22)
    (hx : ∀ a b, cs ≠ a ++ 0x5C :: 0x78 :: b) (hu : ∀ a b, cs ≠ a ++ 0x5C :: 0x75 :: 0x30 :: 0x30 :: b) :
    javaString (javaStringEscape isPrint (cs.flatMap encodeRune)) = some (cs.flatMap encodeRune) := by
  rw [C74_pattern_partial isPrint hp cs hs]
  refine ⟨⟨fun c hc => ⟨(hpr c hc).2, ?_, ?_, fun _ => (hpr c hc).1⟩, hx, hu⟩, ?_⟩
  · rintro rfl; exact absurd ((hp 7 (by decide)).1 (hpr 7 hc).1).1 (by decide)
  · rintro rfl; exact absurd ((hp 11 (by decide)).1 (hpr 11 hc).1).1 (by decide)
  · clear hx hu hs
    induction cs with
    | nil => rfl
    | cons c cs ih =>
      rw [List.flatMap_cons, List.flatMap_cons, ih fun c hc => hpr c (by simp [hc])]
      congr 1
      unfold patternChar
      rw [if_neg (by simp [(hpr c (by simp)).1])]

/-- **C74** (negation) A pattern with a quote anywhere is never written as a literal. -/
theorem C74_pattern_quote (isPrint : Nat → Bool)
    (hp : ∀ c, c < 0x80 → (isPrint c = true ↔ 0x20 ≤ c ∧ c < 0x7F))
    (cs : List Nat) (hs : ∀ c ∈ cs, ScalarValue c) (hq : 0x22 ∈ cs) :
    javaString (javaStringEscape isPrint (cs.flatMap encodeRune)) = none := by
  rw [Option.eq_none_iff_forall_ne_some]
  intro v h
  exact ((C74_pattern_partial isPrint hp cs hs v).1 h).1.chars 0x22 hq |>.1 rfl

/-- **C74** (negation) Nor is a pattern with a hexadecimal escape `\x`, which Go and the generator's check accept. -/
theorem C74_pattern_hex (isPrint : Nat → Bool)
    (hp : ∀ c, c < 0x80 → (isPrint c = true ↔ 0x20 ≤ c ∧ c < 0x7F))
    (a b : List Nat) (hs : ∀ c ∈ a ++ 0x5C :: 0x78 :: b, ScalarValue c) :
    javaString (javaStringEscape isPrint ((a ++ 0x5C :: 0x78 :: b).flatMap encodeRune)) = none := by
  rw [Option.eq_none_iff_forall_ne_some]
  intro v h
  exact ((C74_pattern_partial isPrint hp _ hs v).1 h).1.noX a b rfl

/-- The hypotheses are met: `^\d+é\n$` with a NUL in it is written so that Java reads `^\d+é\n\x00$`. -/
example : ∃ isPrint : Nat → Bool, (∀ c, c < 0x80 → (isPrint c = true ↔ 0x20 ≤ c ∧ c < 0x7F)) ∧
    JavaPattern isPrint [0x5E, 0x5C, 0x64, 0x2B, 0xE9, 0x0A, 0x00, 0x24] ∧
    [0x5E, 0x5C, 0x64, 0x2B, 0xE9, 0x0A, 0x00, 0x24].flatMap (patternChar isPrint) =
      [0x5E, 0x5C, 0x64, 0x2B, 0xC3, 0xA9, 0x0A, 0x5C, 0x78, 0x30, 0x30, 0x24] := by
  refine ⟨fun c => decide (0x20 ≤ c ∧ c ≠ 0x7F), ?_, ?_, by decide⟩
  · intro c hc
    simp only [decide_eq_true_eq]
    omega
  · have no : ∀ (l : List Nat) (a b : List Nat) (c d : Nat), l = a ++ c :: d :: b → (c, d) ∈ l.zip l.tail := by
      intro l a b c d h
      subst h
      induction a with
      | nil => simp
      | cons x a ih =>
        cases a with
        | nil => simp
        | cons y a =>
          simp only [List.cons_append, List.tail_cons, List.zip_cons_cons] at ih ⊢
          exact List.mem_cons_of_mem _ ih
    refine ⟨by decide, ?_, ?_⟩
    · intro a b h
      exact absurd (no _ a b _ _ h) (by decide)
    · intro a b h
      exact absurd (no _ a _ _ _ h) (by decide)

end PGV.Props
