import Verif.Lemmas.Code
import Verif.Lemmas.Java
import Verif.Spec.Portable

/-!
Java strings: lengths, affixes and UUIDs mean on a string's UTF-16 form what they mean on its UTF-8
form.
-/

set_option linter.unusedSimpArgs false

namespace PGV.Java
open PGV PGV.Spec PGV.Code

theorem jstr_encode {cs : List Nat} (h : ∀ c ∈ cs, ScalarValue c) :
    jstr (cs.flatMap encodeRune) = cs.flatMap utf16Rune := by
  unfold jstr; rw [runes_encode cs h]

theorem utf8_nil : Utf8 [] := ⟨[], by simp, rfl⟩

theorem codePointCount_jstr {s : Bytes} (h : Utf8 s) : codePointCount (jstr s) = runeCount s := by
  obtain ⟨cs, hc, rfl⟩ := h
  rw [jstr_encode hc, codePointCount, codePoints_utf16 cs hc, runeCount, runes_encode cs hc]

theorem getBytes_jstr {s : Bytes} (h : Utf8 s) : getBytes (jstr s) = s := by
  obtain ⟨cs, hc, rfl⟩ := h
  rw [jstr_encode hc, getBytes, codePoints_utf16 cs hc]
  induction cs with
  | nil => rfl
  | cons c cs ih =>
    rw [List.flatMap_cons, List.flatMap_cons, ih (fun d hd => hc d (by simp [hd])), if_neg]
    have := (hc c (by simp)).2
    omega

theorem jstr_inj {s t : Bytes} (hs : Utf8 s) (ht : Utf8 t) : jstr s = jstr t ↔ s = t := by
  refine ⟨fun h => ?_, fun h => by rw [h]⟩
  rw [← getBytes_jstr hs, ← getBytes_jstr ht, h]

theorem isPrefixOf_iff {α : Type} [BEq α] [LawfulBEq α] (p s : List α) :
    p.isPrefixOf s = true ↔ p <+: s := List.isPrefixOf_iff_prefix

theorem startsWith_jstr {s p : Bytes} (hs : Utf8 s) (hp : Utf8 p) :
    startsWith (jstr s) (jstr p) = true ↔ p <+: s := by
  obtain ⟨cs, hc, rfl⟩ := hs
  obtain ⟨ds, hd, rfl⟩ := hp
  rw [startsWith, isPrefixOf_iff, jstr_encode hc, jstr_encode hd,
    prefix_iff utf16_synced ds cs hd hc, prefix_iff utf8_synced ds cs hd hc]

theorem endsWith_jstr {s p : Bytes} (hs : Utf8 s) (hp : Utf8 p) :
    endsWith (jstr s) (jstr p) = true ↔ p <:+ s := by
  obtain ⟨cs, hc, rfl⟩ := hs
  obtain ⟨ds, hd, rfl⟩ := hp
  rw [endsWith, isPrefixOf_iff, List.reverse_prefix, jstr_encode hc, jstr_encode hd,
    suffix_iff utf16_synced ds cs hd hc, suffix_iff utf8_synced ds cs hd hc]

theorem jcontains_iff {α : Type} [BEq α] [LawfulBEq α] (p s : List α) :
    jcontains p s = true ↔ p <:+: s := by
  induction s with
  | nil => simp [jcontains]
  | cons c s ih => rw [jcontains, Bool.or_eq_true, ih, isPrefixOf_iff, List.infix_cons_iff]

theorem contains_jstr {s p : Bytes} (hs : Utf8 s) (hp : Utf8 p) :
    jcontains (jstr p) (jstr s) = true ↔ p <:+: s := by
  obtain ⟨cs, hc, rfl⟩ := hs
  obtain ⟨ds, hd, rfl⟩ := hp
  rw [jcontains_iff, jstr_encode hc, jstr_encode hd, infix_iff utf16_synced ds cs hd hc,
    infix_iff utf8_synced ds cs hd hc]

/-! ### UUIDs -/

theorem hexDigit_toNat (b : UInt8) : HexDigit b ↔
    (0x30 ≤ b.toNat ∧ b.toNat ≤ 0x39) ∨ (0x41 ≤ b.toNat ∧ b.toNat ≤ 0x46) ∨
      (0x61 ≤ b.toNat ∧ b.toNat ≤ 0x66) := Iff.rfl

/-- Positions of the hyphens. -/
def hyphenAt (i : Nat) : Bool := i == 8 || i == 13 || i == 18 || i == 23

theorem uuidChar_hyphen {i : Nat} (h : hyphenAt i = true) (c : Nat) :
    uuidChar i c = true ↔ c = 0x2D := by
  unfold hyphenAt at h
  rw [uuidChar, if_pos h]; simp

theorem uuidChar_hex {i : Nat} (h : hyphenAt i = false) (c : Nat) :
    uuidChar i c = true ↔ (0x30 ≤ c ∧ c ≤ 0x39) ∨ (0x41 ≤ c ∧ c ≤ 0x46) ∨ (0x61 ≤ c ∧ c ≤ 0x66) := by
  unfold hyphenAt at h
  rw [uuidChar, if_neg (by rw [h]; simp)]
  simp only [Bool.not_eq_true', Bool.and_eq_false_iff, Bool.or_eq_false_iff, decide_eq_false_iff_not]
  omega

theorem uuidLoop_append (i : Nat) (a b : JString) :
    uuidLoop i (a ++ b) = (uuidLoop i a && uuidLoop (i + a.length) b) := by
  induction a generalizing i with
  | nil => simp [uuidLoop]
  | cons c a ih =>
    simp only [List.cons_append, uuidLoop, ih, List.length_cons, Bool.and_assoc]
    rw [show i + 1 + a.length = i + (a.length + 1) by omega]

theorem uuidLoop_hex (g : Bytes) (i : Nat) (h : ∀ j, j < g.length → hyphenAt (i + j) = false) :
    uuidLoop i (g.map UInt8.toNat) = true ↔ ∀ b ∈ g, HexDigit b := by
  induction g generalizing i with
  | nil => simp [uuidLoop]
  | cons b g ih =>
    rw [List.map_cons, uuidLoop, Bool.and_eq_true, uuidChar_hex (by simpa using h 0 (by simp)),
      ih (i + 1) (fun j hj => by
        have := h (j + 1) (by simpa using hj)
        rwa [show i + 1 + j = i + (j + 1) by omega])]
    simp only [List.mem_cons, forall_eq_or_imp, hexDigit_toNat]

theorem uuidLoop_ascii (i : Nat) (s : JString) (h : uuidLoop i s = true) : ∀ c ∈ s, c < 0x80 := by
  induction s generalizing i with
  | nil => simp
  | cons c s ih =>
    rw [uuidLoop, Bool.and_eq_true] at h
    intro d hd
    rcases List.mem_cons.1 hd with rfl | hd
    · cases hh : hyphenAt i with
      | true => have := (uuidChar_hyphen hh d).1 h.1; omega
      | false => have := (uuidChar_hex hh d).1 h.1; omega
    · exact ih _ h.2 d hd

theorem utf16_small {rs : List Nat} (h : ∀ u ∈ rs.flatMap utf16Rune, u < 0x80) :
    ∀ r ∈ rs, r < 0x80 := by
  intro r hr
  have h1 : ∀ u ∈ utf16Rune r, u < 0x80 := fun u hu => h u (List.mem_flatMap.2 ⟨r, hr, hu⟩)
  unfold utf16Rune at h1
  split at h1
  · exact h1 r (by simp)
  · have := h1 (0xD800 + (r - 0x10000) / 0x400) (List.mem_cons_self ..)
    omega

theorem utf16_ascii (rs : List Nat) (h : ∀ r ∈ rs, r < 0x80) : rs.flatMap utf16Rune = rs := by
  induction rs with
  | nil => rfl
  | cons r rs ih =>
    rw [List.flatMap_cons, ih (fun s hs => h s (by simp [hs])), utf16Rune,
      if_pos (by have := h r (by simp); omega)]
    rfl

theorem jstr_ascii {s : Bytes} (h : ∀ b ∈ s, b < 0x80) : jstr s = s.map UInt8.toNat := by
  rw [jstr, runes_ascii s h, utf16_ascii]
  intro r hr
  obtain ⟨b, hb, rfl⟩ := List.mem_map.1 hr
  exact h b hb

theorem split_at (n : Nat) (s : Bytes) (h : n < s.length) :
    ∃ g b t, s = g ++ b :: t ∧ g.length = n := by
  refine ⟨s.take n, s[n], s.drop (n + 1), ?_, by simp; omega⟩
  rw [← List.drop_eq_getElem_cons h, List.take_append_drop]

theorem eq_hyphen (b : UInt8) : b.toNat = 0x2D ↔ b = 0x2D := by
  rw [show (0x2D : Nat) = (0x2D : UInt8).toNat from rfl, UInt8.toNat_inj]

theorem hyphen_range {i n : Nat} (h : ∀ j, j < n → hyphenAt (i + j) = false) {g : Bytes}
    (hg : g.length = n) : ∀ j, j < g.length → hyphenAt (i + j) = false := by rw [hg]; exact h

/-- One group of digits and the hyphen after it. -/
theorem uuid_group (i n : Nat) (h1 : ∀ j, j < n → hyphenAt (i + j) = false)
    (h2 : hyphenAt (i + n) = true) (s : Bytes) (hl : n < s.length) :
    uuidLoop i (s.map UInt8.toNat) = true ↔
      ∃ g t, s = g ++ 0x2D :: t ∧ HexRun n g ∧ uuidLoop (i + n + 1) (t.map UInt8.toNat) = true := by
  constructor
  · intro h
    obtain ⟨g, b, t, rfl, hg⟩ := split_at n s hl
    rw [List.map_append, List.map_cons, uuidLoop_append, Bool.and_eq_true, List.length_map, hg,
      uuidLoop_hex g i (hyphen_range h1 hg), uuidLoop, Bool.and_eq_true, uuidChar_hyphen h2,
      eq_hyphen] at h
    obtain ⟨h3, rfl, h5⟩ := h
    exact ⟨g, t, rfl, ⟨hg, h3⟩, h5⟩
  · rintro ⟨g, t, rfl, ⟨hg, h3⟩, h5⟩
    rw [List.map_append, List.map_cons, uuidLoop_append, Bool.and_eq_true, List.length_map, hg,
      uuidLoop_hex g i (hyphen_range h1 hg), uuidLoop, Bool.and_eq_true, uuidChar_hyphen h2,
      eq_hyphen]
    exact ⟨h3, rfl, h5⟩

/-- Java's UUID loop accepts the ASCII strings of the UUID grammar. -/
theorem uuid_bytes (s : Bytes) :
    (s.length = 36 ∧ uuidLoop 0 (s.map UInt8.toNat) = true) ↔ UuidOk s := by
  have d1 : ∀ j, j < 8 → hyphenAt (0 + j) = false := by decide
  have d2 : ∀ j, j < 4 → hyphenAt (9 + j) = false := by decide
  have d3 : ∀ j, j < 4 → hyphenAt (14 + j) = false := by decide
  have d4 : ∀ j, j < 4 → hyphenAt (19 + j) = false := by decide
  have d5 : ∀ j, j < 12 → hyphenAt (24 + j) = false := by decide
  constructor
  · rintro ⟨hl, h⟩
    rw [uuid_group 0 8 d1 rfl s (by omega)] at h
    obtain ⟨g1, t1, rfl, hg1, h⟩ := h
    have l1 := hg1.1
    simp only [List.length_append, List.length_cons] at hl
    rw [uuid_group 9 4 d2 rfl t1 (by omega)] at h
    obtain ⟨g2, t2, rfl, hg2, h⟩ := h
    have l2 := hg2.1
    simp only [List.length_append, List.length_cons] at hl
    rw [uuid_group 14 4 d3 rfl t2 (by omega)] at h
    obtain ⟨g3, t3, rfl, hg3, h⟩ := h
    have l3 := hg3.1
    simp only [List.length_append, List.length_cons] at hl
    rw [uuid_group 19 4 d4 rfl t3 (by omega)] at h
    obtain ⟨g4, t4, rfl, hg4, h⟩ := h
    have l4 := hg4.1
    simp only [List.length_append, List.length_cons] at hl
    have l5 : t4.length = 12 := by omega
    rw [uuidLoop_hex t4 _ (hyphen_range d5 l5)] at h
    exact ⟨g1, g2, g3, g4, t4, rfl, hg1, hg2, hg3, hg4, l5, h⟩
  · rintro ⟨g1, g2, g3, g4, g5, rfl, hg1, hg2, hg3, hg4, hg5⟩
    have l1 := hg1.1
    have l2 := hg2.1
    have l3 := hg3.1
    have l4 := hg4.1
    have l5 := hg5.1
    refine ⟨by simp only [List.length_append, List.length_cons]; omega, ?_⟩
    rw [uuid_group 0 8 d1 rfl _ (by simp only [List.length_append, List.length_cons]; omega)]
    refine ⟨g1, _, rfl, hg1, ?_⟩
    rw [uuid_group 9 4 d2 rfl _ (by simp only [List.length_append, List.length_cons]; omega)]
    refine ⟨g2, _, rfl, hg2, ?_⟩
    rw [uuid_group 14 4 d3 rfl _ (by simp only [List.length_append, List.length_cons]; omega)]
    refine ⟨g3, _, rfl, hg3, ?_⟩
    rw [uuid_group 19 4 d4 rfl _ (by simp only [List.length_append, List.length_cons]; omega)]
    refine ⟨g4, _, rfl, hg4, ?_⟩
    rw [uuidLoop_hex g5 _ (hyphen_range d5 l5)]
    exact hg5.2

theorem uuidOk_ascii {s : Bytes} (h : UuidOk s) : ∀ b ∈ s, b < 0x80 := by
  have h1 := ((uuid_bytes s).2 h).2
  intro b hb
  exact uuidLoop_ascii 0 _ h1 b.toNat (List.mem_map_of_mem hb)

/-- Java's UUID check accepts exactly the UUIDs, whatever the bytes of the string. -/
theorem uuid_ok (f : String) (s : Bytes) : uuid f (jstr s) = .ok () ↔ UuidOk s := by
  rw [uuid, check_ok, Bool.and_eq_true, beq_iff_eq]
  constructor
  · rintro ⟨h1, h2⟩
    have h3 := uuidLoop_ascii 0 _ h2
    unfold jstr at h3
    have h4 := ascii_of_runes (utf16_small h3)
    rw [jstr_ascii h4, List.length_map] at h1
    rw [jstr_ascii h4] at h2
    exact (uuid_bytes s).1 ⟨h1, h2⟩
  · intro h
    have h4 := uuidOk_ascii h
    rw [jstr_ascii h4, List.length_map]
    exact (uuid_bytes s).2 h

end PGV.Java
