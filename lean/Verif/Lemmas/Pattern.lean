import Verif.Core.Pattern
import Verif.Checker.Check
import Verif.Go.Known
import Verif.Lemmas.Regex
import Verif.Lemmas.Utf8

namespace PGV
open PGV.Checker PGV.Go

/-- The uuid expression is what its pattern (templates/go/file.go:48) denotes. -/
theorem uuid_pattern : parsePattern
    (asc "^[0-9a-fA-F]{8}-[0-9a-fA-F]{4}-[0-9a-fA-F]{4}-[0-9a-fA-F]{4}-[0-9a-fA-F]{12}$") =
    some uuidRe := by decide +kernel

def nameClass : CClass := ⟨false, [(0x30, 0x39), (0x61, 0x7A), (0x41, 0x5A), (0x21, 0x21), (0x23, 0x23),
  (0x24, 0x24), (0x25, 0x25), (0x26, 0x26), (0x27, 0x27), (0x2A, 0x2A), (0x2B, 0x2E), (0x5E, 0x5E),
  (0x5F, 0x5F), (0x7C, 0x7C), (0x7E, 0x7E), (0x60, 0x60)]⟩

theorem name_pattern : parsePattern httpHeaderName =
    some (.seq [.opt (.chr 0x3A), .plus (.cls nameClass)]) := by decide +kernel

theorem value_pattern : parsePattern httpHeaderValue =
    some (.seq [.star (.cls ⟨true, [(0, 8), (0x0A, 0x1F), (0x7F, 0x7F)]⟩)]) := by decide +kernel

theorem string_pattern : parsePattern headerString =
    some (.seq [.star (.cls ⟨true, [(0, 0), (0x0A, 0x0A), (0x0D, 0x0D)]⟩)]) := by decide +kernel

/-- The bytes of a multi-byte (or invalid) sequence are not ASCII. -/
theorem decodeRune_take {b : UInt8} (t : Bytes) (h : ¬ b < 0x80) :
    ∀ c ∈ (b :: t).take (decodeRune (b :: t)).2, ¬ c < 0x80 := by
  have g : ∀ {lo hi c : UInt8}, inRange lo hi c = true → 0x80 ≤ lo → ¬ c < 0x80 := by
    intro lo hi c h1 h2
    simp only [inRange, Bool.and_eq_true, decide_eq_true_eq] at h1
    exact UInt8.not_lt.2 (UInt8.le_trans h2 h1.1)
  unfold decodeRune
  simp only [h, if_false]
  split
  · split
    · split
      · rename_i h2
        intro c hc
        simp at hc
        rcases hc with rfl | rfl
        · exact h
        · exact g h2 (by decide)
      · intro c hc; simp at hc; exact hc ▸ h
    · intro c hc; simp at hc; exact hc ▸ h
  · split
    · split
      · rename_i b1 b2 rest
        by_cases h2 : (inRange (if b = 0xE0 then 0xA0 else 0x80) (if b = 0xED then 0x9F else 0xBF) b1 &&
            inRange 0x80 0xBF b2) = true
        · simp only [h2, if_true]
          rw [Bool.and_eq_true] at h2
          intro c hc
          simp at hc
          rcases hc with rfl | rfl | rfl
          · exact h
          · exact g h2.1 (by split <;> decide)
          · exact g h2.2 (by decide)
        · simp only [h2, Bool.false_eq_true, if_false]
          intro c hc; simp at hc; exact hc ▸ h
      · intro c hc; simp at hc; exact hc ▸ h
    · split
      · split
        · rename_i b1 b2 b3 rest
          by_cases h2 : (inRange (if b = 0xF0 then 0x90 else 0x80)
              (if b = 0xF4 then 0x8F else 0xBF) b1 &&
              inRange 0x80 0xBF b2 && inRange 0x80 0xBF b3) = true
          · simp only [h2, if_true]
            rw [Bool.and_eq_true, Bool.and_eq_true] at h2
            intro c hc
            simp at hc
            rcases hc with rfl | rfl | rfl | rfl
            · exact h
            · exact g h2.1.1 (by split <;> decide)
            · exact g h2.1.2 (by decide)
            · exact g h2.2 (by decide)
          · simp only [h2, Bool.false_eq_true, if_false]
            intro c hc; simp at hc; exact hc ▸ h
        · intro c hc; simp at hc; exact hc ▸ h
      · intro c hc; simp at hc; exact hc ▸ h

/-- ASCII runes of a string are its ASCII bytes. -/
theorem mem_runes_ascii (r : Nat) (hr : r < 0x80) : ∀ (n : Nat) (s : Bytes), s.length ≤ n →
    (r ∈ runes s ↔ ∃ b ∈ s, b.toNat = r) := by
  intro n
  induction n with
  | zero =>
    intro s h
    have : s = [] := List.length_eq_zero_iff.1 (by omega)
    subst this
    simp [runes_nil]
  | succ n ih =>
    intro s hs
    cases s with
    | nil => simp [runes_nil]
    | cons b t =>
      by_cases hb : b < 0x80
      · rw [runes_cons_ascii t hb, List.mem_cons, ih t (by simpa using hs)]
        simp [eq_comm]
      · have h1 := decodeRune_nonascii t hb
        have h2 := decodeRune_take t hb
        have h3 := decodeRune_width (b :: t)
        rw [runes_cons, List.mem_cons, ih _ (by simp at hs ⊢; omega)]
        have hne : r ≠ (decodeRune (b :: t)).1 := by omega
        simp only [hne, false_or]
        constructor
        · rintro ⟨c, hc, rfl⟩
          exact ⟨c, List.mem_of_mem_drop hc, rfl⟩
        · rintro ⟨c, hc, rfl⟩
          refine ⟨c, ?_, rfl⟩
          rw [← List.take_append_drop (decodeRune (b :: t)).2 (b :: t), List.mem_append] at hc
          rcases hc with hc | hc
          · exact absurd (show c < 0x80 from hr) (h2 c hc)
          · exact hc

/-- A predicate that holds of all runes above ASCII holds of all runes exactly when it holds of all
bytes. -/
theorem runes_all_iff' {p : Nat → Prop} (hp : ∀ r, 0x80 ≤ r → p r) (s : Bytes) :
    (∀ r ∈ runes s, p r) ↔ ∀ b ∈ s, p b.toNat := by
  constructor
  · intro h b hb
    by_cases hlt : b.toNat < 0x80
    · exact h _ ((mem_runes_ascii _ hlt _ s (Nat.le_refl _)).2 ⟨b, hb, rfl⟩)
    · exact hp _ (by omega)
  · intro h r hr
    by_cases hlt : r < 0x80
    · obtain ⟨b, hb, rfl⟩ := (mem_runes_ascii _ hlt _ s (Nat.le_refl _)).1 hr
      exact h b hb
    · exact hp _ (by omega)

theorem matches_one {a : Re} {s : List Nat} : Re.Matches (.seq [a]) s ↔ Re.Matches a s := by
  rw [Re.matches_seq_cons]
  constructor
  · rintro ⟨s1, s2, rfl, h1, h2⟩
    rw [show Re.seq [] = .eps from rfl, Re.matches_eps] at h2
    subst h2; simpa using h1
  · intro h
    exact ⟨s, [], by simp, h, .eps⟩

theorem matches_two {a b : Re} {s : List Nat} : Re.Matches (.seq [a, b]) s ↔
    ∃ s1 s2, s = s1 ++ s2 ∧ Re.Matches a s1 ∧ Re.Matches b s2 := by
  rw [Re.matches_seq_cons]
  simp only [matches_one]

end PGV
