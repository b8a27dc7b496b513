import Verif.Lemmas.Literal
import Verif.Spec.Portable

/-!
Text in quoted literals, rune by rune.
-/

set_option linter.unusedSimpArgs false
set_option autoImplicit false

namespace PGV.Cpp
open PGV PGV.Spec
open PGV.Go (hexX lowerDigit upperDigit litString escapedRune quoteBody hexDigits simpleEscape)

theorem quoteBody_encode (isPrint : Nat → Bool) (cs : List Nat) (h : ∀ c ∈ cs, ScalarValue c) (n : Nat)
    (hn : (cs.flatMap encodeRune).length ≤ n) :
    quoteBody isPrint n (cs.flatMap encodeRune) = cs.flatMap (escapedRune isPrint) := by
  induction cs generalizing n with
  | nil => cases n <;> rfl
  | cons c cs ih =>
    have hs : IsScalar c := h c (by simp)
    obtain ⟨b, t, e, -⟩ := first_byte hs
    have hl : (encodeRune c).length = t.length + 1 := by rw [e]; rfl
    simp only [List.flatMap_cons, List.length_append] at hn
    have hd := decode_encode c hs (cs.flatMap encodeRune)
    have hw : ¬ (c = runeError ∧ (encodeRune c).length = 1) := by
      rintro ⟨h1, h2⟩
      have := encode_len h2 hs
      rw [h1] at this
      exact absurd this (by decide)
    have hdr : (encodeRune c ++ cs.flatMap encodeRune).drop (encodeRune c).length = cs.flatMap encodeRune :=
      List.drop_left' rfl
    cases n with
    | zero => omega
    | succ n =>
      rw [List.flatMap_cons, List.flatMap_cons]
      have key : ∀ s, encodeRune c ++ cs.flatMap encodeRune = s → ∀ b' t', s = b' :: t' →
          quoteBody isPrint (n + 1) s =
            escapedRune isPrint c ++ cs.flatMap (escapedRune isPrint) := by
        intro s hs' b' t' hb'
        subst hb'
        rw [hs'] at hd hdr
        rw [quoteBody, hd, if_neg hw, hdr, ih (fun x hx => h x (by simp [hx])) n (by omega)]
      exact key _ rfl b (t ++ cs.flatMap encodeRune) (by rw [e]; rfl)

theorem encode_bytes {r : Nat} (hs : IsScalar r) (b : UInt8) (hb : b ∈ encodeRune r) :
    (r < 0x80 ∧ b.toNat = r) ∨ (0x80 ≤ r ∧ 0x80 ≤ b.toNat) := by
  unfold IsScalar at hs
  unfold encodeRune at hb
  have hc : ¬ ((0xD800 ≤ r ∧ r < 0xE000) ∨ 0x110000 ≤ r) := by omega
  simp only [hc, if_false] at hb
  split at hb
  · simp only [List.mem_singleton] at hb
    subst hb
    exact .inl ⟨by assumption, ofNat_toNat (by omega)⟩
  · right
    refine ⟨by omega, ?_⟩
    split at hb
    · simp only [List.mem_cons, List.not_mem_nil, or_false] at hb
      rcases hb with rfl | rfl <;> rw [ofNat_toNat (by omega)] <;> omega
    · split at hb
      · simp only [List.mem_cons, List.not_mem_nil, or_false] at hb
        rcases hb with rfl | rfl | rfl <;> rw [ofNat_toNat (by omega)] <;> omega
      · simp only [List.mem_cons, List.not_mem_nil, or_false] at hb
        rcases hb with rfl | rfl | rfl | rfl <;> rw [ofNat_toNat (by omega)] <;> omega

theorem encode_small {r : Nat} (h : r < 0x80) : encodeRune r = [UInt8.ofNat r] := by
  have hc : ¬ ((0xD800 ≤ r ∧ r < 0xE000) ∨ 0x110000 ≤ r) := by omega
  unfold encodeRune
  simp only [hc, if_false, h, if_true]

theorem simple_none {r : Nat} (h : simpleEscape r = none) : ¬ (7 ≤ r ∧ r ≤ 13) := by
  unfold simpleEscape at h
  repeat' split at h
  all_goals first | (simp at h; done) | omega

end PGV.Cpp
