import Verif.Core.Bytes

/-!
Facts about Go's UTF-8 decoding.
-/

namespace PGV

theorem UInt8.lt_iff_toNat (a b : UInt8) : a < b ↔ a.toNat < b.toNat := Iff.rfl
theorem UInt8.le_iff_toNat (a b : UInt8) : a ≤ b ↔ a.toNat ≤ b.toNat := Iff.rfl

theorem inRange_iff (lo hi b : UInt8) :
    inRange lo hi b = true ↔ lo.toNat ≤ b.toNat ∧ b.toNat ≤ hi.toNat := by
  simp [inRange, UInt8.le_iff_toNat]

/-- A decoding step consumes at least one byte, and at most four. -/
theorem decodeRune_width (s : Bytes) : 1 ≤ (decodeRune s).2 ∧ (decodeRune s).2 ≤ 4 := by
  unfold decodeRune
  repeat' (first | split | (constructor <;> decide) | dsimp only)

theorem runesFuel_enough : ∀ (n m : Nat) (s : Bytes), s.length ≤ n → s.length ≤ m →
    runesFuel n s = runesFuel m s := by
  intro n
  induction n with
  | zero =>
    intro m s h _
    have : s = [] := List.length_eq_zero_iff.1 (by omega)
    subst this
    cases m <;> rfl
  | succ n ih =>
    intro m s h1 h2
    cases s with
    | nil => cases m <;> rfl
    | cons b t =>
      cases m with
      | zero => simp at h2
      | succ m =>
        simp only [runesFuel]
        congr 1
        have := (decodeRune_width (b :: t)).1
        apply ih <;> simp only [List.length_drop, List.length_cons] at * <;> omega

theorem runes_nil : runes [] = [] := rfl

theorem runes_cons (b : UInt8) (t : Bytes) :
    runes (b :: t) = (decodeRune (b :: t)).1 :: runes ((b :: t).drop (decodeRune (b :: t)).2) := by
  unfold runes
  simp only [List.length_cons, runesFuel]
  congr 1
  have := (decodeRune_width (b :: t)).1
  apply runesFuel_enough <;> simp only [List.length_drop, List.length_cons] <;> omega

theorem decodeRune_ascii {b : UInt8} (t : Bytes) (h : b < 0x80) :
    decodeRune (b :: t) = (b.toNat, 1) := by
  simp [decodeRune, h]

theorem runes_cons_ascii {b : UInt8} (t : Bytes) (h : b < 0x80) :
    runes (b :: t) = b.toNat :: runes t := by
  rw [runes_cons, decodeRune_ascii t h]; rfl

theorem runes_ascii : ∀ s : Bytes, (∀ b ∈ s, b < 0x80) → runes s = s.map UInt8.toNat := by
  intro s
  induction s with
  | nil => intro _; rfl
  | cons b t ih =>
    intro h
    rw [runes_cons_ascii t (h b (by simp)), ih (fun c hc => h c (by simp [hc]))]
    rfl

/-- A lead byte that is not ASCII decodes to a rune that is not ASCII. -/
theorem decodeRune_nonascii {b : UInt8} (t : Bytes) (h : ¬ b < 0x80) :
    0x80 ≤ (decodeRune (b :: t)).1 := by
  unfold decodeRune
  simp only [h, if_false]
  split
  · rename_i h1
    rw [inRange_iff] at h1
    split
    · split
      · rename_i h2
        rw [inRange_iff] at h2
        have e1 : (0xC2 : UInt8).toNat = 0xC2 := rfl
        have e2 : (0x80 : UInt8).toNat = 0x80 := rfl
        simp only; omega
      · decide
    · decide
  · split
    · rename_i h1
      rw [inRange_iff] at h1
      split
      · rename_i b1 b2 rest
        by_cases h2 : (inRange (if b = 0xE0 then 0xA0 else 0x80) (if b = 0xED then 0x9F else 0xBF) b1 &&
            inRange 0x80 0xBF b2) = true
        · simp only [h2, if_true]
          rw [Bool.and_eq_true, inRange_iff, inRange_iff] at h2
          obtain ⟨h2, h3⟩ := h2
          have e1 : (0xE0 : UInt8).toNat = 0xE0 := rfl
          have e2 : (0x80 : UInt8).toNat = 0x80 := rfl
          have e3 : (0xA0 : UInt8).toNat = 0xA0 := rfl
          by_cases hb : b = 0xE0
          · subst hb
            simp only [if_true] at h2
            omega
          · have : b.toNat ≠ 0xE0 := fun h => hb (UInt8.toNat_inj.1 h)
            omega
        · simp only [h2, Bool.false_eq_true, if_false]; decide
      · decide
    · split
      · rename_i h1
        rw [inRange_iff] at h1
        split
        · rename_i b1 b2 b3 rest
          by_cases h2 : (inRange (if b = 0xF0 then 0x90 else 0x80)
              (if b = 0xF4 then 0x8F else 0xBF) b1 &&
              inRange 0x80 0xBF b2 && inRange 0x80 0xBF b3) = true
          · simp only [h2, if_true]
            rw [Bool.and_eq_true, Bool.and_eq_true, inRange_iff, inRange_iff, inRange_iff] at h2
            obtain ⟨⟨h2, h3⟩, h4⟩ := h2
            have e1 : (0xF0 : UInt8).toNat = 0xF0 := rfl
            have e2 : (0x80 : UInt8).toNat = 0x80 := rfl
            have e3 : (0x90 : UInt8).toNat = 0x90 := rfl
            by_cases hb : b = 0xF0
            · subst hb
              simp only [if_true] at h2
              omega
            · have : b.toNat ≠ 0xF0 := fun h => hb (UInt8.toNat_inj.1 h)
              omega
          · simp only [h2, Bool.false_eq_true, if_false]; decide
        · decide
      · decide

theorem runes_small : ∀ (n : Nat) (s : Bytes), s.length ≤ n → (∀ r ∈ runes s, r < 0x80) →
    ∀ b ∈ s, b < 0x80 := by
  intro n
  induction n with
  | zero =>
    intro s h _
    have : s = [] := List.length_eq_zero_iff.1 (by omega)
    subst this
    simp
  | succ n ih =>
    intro s hs h
    cases s with
    | nil => simp
    | cons b t =>
      by_cases hb : b < 0x80
      · rw [runes_cons_ascii t hb] at h
        intro c hc
        rcases List.mem_cons.1 hc with rfl | hc
        · exact hb
        · exact ih t (by simpa using hs) (fun r hr => h r (by simp [hr])) c hc
      · have h1 := decodeRune_nonascii t hb
        have h2 := h (decodeRune (b :: t)).1 (by rw [runes_cons]; simp)
        omega

/-- If all decoded runes are ASCII then all bytes are. -/
theorem ascii_of_runes {s : Bytes} (h : ∀ r ∈ runes s, r < 0x80) : ∀ b ∈ s, b < 0x80 :=
  runes_small s.length s (Nat.le_refl _) h

/-- A predicate on runes that only ASCII runes satisfy holds of all runes exactly when it holds of
all bytes. -/
theorem runes_all_iff {p : Nat → Prop} (hp : ∀ r, p r → r < 0x80) (s : Bytes) :
    (∀ r ∈ runes s, p r) ↔ ∀ b ∈ s, p b.toNat := by
  constructor
  · intro h
    have ha := ascii_of_runes (fun r hr => hp r (h r hr))
    rw [runes_ascii s ha] at h
    intro b hb
    exact h _ (List.mem_map_of_mem hb)
  · intro h
    have ha : ∀ b ∈ s, b < 0x80 := fun b hb => by
      rw [UInt8.lt_iff_toNat]; exact hp _ (h b hb)
    rw [runes_ascii s ha]
    intro r hr
    obtain ⟨b, hb, rfl⟩ := List.mem_map.1 hr
    exact h b hb

/-! ### Encoding and decoding round trip -/

/-- Unicode scalar values: code points that are not surrogates. -/
def IsScalar (c : Nat) : Prop := c < 0x110000 ∧ ¬ (0xD800 ≤ c ∧ c < 0xE000)

theorem ofNat_toNat {n : Nat} (h : n < 256) : (UInt8.ofNat n).toNat = n := by
  simp [UInt8.toNat_ofNat']; omega

theorem decode_encode (c : Nat) (h : IsScalar c) (t : Bytes) :
    decodeRune (encodeRune c ++ t) = (c, (encodeRune c).length) := by
  obtain ⟨h1, h2⟩ := h
  unfold encodeRune
  have hc : ¬ ((0xD800 ≤ c ∧ c < 0xE000) ∨ 0x110000 ≤ c) := by omega
  simp only [hc, if_false]
  split
  · rename_i h3
    have : UInt8.ofNat c < 0x80 := by
      rw [UInt8.lt_iff_toNat, ofNat_toNat (by omega)]; exact h3
    simp [decodeRune, this, ofNat_toNat (show c < 256 by omega)]
  · split
    · rename_i h3 h4
      have e0 : (UInt8.ofNat (0xC0 + c / 64)).toNat = 0xC0 + c / 64 := ofNat_toNat (by omega)
      have e1 : (UInt8.ofNat (0x80 + c % 64)).toNat = 0x80 + c % 64 := ofNat_toNat (by omega)
      have g0 : ¬ (UInt8.ofNat (0xC0 + c / 64) < 0x80) := by
        rw [UInt8.lt_iff_toNat, e0]
        show ¬ _ < 0x80
        omega
      have g1 : inRange 0xC2 0xDF (UInt8.ofNat (0xC0 + c / 64)) = true := by
        rw [inRange_iff, e0]
        show 0xC2 ≤ _ ∧ _ ≤ 0xDF
        omega
      have g2 : inRange 0x80 0xBF (UInt8.ofNat (0x80 + c % 64)) = true := by
        rw [inRange_iff, e1]
        show 0x80 ≤ _ ∧ _ ≤ 0xBF
        omega
      simp only [decodeRune, List.cons_append, List.nil_append, g0, g1, g2, if_true, if_false, e0, e1]
      ext
      · show _ = c
        simp only; omega
      · rfl
    · split
      · rename_i h3 h4 h5
        have e0 : (UInt8.ofNat (0xE0 + c / 4096)).toNat = 0xE0 + c / 4096 := ofNat_toNat (by omega)
        have e1 : (UInt8.ofNat (0x80 + c / 64 % 64)).toNat = 0x80 + c / 64 % 64 :=
          ofNat_toNat (by omega)
        have e2 : (UInt8.ofNat (0x80 + c % 64)).toNat = 0x80 + c % 64 := ofNat_toNat (by omega)
        have g0 : ¬ (UInt8.ofNat (0xE0 + c / 4096) < 0x80) := by
          rw [UInt8.lt_iff_toNat, e0]
          show ¬ _ < 0x80
          omega
        have g1 : inRange 0xC2 0xDF (UInt8.ofNat (0xE0 + c / 4096)) = false := by
          rw [Bool.eq_false_iff, Ne, inRange_iff, e0]
          show ¬ (0xC2 ≤ _ ∧ _ ≤ 0xDF)
          omega
        have g2 : inRange 0xE0 0xEF (UInt8.ofNat (0xE0 + c / 4096)) = true := by
          rw [inRange_iff, e0]
          show 0xE0 ≤ _ ∧ _ ≤ 0xEF
          omega
        have g3 : inRange (if UInt8.ofNat (0xE0 + c / 4096) = 0xE0 then 0xA0 else 0x80)
            (if UInt8.ofNat (0xE0 + c / 4096) = 0xED then 0x9F else 0xBF)
            (UInt8.ofNat (0x80 + c / 64 % 64)) = true := by
          rw [inRange_iff, e1]
          constructor
          · split
            · rename_i hh
              have : (0xE0 + c / 4096) = 0xE0 := by rw [← e0, hh]; rfl
              show 0xA0 ≤ _
              omega
            · show 0x80 ≤ _
              omega
          · split
            · rename_i hh
              have : (0xE0 + c / 4096) = 0xED := by rw [← e0, hh]; rfl
              show _ ≤ 0x9F
              omega
            · show _ ≤ 0xBF
              omega
        have g4 : inRange 0x80 0xBF (UInt8.ofNat (0x80 + c % 64)) = true := by
          rw [inRange_iff, e2]
          show 0x80 ≤ _ ∧ _ ≤ 0xBF
          omega
        simp only [decodeRune, List.cons_append, List.nil_append, g0, g1, g2, g3, g4, if_true,
          if_false, e0, e1, e2, Bool.and_self, Bool.false_eq_true]
        ext
        · show _ = c
          simp only; omega
        · rfl
      · rename_i h3 h4 h5
        have e0 : (UInt8.ofNat (0xF0 + c / 262144)).toNat = 0xF0 + c / 262144 :=
          ofNat_toNat (by omega)
        have e1 : (UInt8.ofNat (0x80 + c / 4096 % 64)).toNat = 0x80 + c / 4096 % 64 :=
          ofNat_toNat (by omega)
        have e2 : (UInt8.ofNat (0x80 + c / 64 % 64)).toNat = 0x80 + c / 64 % 64 :=
          ofNat_toNat (by omega)
        have e3 : (UInt8.ofNat (0x80 + c % 64)).toNat = 0x80 + c % 64 := ofNat_toNat (by omega)
        have g0 : ¬ (UInt8.ofNat (0xF0 + c / 262144) < 0x80) := by
          rw [UInt8.lt_iff_toNat, e0]
          show ¬ _ < 0x80
          omega
        have g1 : inRange 0xC2 0xDF (UInt8.ofNat (0xF0 + c / 262144)) = false := by
          rw [Bool.eq_false_iff, Ne, inRange_iff, e0]
          show ¬ (0xC2 ≤ _ ∧ _ ≤ 0xDF)
          omega
        have g2 : inRange 0xE0 0xEF (UInt8.ofNat (0xF0 + c / 262144)) = false := by
          rw [Bool.eq_false_iff, Ne, inRange_iff, e0]
          show ¬ (0xE0 ≤ _ ∧ _ ≤ 0xEF)
          omega
        have g2' : inRange 0xF0 0xF4 (UInt8.ofNat (0xF0 + c / 262144)) = true := by
          rw [inRange_iff, e0]
          show 0xF0 ≤ _ ∧ _ ≤ 0xF4
          omega
        have g3 : inRange (if UInt8.ofNat (0xF0 + c / 262144) = 0xF0 then 0x90 else 0x80)
            (if UInt8.ofNat (0xF0 + c / 262144) = 0xF4 then 0x8F else 0xBF)
            (UInt8.ofNat (0x80 + c / 4096 % 64)) = true := by
          rw [inRange_iff, e1]
          constructor
          · split
            · rename_i hh
              have : (0xF0 + c / 262144) = 0xF0 := by rw [← e0, hh]; rfl
              show 0x90 ≤ _
              omega
            · show 0x80 ≤ _
              omega
          · split
            · rename_i hh
              have : (0xF0 + c / 262144) = 0xF4 := by rw [← e0, hh]; rfl
              show _ ≤ 0x8F
              omega
            · show _ ≤ 0xBF
              omega
        have g4 : inRange 0x80 0xBF (UInt8.ofNat (0x80 + c / 64 % 64)) = true := by
          rw [inRange_iff, e2]
          show 0x80 ≤ _ ∧ _ ≤ 0xBF
          omega
        have g5 : inRange 0x80 0xBF (UInt8.ofNat (0x80 + c % 64)) = true := by
          rw [inRange_iff, e3]
          show 0x80 ≤ _ ∧ _ ≤ 0xBF
          omega
        simp only [decodeRune, List.cons_append, List.nil_append, g0, g1, g2, g2', g3, g4, g5,
          if_true, if_false, e0, e1, e2, e3, Bool.and_self, Bool.false_eq_true]
        ext
        · show _ = c
          simp only; omega
        · rfl

theorem encodeRune_ne_nil (c : Nat) : encodeRune c ≠ [] := by
  unfold encodeRune
  simp only
  repeat' (first | split | simp)

theorem runes_encode_cons (c : Nat) (h : IsScalar c) (t : Bytes) :
    runes (encodeRune c ++ t) = c :: runes t := by
  cases he : encodeRune c ++ t with
  | nil =>
    exfalso
    exact encodeRune_ne_nil c (List.append_eq_nil_iff.1 he).1
  | cons b t' =>
    rw [runes_cons, ← he, decode_encode c h t]
    simp

/-- Decoding the UTF-8 encoding of a list of scalar values gives the list back. -/
theorem runes_encode (cs : List Nat) (h : ∀ c ∈ cs, IsScalar c) :
    runes (cs.flatMap encodeRune) = cs := by
  induction cs with
  | nil => rfl
  | cons c cs ih =>
    rw [List.flatMap_cons, runes_encode_cons c (h c (by simp)),
      ih (fun d hd => h d (by simp [hd]))]

end PGV
