import Verif.Go.Literal
import Verif.Spec.Literal
import Verif.Lemmas.Utf8

set_option linter.unusedSimpArgs false

namespace PGV
open PGV.Go PGV.Spec

theorem ofNat_eq {b : UInt8} {n : Nat} (h : n = b.toNat) : UInt8.ofNat n = b := by
  subst h; simp

theorem encode_one {b : UInt8} (h : b.toNat < 0x80) : encodeRune b.toNat = [b] := by
  unfold encodeRune
  have hc : ¬ ((0xD800 ≤ b.toNat ∧ b.toNat < 0xE000) ∨ 0x110000 ≤ b.toNat) := by omega
  simp only [hc, if_false, h, if_true]
  rw [ofNat_eq rfl]

theorem encode_two {b0 b1 : UInt8} (h0 : 0xC2 ≤ b0.toNat ∧ b0.toNat ≤ 0xDF)
    (h1 : 0x80 ≤ b1.toNat ∧ b1.toNat ≤ 0xBF) :
    encodeRune ((b0.toNat - 0xC0) * 64 + (b1.toNat - 0x80)) = [b0, b1] := by
  generalize hr : (b0.toNat - 0xC0) * 64 + (b1.toNat - 0x80) = r
  unfold encodeRune
  have hc : ¬ ((0xD800 ≤ r ∧ r < 0xE000) ∨ 0x110000 ≤ r) := by omega
  simp only [hc, if_false]
  rw [if_neg (by omega), if_pos (by omega), ofNat_eq (b := b0) (by omega), ofNat_eq (b := b1) (by omega)]

theorem encode_three {b0 b1 b2 : UInt8} (h0 : 0xE0 ≤ b0.toNat ∧ b0.toNat ≤ 0xEF)
    (h1 : 0x80 ≤ b1.toNat ∧ b1.toNat ≤ 0xBF) (h2 : 0x80 ≤ b2.toNat ∧ b2.toNat ≤ 0xBF)
    (hlo : b0.toNat = 0xE0 → 0xA0 ≤ b1.toNat) (hhi : b0.toNat = 0xED → b1.toNat ≤ 0x9F) :
    encodeRune ((b0.toNat - 0xE0) * 4096 + (b1.toNat - 0x80) * 64 + (b2.toNat - 0x80)) = [b0, b1, b2] ∧
    IsScalar ((b0.toNat - 0xE0) * 4096 + (b1.toNat - 0x80) * 64 + (b2.toNat - 0x80)) := by
  generalize hr : (b0.toNat - 0xE0) * 4096 + (b1.toNat - 0x80) * 64 + (b2.toNat - 0x80) = r
  have hc : ¬ ((0xD800 ≤ r ∧ r < 0xE000) ∨ 0x110000 ≤ r) := by
    by_cases h : b0.toNat = 0xED
    · have := hhi h; omega
    · omega
  refine ⟨?_, by unfold IsScalar; omega⟩
  have hl : 0x800 ≤ r := by
    by_cases h : b0.toNat = 0xE0
    · have := hlo h; omega
    · omega
  unfold encodeRune
  simp only [hc, if_false]
  rw [if_neg (by omega), if_neg (by omega), if_pos (by omega), ofNat_eq (b := b0) (by omega),
    ofNat_eq (b := b1) (by omega), ofNat_eq (b := b2) (by omega)]

theorem encode_four {b0 b1 b2 b3 : UInt8} (h0 : 0xF0 ≤ b0.toNat ∧ b0.toNat ≤ 0xF4)
    (h1 : 0x80 ≤ b1.toNat ∧ b1.toNat ≤ 0xBF) (h2 : 0x80 ≤ b2.toNat ∧ b2.toNat ≤ 0xBF)
    (h3 : 0x80 ≤ b3.toNat ∧ b3.toNat ≤ 0xBF)
    (hlo : b0.toNat = 0xF0 → 0x90 ≤ b1.toNat) (hhi : b0.toNat = 0xF4 → b1.toNat ≤ 0x8F) :
    encodeRune ((b0.toNat - 0xF0) * 262144 + (b1.toNat - 0x80) * 4096 + (b2.toNat - 0x80) * 64
      + (b3.toNat - 0x80)) = [b0, b1, b2, b3] ∧
    IsScalar ((b0.toNat - 0xF0) * 262144 + (b1.toNat - 0x80) * 4096 + (b2.toNat - 0x80) * 64
      + (b3.toNat - 0x80)) := by
  generalize hr : (b0.toNat - 0xF0) * 262144 + (b1.toNat - 0x80) * 4096 + (b2.toNat - 0x80) * 64
      + (b3.toNat - 0x80) = r
  have hl : 0x10000 ≤ r := by
    by_cases h : b0.toNat = 0xF0
    · have := hlo h; omega
    · omega
  have hu : r < 0x110000 := by
    by_cases h : b0.toNat = 0xF4
    · have := hhi h; omega
    · omega
  have hc : ¬ ((0xD800 ≤ r ∧ r < 0xE000) ∨ 0x110000 ≤ r) := by omega
  refine ⟨?_, by unfold IsScalar; omega⟩
  unfold encodeRune
  simp only [hc, if_false]
  rw [if_neg (by omega), if_neg (by omega), if_neg (by omega), ofNat_eq (b := b0) (by omega),
    ofNat_eq (b := b1) (by omega), ofNat_eq (b := b2) (by omega), ofNat_eq (b := b3) (by omega)]

/-- A valid encoding is the encoding of the rune it decodes to. -/
theorem encode_decode (b : UInt8) (t : Bytes)
    (h : ¬ ((decodeRune (b :: t)).1 = runeError ∧ (decodeRune (b :: t)).2 = 1)) :
    IsScalar (decodeRune (b :: t)).1 ∧
      b :: t = encodeRune (decodeRune (b :: t)).1 ++ (b :: t).drop (decodeRune (b :: t)).2 := by
  unfold decodeRune at h ⊢
  by_cases h0 : b < 0x80
  · simp only [h0, if_true]
    rw [UInt8.lt_iff_toNat] at h0
    have h0 : b.toNat < 0x80 := h0
    rw [encode_one h0]
    exact ⟨by unfold IsScalar; omega, rfl⟩
  simp only [h0, if_false] at h ⊢
  by_cases h1 : inRange 0xC2 0xDF b = true
  · simp only [h1, if_true] at h ⊢
    rw [inRange_iff] at h1
    have h1 : 0xC2 ≤ b.toNat ∧ b.toNat ≤ 0xDF := h1
    cases t with
    | nil => simp at h
    | cons b1 t =>
      simp only at h ⊢
      by_cases g : inRange 0x80 0xBF b1 = true
      · simp only [g, if_true] at h ⊢
        rw [inRange_iff] at g
        have g : 0x80 ≤ b1.toNat ∧ b1.toNat ≤ 0xBF := g
        rw [encode_two h1 g]
        exact ⟨by unfold IsScalar; omega, rfl⟩
      · simp [g] at h
  simp only [h1, if_false, Bool.false_eq_true] at h ⊢
  by_cases h2 : inRange 0xE0 0xEF b = true
  · simp only [h2, if_true] at h ⊢
    rw [inRange_iff] at h2
    have h2 : 0xE0 ≤ b.toNat ∧ b.toNat ≤ 0xEF := h2
    match t with
    | [] => simp at h
    | [_] => simp at h
    | b1 :: b2 :: t =>
      simp only at h ⊢
      by_cases g : (inRange (if b = 0xE0 then 0xA0 else 0x80) (if b = 0xED then 0x9F else 0xBF) b1 &&
          inRange 0x80 0xBF b2) = true
      · simp only [g, if_true] at h ⊢
        rw [Bool.and_eq_true, inRange_iff, inRange_iff] at g
        obtain ⟨⟨ga, gb⟩, gc⟩ := g
        have gc : 0x80 ≤ b2.toNat ∧ b2.toNat ≤ 0xBF := gc
        have hlo : b.toNat = 0xE0 → 0xA0 ≤ b1.toNat := by
          intro e
          have : b = 0xE0 := UInt8.toNat_inj.1 e
          rw [if_pos this] at ga; exact ga
        have hhi : b.toNat = 0xED → b1.toNat ≤ 0x9F := by
          intro e
          have : b = 0xED := UInt8.toNat_inj.1 e
          rw [if_pos this] at gb; exact gb
        have g1 : 0x80 ≤ b1.toNat ∧ b1.toNat ≤ 0xBF := by
          constructor
          · split at ga
            · exact Nat.le_trans (by decide) ga
            · exact ga
          · split at gb
            · exact Nat.le_trans gb (by decide)
            · exact gb
        obtain ⟨he, hs⟩ := encode_three h2 g1 gc hlo hhi
        rw [he]
        exact ⟨hs, rfl⟩
      · simp [g] at h
  simp only [h2, if_false, Bool.false_eq_true] at h ⊢
  by_cases h3 : inRange 0xF0 0xF4 b = true
  · simp only [h3, if_true] at h ⊢
    rw [inRange_iff] at h3
    have h3 : 0xF0 ≤ b.toNat ∧ b.toNat ≤ 0xF4 := h3
    match t with
    | [] => simp at h
    | [_] => simp at h
    | [_, _] => simp at h
    | b1 :: b2 :: b3 :: t =>
      simp only at h ⊢
      by_cases g : (inRange (if b = 0xF0 then 0x90 else 0x80) (if b = 0xF4 then 0x8F else 0xBF) b1 &&
          inRange 0x80 0xBF b2 && inRange 0x80 0xBF b3) = true
      · simp only [g, if_true] at h ⊢
        rw [Bool.and_eq_true, Bool.and_eq_true, inRange_iff, inRange_iff, inRange_iff] at g
        obtain ⟨⟨⟨ga, gb⟩, gc⟩, gd⟩ := g
        have gc : 0x80 ≤ b2.toNat ∧ b2.toNat ≤ 0xBF := gc
        have gd : 0x80 ≤ b3.toNat ∧ b3.toNat ≤ 0xBF := gd
        have hlo : b.toNat = 0xF0 → 0x90 ≤ b1.toNat := by
          intro e
          have : b = 0xF0 := UInt8.toNat_inj.1 e
          rw [if_pos this] at ga; exact ga
        have hhi : b.toNat = 0xF4 → b1.toNat ≤ 0x8F := by
          intro e
          have : b = 0xF4 := UInt8.toNat_inj.1 e
          rw [if_pos this] at gb; exact gb
        have g1 : 0x80 ≤ b1.toNat ∧ b1.toNat ≤ 0xBF := by
          constructor
          · split at ga
            · exact Nat.le_trans (by decide) ga
            · exact ga
          · split at gb
            · exact Nat.le_trans gb (by decide)
            · exact gb
        obtain ⟨he, hs⟩ := encode_four h3 g1 gc gd hlo hhi
        rw [he]
        exact ⟨hs, rfl⟩
      · simp [g] at h
  · simp [h3] at h

theorem hexVal_lower {n : Nat} (h : n < 16) : hexVal (lowerDigit n) = some n := by
  have : ∀ n : Fin 16, hexVal (lowerDigit n.val) = some n.val := by decide
  exact this ⟨n, h⟩

theorem hexVal_upper {n : Nat} (h : n < 16) : hexVal (upperDigit n) = some n := by
  have : ∀ n : Fin 16, hexVal (upperDigit n.val) = some n.val := by decide
  exact this ⟨n, h⟩

theorem hexN_digits (n r acc : Nat) (rest : Bytes) :
    hexN n acc (hexDigits n r ++ rest) = some (acc * 16 ^ n + r % 16 ^ n, rest) := by
  induction n generalizing acc with
  | zero => simp [hexN, hexDigits, Nat.mod_one]
  | succ n ih =>
    rw [hexDigits, List.cons_append, hexN, hexVal_lower (Nat.mod_lt _ (by decide))]
    simp only
    rw [ih]
    congr 2
    have e : r % 16 ^ (n + 1) = r / 16 ^ n % 16 * 16 ^ n + r % 16 ^ n := by
      rw [Nat.pow_succ, Nat.mod_mul]
      rw [Nat.add_comm, Nat.mul_comm (16 ^ n)]
    rw [e, Nat.pow_succ, Nat.add_mul, Nat.mul_assoc, Nat.mul_comm 16]
    omega

/-- A piece of source text that stands for `v` in any literal. -/
def Piece (tok v : Bytes) : Prop :=
  tok ≠ [] ∧ tok ≠ [0x22] ∧ ∀ rest, stringChar (tok ++ rest) = some (v, rest)

theorem stringChar_quote (rest : Bytes) : stringChar (0x22 :: rest) = none := by
  simp [stringChar]

theorem Piece.step {tok v : Bytes} (h : Piece tok v) (n : Nat) (rest : Bytes) :
    stringBody (n + 1) (tok ++ rest) = (stringBody n rest).map (v ++ ·) := by
  rw [stringBody]
  have hne : tok ++ rest ≠ [0x22] := by
    intro e
    have := h.2.2 rest
    rw [e, stringChar_quote] at this
    simp at this
  rw [if_neg hne, h.2.2 rest]

theorem stringBody_mono : ∀ (n : Nat) (t v : Bytes), stringBody n t = some v →
    stringBody (n + 1) t = some v := by
  intro n
  induction n with
  | zero => intro t v h; simp [stringBody] at h
  | succ n ih =>
    intro t v h
    rw [stringBody] at h ⊢
    by_cases ht : t = [0x22]
    · rw [if_pos ht] at h ⊢; exact h
    · rw [if_neg ht] at h ⊢
      cases hs : stringChar t with
      | none => simp [hs] at h
      | some p =>
        simp only [hs] at h ⊢
        cases hb : stringBody n p.2 with
        | none => simp [hb] at h
        | some w => simp only [hb] at h; rw [ih _ _ hb]; exact h

theorem stringBody_mono' {n m : Nat} {t v : Bytes} (h : stringBody n t = some v) (hm : n ≤ m) :
    stringBody m t = some v := by
  induction hm with
  | refl => exact h
  | step _ ih => exact stringBody_mono _ _ _ ih

/-- A literal made of pieces stands for what the pieces stand for. -/
theorem stringLit_pieces {α : Type} (l : List α) (tok v : α → Bytes)
    (h : ∀ x ∈ l, Piece (tok x) (v x)) :
    stringLit (0x22 :: l.flatMap tok ++ [0x22]) = some (l.flatMap v) := by
  have hb : stringBody (l.length + 1) (l.flatMap tok ++ [0x22]) = some (l.flatMap v) := by
    induction l with
    | nil => simp [stringBody]
    | cons a l ih =>
      rw [List.flatMap_cons, List.append_assoc, List.length_cons, (h a (by simp)).step,
        ih (fun x hx => h x (by simp [hx]))]
      rfl
  have hl : l.length ≤ (l.flatMap tok).length := by
    clear hb
    induction l with
    | nil => simp
    | cons a l ih =>
      have := ih (fun x hx => h x (by simp [hx]))
      have h1 : 1 ≤ (tok a).length := List.length_pos_iff.2 (h a (by simp)).1
      simp only [List.flatMap_cons, List.length_append, List.length_cons]; omega
  show stringBody (l.flatMap tok ++ [0x22]).length (l.flatMap tok ++ [0x22]) = _
  refine stringBody_mono' hb ?_
  simp only [List.length_append, List.length_cons, List.length_nil]; omega

theorem piece_hex {r : Nat} (h : r < 256) : Piece (0x5C :: 0x78 :: hexDigits 2 r) [UInt8.ofNat r] := by
  refine ⟨by simp, by simp, fun rest => ?_⟩
  have e := hexN_digits 2 r 0 rest
  simp only [List.cons_append, stringChar, escape]
  simp only [e, Option.map_some, Nat.zero_mul, Nat.zero_add]
  rw [Nat.mod_eq_of_lt (by omega)]
  rfl

theorem isCodePoint_of {r : Nat} (h : IsScalar r) : isCodePoint r = true := by
  unfold IsScalar at h
  unfold isCodePoint
  simp [h.1]; omega

theorem piece_u {r : Nat} (h : r < 0x10000) (hs : IsScalar r) :
    Piece (0x5C :: 0x75 :: hexDigits 4 r) (encodeRune r) := by
  refine ⟨by simp, by simp, fun rest => ?_⟩
  have e := hexN_digits 4 r 0 rest
  simp only [List.cons_append, stringChar, escape]
  simp only [e, Option.bind_some, Nat.zero_mul, Nat.zero_add]
  rw [Nat.mod_eq_of_lt (by omega)]
  simp only [isCodePoint_of hs, if_true]
  rfl

theorem piece_U {r : Nat} (hs : IsScalar r) :
    Piece (0x5C :: 0x55 :: hexDigits 8 r) (encodeRune r) := by
  refine ⟨by simp, by simp, fun rest => ?_⟩
  have e := hexN_digits 8 r 0 rest
  simp only [List.cons_append, stringChar, escape]
  simp only [e, Option.bind_some, Nat.zero_mul, Nat.zero_add]
  rw [Nat.mod_eq_of_lt (by have := hs.1; omega)]
  simp only [isCodePoint_of hs, if_true]
  rfl

theorem first_byte {r : Nat} (hs : IsScalar r) : ∃ b t, encodeRune r = b :: t ∧
    ((r < 0x80 ∧ b.toNat = r) ∨ (0x80 ≤ r ∧ 0x80 ≤ b.toNat)) := by
  unfold IsScalar at hs
  unfold encodeRune
  have hc : ¬ ((0xD800 ≤ r ∧ r < 0xE000) ∨ 0x110000 ≤ r) := by omega
  simp only [hc, if_false]
  split
  · exact ⟨_, _, rfl, .inl ⟨by assumption, ofNat_toNat (by omega)⟩⟩
  · split
    · exact ⟨_, _, rfl, .inr ⟨by omega, by rw [ofNat_toNat (by omega)]; omega⟩⟩
    · split
      · exact ⟨_, _, rfl, .inr ⟨by omega, by rw [ofNat_toNat (by omega)]; omega⟩⟩
      · exact ⟨_, _, rfl, .inr ⟨by omega, by rw [ofNat_toNat (by omega)]; omega⟩⟩

theorem encode_len {r : Nat} (h : (encodeRune r).length = 1) (hs : IsScalar r) : r < 0x80 := by
  unfold IsScalar at hs
  unfold encodeRune at h
  have hc : ¬ ((0xD800 ≤ r ∧ r < 0xE000) ∨ 0x110000 ≤ r) := by omega
  simp only [hc, if_false] at h
  split at h
  · assumption
  · split at h
    · simp at h
    · split at h <;> simp at h

theorem piece_self {r : Nat} (hs : IsScalar r) (hq : r ≠ 0x22) (hb : r ≠ 0x5C) (hn : r ≠ 0x0A)
    (h0 : r ≠ 0) (hbom : r ≠ 0xFEFF) : Piece (encodeRune r) (encodeRune r) := by
  obtain ⟨b, t, he, hr⟩ := first_byte hs
  have ne : ∀ c : UInt8, c.toNat < 0x80 → r ≠ c.toNat → b ≠ c := by
    rintro c hc hne rfl
    rcases hr with ⟨_, h⟩ | ⟨_, h⟩
    · exact hne h.symm
    · omega
  refine ⟨by rw [he]; simp, ?_, fun rest => ?_⟩
  · rw [he]; intro e; injection e with e1 e2; exact ne 0x22 (by decide) hq e1
  · have hd := decode_encode r hs rest
    have hw : ¬ (r = runeError ∧ (encodeRune r).length = 1) := by
      rintro ⟨h1, h2⟩
      have := encode_len h2 hs
      rw [h1] at this
      exact absurd this (by decide)
    have hl : (encodeRune r ++ rest).take (encodeRune r).length = encodeRune r := List.take_left' rfl
    have hdr : (encodeRune r ++ rest).drop (encodeRune r).length = rest := List.drop_left' rfl
    have hgen : ∀ s, encodeRune r ++ rest = s → ∀ b' t', s = b' :: t' → b' = b →
        stringChar s = some (encodeRune r, rest) := by
      intro s hs' b' t' hb' hbb
      subst hb'
      subst hbb
      rw [hs'] at hd hl hdr
      simp only [stringChar, hd, ne 0x22 (by decide) hq, ne 0x0A (by decide) hn,
        ne 0x5C (by decide) hb, or_self, if_false, hw, hbom, h0]
      rw [hl, hdr]
    exact hgen _ rfl b (t ++ rest) (by rw [he]; rfl) rfl

end PGV
