import Verif.Lemmas.Literal
import Verif.Core.Time

/-!
C40: the Go literals the generator writes denote the values of the rules.
-/

set_option linter.unusedSimpArgs false

namespace PGV.Props
open PGV PGV.Go PGV.Spec

/-! ### Strings -/

theorem piece_escaped (isPrint : Nat → Bool)
    (hp : ∀ r, isPrint r = true → 0x20 ≤ r ∧ r ≠ 0xFEFF) {r : Nat} (hs : IsScalar r) :
    Piece (escapedRune isPrint r) (encodeRune r) := by
  unfold escapedRune
  by_cases h1 : r = 0x22 ∨ r = 0x5C
  · rw [if_pos h1]
    rcases h1 with rfl | rfl <;>
    exact ⟨by simp, by decide, fun rest => by simp [stringChar, escape]; rfl⟩
  rw [if_neg h1]
  rw [not_or] at h1
  by_cases h2 : isPrint r = true
  · rw [if_pos h2]
    have := hp r h2
    exact piece_self hs h1.1 h1.2 (by omega) (by omega) this.2
  rw [if_neg h2]
  cases h3 : simpleEscape r with
  | some l =>
    simp only
    unfold simpleEscape at h3
    have key : (r = 7 ∧ l = 0x61) ∨ (r = 8 ∧ l = 0x62) ∨ (r = 12 ∧ l = 0x66) ∨ (r = 10 ∧ l = 0x6E) ∨
        (r = 13 ∧ l = 0x72) ∨ (r = 9 ∧ l = 0x74) ∨ (r = 11 ∧ l = 0x76) := by
      repeat' split at h3
      all_goals first | (injection h3 with h3; subst h3; simp_all; done) | simp at h3
    rcases key with ⟨rfl, rfl⟩ | ⟨rfl, rfl⟩ | ⟨rfl, rfl⟩ | ⟨rfl, rfl⟩ | ⟨rfl, rfl⟩ | ⟨rfl, rfl⟩ | ⟨rfl, rfl⟩ <;>
    exact ⟨by simp, by decide, fun rest => by simp [stringChar, escape]; rfl⟩
  | none =>
    simp only
    split
    · rename_i h4
      have h5 : r < 0x80 := by omega
      have e : encodeRune r = [UInt8.ofNat r] := by
        have := encode_one (b := UInt8.ofNat r) (by rw [ofNat_toNat (by omega)]; exact h5)
        rwa [ofNat_toNat (by omega)] at this
      rw [e]
      exact piece_hex (by omega)
    · split
      · rename_i h5
        exact piece_u h5 hs
      · exact piece_U hs

theorem quoteBody_pieces (isPrint : Nat → Bool)
    (hp : ∀ r, isPrint r = true → 0x20 ≤ r ∧ r ≠ 0xFEFF) :
    ∀ (n : Nat) (s : Bytes), s.length ≤ n → ∃ l : List (Bytes × Bytes),
      (∀ x ∈ l, Piece x.1 x.2) ∧ quoteBody isPrint n s = l.flatMap (·.1) ∧ s = l.flatMap (·.2) := by
  intro n
  induction n with
  | zero =>
    intro s h
    have : s = [] := List.length_eq_zero_iff.1 (by omega)
    subst this
    exact ⟨[], by simp, rfl, rfl⟩
  | succ n ih =>
    intro s h
    cases s with
    | nil => exact ⟨[], by simp, rfl, rfl⟩
    | cons b t =>
      have hw := (decodeRune_width (b :: t)).1
      obtain ⟨l, hl, h1, h2⟩ := ih ((b :: t).drop (decodeRune (b :: t)).2) (by
        simp only [List.length_drop, List.length_cons] at h ⊢; omega)
      by_cases hv : (decodeRune (b :: t)).1 = runeError ∧ (decodeRune (b :: t)).2 = 1
      · refine ⟨(0x5C :: 0x78 :: hexDigits 2 b.toNat, [b]) :: l, ?_, ?_, ?_⟩
        · intro x hx
          rcases List.mem_cons.1 hx with rfl | hx
          · have := piece_hex (r := b.toNat) (UInt8.toNat_lt b)
            rw [ofNat_eq rfl] at this
            exact this
          · exact hl x hx
        · rw [quoteBody, if_pos hv, h1]; rfl
        · rw [List.flatMap_cons, ← h2, hv.2]; rfl
      · obtain ⟨hs, he⟩ := encode_decode b t hv
        refine ⟨(escapedRune isPrint (decodeRune (b :: t)).1, encodeRune (decodeRune (b :: t)).1) :: l,
          ?_, ?_, ?_⟩
        · intro x hx
          rcases List.mem_cons.1 hx with rfl | hx
          · exact piece_escaped isPrint hp hs
          · exact hl x hx
        · rw [quoteBody, if_neg hv, h1]; rfl
        · rw [List.flatMap_cons, ← h2]; exact he

/-- **C40** The literal written for a string denotes exactly that string: prefixes, suffixes,
patterns, constants and the keys of string lookup tables. The characters Go regards as printable are
a parameter: all that matters is that control characters and byte order marks are not among them. -/
theorem C40_string (isPrint : Nat → Bool)
    (hp : ∀ r, isPrint r = true → 0x20 ≤ r ∧ r ≠ 0xFEFF) (s : Bytes) :
    stringLit (litString isPrint s) = some s := by
  obtain ⟨l, hl, h1, h2⟩ := quoteBody_pieces isPrint hp s.length s (Nat.le_refl _)
  unfold litString
  rw [h1, stringLit_pieces l _ _ hl, ← h2]

/-! ### Byte slices -/

theorem hexAll_hexX (b : UInt8) (c : UInt8) (rest : Bytes) (hc : hexVal c = none) :
    hexAll 0 (hexX b ++ c :: rest) = (b.toNat, c :: rest) := by
  have hb := UInt8.toNat_lt b
  unfold hexX
  split
  · rename_i h
    simp only [List.cons_append, List.nil_append, hexAll, hexVal_upper h, hc]
    congr 1; omega
  · simp only [List.cons_append, List.nil_append, hexAll, hexVal_upper (n := b.toNat / 16) (by omega),
      hexVal_upper (n := b.toNat % 16) (by omega), hc]
    congr 1; omega

theorem byteLit_hexX (b c : UInt8) (rest : Bytes) (hc : hexVal c = none) :
    byteLit (0x30 :: 0x78 :: hexX b ++ c :: rest) = some (b, c :: rest) := by
  have hb := UInt8.toNat_lt b
  have hx := hexAll_hexX b c rest hc
  obtain ⟨d, t, hd, hv⟩ : ∃ d t, hexX b = d :: t ∧ (hexVal d).isSome = true := by
    unfold hexX
    split
    · exact ⟨_, _, rfl, by rw [hexVal_upper (by assumption)]; rfl⟩
    · exact ⟨_, _, rfl, by rw [hexVal_upper (by omega)]; rfl⟩
  rw [hd] at hx ⊢
  simp only [List.cons_append] at hx ⊢
  simp only [byteLit, hv, if_true, hx]
  rw [if_pos hb, ofNat_eq rfl]

theorem sliceElems_join : ∀ (x : Bytes) (n : Nat), x ≠ [] → x.length ≤ n →
    sliceElems n (joinComma (x.map fun b => 0x30 :: 0x78 :: hexX b) ++ [0x7D]) = some x := by
  intro x
  induction x with
  | nil => intro n h; exact absurd rfl h
  | cons b x ih =>
    intro n _ hn
    cases n with
    | zero => simp at hn
    | succ n =>
      cases x with
      | nil =>
        simp only [List.map_cons, List.map_nil, joinComma]
        rw [sliceElems, byteLit_hexX b 0x7D [] (by decide)]
        rfl
      | cons c x =>
        have := ih n (by simp) (by simp at hn ⊢; omega)
        simp only [List.map_cons, joinComma, List.append_assoc] at this ⊢
        rw [sliceElems]
        have e := byteLit_hexX b 0x2C (0x20 :: (joinComma ((0x30 :: 0x78 :: hexX c) ::
          List.map (fun b => 0x30 :: 0x78 :: hexX b) x) ++ [0x7D])) (by decide)
        simp only [List.cons_append, List.nil_append] at e this ⊢
        rw [e]
        simp only
        rw [this]
        rfl

theorem join_length (x : Bytes) :
    x.length ≤ (joinComma (x.map fun b => 0x30 :: 0x78 :: hexX b)).length := by
  induction x with
  | nil => simp
  | cons b x ih =>
    cases x with
    | nil => simp [joinComma]
    | cons c x =>
      simp only [List.map_cons, joinComma, List.length_append, List.length_cons] at ih ⊢
      omega

/-- **C40** The literal written for a bytes constant, prefix, suffix or substring denotes exactly
those bytes. -/
theorem C40_bytes (x : Bytes) : sliceLit (litBytes x) = some x := by
  unfold litBytes sliceType
  simp only [List.cons_append, List.nil_append, sliceLit]
  cases x with
  | nil => simp [joinComma]
  | cons b x =>
    rw [if_neg, sliceElems_join (b :: x) _ (by simp)]
    · have := join_length (b :: x)
      simp only [List.length_append] at this ⊢
      omega
    · intro e
      have := congrArg List.length e
      have hj := join_length (b :: x)
      simp only [List.length_append, List.length_cons, List.length_nil] at this hj
      omega

/-! ### Keys of bytes lookup tables -/

theorem piece_hexX {b : UInt8} (h : 16 ≤ b.toNat) : Piece (0x5C :: 0x78 :: hexX b) [b] := by
  have hb := UInt8.toNat_lt b
  refine ⟨by simp, by simp, fun rest => ?_⟩
  have e : hexN 2 0 (hexX b ++ rest) = some (b.toNat, rest) := by
    unfold hexX
    rw [if_neg (by omega)]
    simp only [List.cons_append, List.nil_append, hexN, hexVal_upper (n := b.toNat / 16) (by omega),
      hexVal_upper (n := b.toNat % 16) (by omega)]
    congr 2
    omega
  simp only [List.cons_append, stringChar, escape]
  simp only [e, Option.map_some]
  rw [ofNat_eq rfl]
  rfl

/-- **C40, partial** The key written for an entry of a bytes lookup table (`in`, `not_in`) denotes
the entry when all its bytes are at least 16. Missing: `C40_small_byte`. -/
theorem C40_table_key_partial (x : Bytes) (h : ∀ b ∈ x, 16 ≤ b.toNat) :
    stringLit (byteStr x) = some x := by
  unfold byteStr
  rw [stringLit_pieces x _ (fun b => [b]) (fun b hb => piece_hexX (h b hb))]
  congr 1
  induction x with
  | nil => rfl
  | cons b x ih => rw [List.flatMap_cons, ih (fun c hc => h c (by simp [hc]))]; rfl

theorem small_fails {b : UInt8} (h : b.toNat < 16) (rest : Bytes)
    (hr : ∃ c t, rest = c :: t ∧ hexVal c = none) :
    stringChar (0x5C :: 0x78 :: hexX b ++ rest) = none := by
  obtain ⟨c, t, rfl, hc⟩ := hr
  unfold hexX
  rw [if_pos h]
  simp [stringChar, escape, hexN, hexVal_upper h, hc]

/-- **C40** (negation) With a smaller byte, the key is no Go literal at all: only one digit is
written, and the generated file does not compile. -/
theorem C40_small_byte (x : Bytes) (h : ∃ b ∈ x, b.toNat < 16) : stringLit (byteStr x) = none := by
  have key : ∀ (x : Bytes) (n : Nat), (∃ b ∈ x, b.toNat < 16) →
      stringBody n (x.flatMap (fun b => 0x5C :: 0x78 :: hexX b) ++ [0x22]) = none := by
    intro x
    induction x with
    | nil => rintro n ⟨b, hb, _⟩; simp at hb
    | cons a x ih =>
      intro n hx
      cases n with
      | zero => rfl
      | succ n =>
        by_cases ha : a.toNat < 16
        · rw [List.flatMap_cons, List.append_assoc, stringBody, if_neg (by simp), small_fails ha]
          cases x with
          | nil => exact ⟨0x22, [], rfl, by decide⟩
          | cons c x => exact ⟨0x5C, _, rfl, by decide⟩
        · obtain ⟨b, hb, hlt⟩ := hx
          have hbx : b ∈ x := by
            rcases List.mem_cons.1 hb with rfl | hb
            · exact absurd hlt ha
            · exact hb
          rw [List.flatMap_cons, List.append_assoc, (piece_hexX (by omega)).step, ih n ⟨b, hbx, hlt⟩]
          rfl
  exact key x _ h

/-- Both cases occur; the second is the list entry `\x00`. -/
example : (∀ b ∈ ([0x66, 0x6F, 0xFF] : Bytes), 16 ≤ b.toNat) ∧ (∃ b ∈ ([0x66, 0] : Bytes), b.toNat < 16) := by
  decide

/-- The hypothesis of `C40_string` is met by the printable ASCII characters and everything from
U+0080 but the byte order mark. -/
example : ∃ isPrint : Nat → Bool, isPrint 0x61 = true ∧
    ∀ r, isPrint r = true → 0x20 ≤ r ∧ r ≠ 0xFEFF :=
  ⟨fun r => decide (0x20 ≤ r ∧ r ≠ 0xFEFF), by decide, fun r h => of_decide_eq_true h⟩

end PGV.Props
