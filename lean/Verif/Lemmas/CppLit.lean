import Verif.Spec.CppPortable
import Verif.Lemmas.LitText
import Verif.Lemmas.CppLib

/-!
What a C++ compiler reads in the string literals that the generator writes.
-/

set_option linter.unusedSimpArgs false
set_option autoImplicit false

namespace PGV.Cpp
open PGV PGV.Spec PGV.Spec.Cpp
open PGV.Go (hexX lowerDigit upperDigit litString escapedRune quoteBody hexDigits simpleEscape)

/-- The text, up to and with the closing quote, stands for `v`. -/
def Reads (t v : Bytes) : Prop := ∃ n, n ≤ t.length ∧ readBody n t = some v

theorem Reads.nil : Reads [0x22] [] := ⟨1, by simp, by simp [readBody]⟩

theorem Reads.step {tok rest v w : Bytes} (ht : tok ≠ []) (hc : readChar (tok ++ rest) = some (v, rest))
    (h : Reads rest w) : Reads (tok ++ rest) (v ++ w) := by
  obtain ⟨n, hn, e⟩ := h
  refine ⟨n + 1, ?_, ?_⟩
  · have := List.length_pos_iff.2 ht
    simp only [List.length_append]; omega
  · rw [readBody]
    have hne : tok ++ rest ≠ [0x22] := by
      intro h; rw [h] at hc; simp [readChar] at hc
    rw [if_neg hne, hc]
    simp only [e, Option.map_some]

theorem readBody_mono : ∀ (n : Nat) (t v : Bytes), readBody n t = some v →
    readBody (n + 1) t = some v := by
  intro n
  induction n with
  | zero => intro t v h; simp [readBody] at h
  | succ n ih =>
    intro t v h
    rw [readBody] at h ⊢
    by_cases ht : t = [0x22]
    · rw [if_pos ht] at h ⊢; exact h
    · rw [if_neg ht] at h ⊢
      cases hs : readChar t with
      | none => simp [hs] at h
      | some p =>
        simp only [hs] at h ⊢
        cases hb : readBody n p.2 with
        | none => simp [hb] at h
        | some w => simp only [hb] at h; rw [ih _ _ hb]; exact h

theorem Reads.lit {t v : Bytes} (h : Reads t v) : readLit (0x22 :: t) = some v := by
  obtain ⟨n, hn, e⟩ := h
  show readBody t.length t = some v
  have key : ∀ m, n ≤ m → readBody m t = some v := by
    intro m hm
    induction hm with
    | refl => exact e
    | step _ ih => exact readBody_mono _ _ _ ih
  exact key _ hn

theorem hexDigit_none (b : UInt8) : hexDigit b = none ↔ ¬ HexDigit b := by
  have : ∀ n : Fin 256, hexDigit (UInt8.ofNat n) = none ↔
      ¬ ((0x30 ≤ UInt8.ofNat n ∧ UInt8.ofNat n ≤ 0x39) ∨ (0x41 ≤ UInt8.ofNat n ∧ UInt8.ofNat n ≤ 0x46) ∨
        (0x61 ≤ UInt8.ofNat n ∧ UInt8.ofNat n ≤ 0x66)) := by
    decide +kernel
  have h := this ⟨b.toNat, b.toNat_lt⟩
  simp only [UInt8.ofNat_toNat] at h
  exact h

theorem hexDigit_lower {n : Nat} (h : n < 16) : hexDigit (lowerDigit n) = some n := by
  have : ∀ n : Fin 16, hexDigit (lowerDigit n.val) = some n.val := by decide
  exact this ⟨n, h⟩

theorem hexDigit_upper {n : Nat} (h : n < 16) : hexDigit (upperDigit n) = some n := by
  have : ∀ n : Fin 16, hexDigit (upperDigit n.val) = some n.val := by decide
  exact this ⟨n, h⟩

/-- The text does not go on with a hexadecimal digit. -/
def Stops (t : Bytes) : Prop := ∀ b t', t = b :: t' → hexDigit b = none

theorem hexRun_stop {t : Bytes} (h : Stops t) (acc : Nat) : hexRun acc t = (acc, t) := by
  cases t with
  | nil => rfl
  | cons b t => rw [hexRun, h b t rfl]

theorem readChar_x (ds t : Bytes) (v : Nat) (hne : ds ≠ []) (hv : v < 256)
    (h : hexRun 0 (ds ++ t) = (v, t)) : readChar (0x5C :: 0x78 :: ds ++ t) = some ([UInt8.ofNat v], t) := by
  have hl := List.length_pos_iff.2 hne
  show readChar (0x5C :: 0x78 :: (ds ++ t)) = _
  simp only [readChar]
  rw [if_neg (by decide), if_pos trivial]
  simp only [show escapeLetter 0x78 = none from by decide, h, if_true]
  rw [if_pos]
  refine ⟨?_, hv⟩
  simp only [List.length_append]; omega

theorem readChar_hex1 {n : Nat} (d : UInt8) (hd : hexDigit d = some n) (hn : n < 256) {t : Bytes}
    (h : Stops t) : readChar (0x5C :: 0x78 :: [d] ++ t) = some ([UInt8.ofNat n], t) := by
  refine readChar_x [d] t n (by simp) hn ?_
  simp only [List.cons_append, List.nil_append, hexRun, hd]
  rw [hexRun_stop h]; simp

theorem readChar_hex2 {m n : Nat} (d e : UInt8) (hd : hexDigit d = some m) (he : hexDigit e = some n)
    (hn : m * 16 + n < 256) {t : Bytes} (h : Stops t) :
    readChar (0x5C :: 0x78 :: [d, e] ++ t) = some ([UInt8.ofNat (m * 16 + n)], t) := by
  refine readChar_x [d, e] t (m * 16 + n) (by simp) hn ?_
  simp only [List.cons_append, List.nil_append, hexRun, hd, he]
  rw [hexRun_stop h]; simp

/-! ### Bytes -/

theorem readChar_hexx (b : UInt8) {t : Bytes} (h : Stops t) :
    readChar (0x5C :: 0x78 :: hexx b ++ t) = some ([b], t) := by
  have hb := b.toNat_lt
  unfold hexx
  split
  · rw [readChar_hex1 _ (hexDigit_lower (by assumption)) (by omega) h, ofNat_eq rfl]
  · rw [readChar_hex2 _ _ (hexDigit_lower (n := b.toNat / 16) (by omega))
      (hexDigit_lower (n := b.toNat % 16) (by omega)) (by omega) h, ofNat_eq (b := b) (by omega)]

theorem readChar_hexX (b : UInt8) {t : Bytes} (h : Stops t) :
    readChar (0x5C :: 0x78 :: hexX b ++ t) = some ([b], t) := by
  have hb := b.toNat_lt
  unfold hexX
  split
  · rw [readChar_hex1 _ (hexDigit_upper (by assumption)) (by omega) h, ofNat_eq rfl]
  · rw [readChar_hex2 _ _ (hexDigit_upper (n := b.toNat / 16) (by omega))
      (hexDigit_upper (n := b.toNat % 16) (by omega)) (by omega) h, ofNat_eq (b := b) (by omega)]

theorem reads_escapes (g : UInt8 → Bytes)
    (hg : ∀ b t, Stops t → readChar (0x5C :: 0x78 :: g b ++ t) = some ([b], t)) (x : Bytes) :
    Reads (x.flatMap (fun b => 0x5C :: 0x78 :: g b) ++ [0x22]) x := by
  induction x with
  | nil => exact Reads.nil
  | cons b x ih =>
    rw [List.flatMap_cons, List.append_assoc]
    refine Reads.step (v := [b]) (w := x) (by simp) (hg b _ ?_) ih
    intro c t e
    cases x with
    | nil => simp at e; rw [← e.1]; decide
    | cons y ys =>
      simp at e; rw [← e.1]; decide

/-- The literal for a byte string denotes it. -/
theorem read_litBytes (x : Bytes) : readLit (litBytes x) = some x :=
  Reads.lit (reads_escapes hexx (fun b _ h => readChar_hexx b h) x)

theorem read_byteStr (x : Bytes) : readLit (byteStr x) = some x :=
  Reads.lit (reads_escapes hexX (fun b _ h => readChar_hexX b h) x)

theorem cStr_self {s : Bytes} (h : NoNul s) : cStr s = s := by
  unfold cStr
  induction s with
  | nil => rfl
  | cons b s ih =>
    have hb : b ≠ 0 := by rintro rfl; exact h (by simp)
    rw [List.takeWhile_cons_of_pos (by simpa using hb), ih fun hx => h (by simp [hx])]

theorem bytesVal_eq {s : Bytes} (h : NoNul s) : bytesVal s = s := by
  unfold bytesVal; rw [read_litBytes]; exact cStr_self h

theorem bytesKey_eq {s : Bytes} (h : NoNul s) : bytesKey s = s := by
  unfold bytesKey; rw [read_byteStr]; exact cStr_self h

/-- In general it is cut at the first NUL. -/
theorem bytesVal_cut (s : Bytes) : bytesVal s = s.takeWhile (· != 0) := by
  unfold bytesVal; rw [read_litBytes]; rfl

/-! ### Text -/

theorem readChar_plain {b : UInt8} (h1 : b ≠ 0x22) (h2 : b ≠ 0x0A) (h3 : b ≠ 0x5C) (t : Bytes) :
    readChar ([b] ++ t) = some ([b], t) := by
  simp [readChar, h1, h2, h3]

theorem reads_plain (bs t w : Bytes) (h : ∀ b ∈ bs, b ≠ 0x22 ∧ b ≠ 0x0A ∧ b ≠ 0x5C) (ht : Reads t w) :
    Reads (bs ++ t) (bs ++ w) := by
  induction bs with
  | nil => exact ht
  | cons b bs ih =>
    obtain ⟨h1, h2, h3⟩ := h b (by simp)
    exact Reads.step (tok := [b]) (v := [b]) (by simp) (readChar_plain h1 h2 h3 _)
      (ih fun x hx => h x (by simp [hx]))

theorem encode_plain {r : Nat} (hs : IsScalar r) (h1 : r ≠ 0x22) (h2 : r ≠ 0x0A) (h3 : r ≠ 0x5C) :
    ∀ b ∈ encodeRune r, b ≠ 0x22 ∧ b ≠ 0x0A ∧ b ≠ 0x5C := by
  intro b hb
  have ne : ∀ c : UInt8, c.toNat < 0x80 → r ≠ c.toNat → b ≠ c := by
    rintro c hc hne rfl
    rcases encode_bytes hs b hb with ⟨_, h⟩ | ⟨_, h⟩
    · exact hne h.symm
    · omega
  exact ⟨ne 0x22 (by decide) h1, ne 0x0A (by decide) h2, ne 0x5C (by decide) h3⟩

theorem hexExact_digits (n r acc : Nat) (rest : Bytes) :
    hexExact n acc (hexDigits n r ++ rest) = some (acc * 16 ^ n + r % 16 ^ n, rest) := by
  induction n generalizing acc with
  | zero => simp [hexExact, hexDigits, Nat.mod_one]
  | succ n ih =>
    rw [hexDigits, List.cons_append, hexExact, hexDigit_lower (Nat.mod_lt _ (by decide))]
    simp only
    rw [ih]
    congr 2
    have e : r % 16 ^ (n + 1) = r / 16 ^ n % 16 * 16 ^ n + r % 16 ^ n := by
      rw [Nat.pow_succ, Nat.mod_mul]
      rw [Nat.add_comm, Nat.mul_comm (16 ^ n)]
    rw [e, Nat.pow_succ, Nat.add_mul, Nat.mul_assoc, Nat.mul_comm 16]
    omega

theorem readChar_u {r : Nat} (h : r < 0x10000) (rest : Bytes) :
    readChar (0x5C :: 0x75 :: hexDigits 4 r ++ rest) = some (encodeRune r, rest) := by
  have e := hexExact_digits 4 r 0 rest
  show readChar (0x5C :: 0x75 :: (hexDigits 4 r ++ rest)) = _
  simp only [readChar]
  rw [if_neg (by decide), if_pos trivial]
  simp only [show escapeLetter 0x75 = none from by decide, e, if_true]
  rw [if_neg (by decide), Nat.zero_mul, Nat.zero_add, Nat.mod_eq_of_lt (by omega)]
  rfl

theorem readChar_U {r : Nat} (h : r < 0x110000) (rest : Bytes) :
    readChar (0x5C :: 0x55 :: hexDigits 8 r ++ rest) = some (encodeRune r, rest) := by
  have e := hexExact_digits 8 r 0 rest
  show readChar (0x5C :: 0x55 :: (hexDigits 8 r ++ rest)) = _
  simp only [readChar]
  rw [if_neg (by decide), if_pos trivial]
  simp only [show escapeLetter 0x55 = none from by decide, e, if_true]
  rw [if_neg (by decide), if_neg (by decide), Nat.zero_mul, Nat.zero_add, Nat.mod_eq_of_lt (by omega)]
  rfl

theorem readChar_letter (l v : UInt8) (h : escapeLetter l = some v) (rest : Bytes) :
    readChar ([0x5C, l] ++ rest) = some ([v], rest) := by
  show readChar (0x5C :: l :: rest) = _
  simp only [readChar]
  rw [if_neg (by decide), if_pos trivial]
  simp only [h]

theorem simple_letter {r : Nat} {l : UInt8} (h : simpleEscape r = some l) :
    r < 0x20 ∧ escapeLetter l = some (UInt8.ofNat r) := by
  unfold simpleEscape at h
  repeat' split at h
  all_goals first
    | (subst r; injection h with h; subst h; exact ⟨by decide, by decide⟩)
    | (simp at h; done)

/-- No character of the text that is written `\xhh` goes before a hexadecimal digit. -/
def Apart (s : Bytes) : Prop := ∀ a c d t, s = a ++ c :: d :: t → HexEscaped c → ¬ HexDigit d

theorem stops_rest (isPrint : Nat → Bool) (cs : List Nat) (h : ∀ c ∈ cs, ScalarValue c)
    (ha : ∀ d t, cs.flatMap encodeRune = d :: t → ¬ HexDigit d) :
    Stops (cs.flatMap (escapedRune isPrint) ++ [0x22]) := by
  intro b t e
  cases cs with
  | nil => simp at e; rw [← e.1]; decide
  | cons c cs =>
    have hs : IsScalar c := h c (by simp)
    obtain ⟨b0, t0, e0, -⟩ := first_byte hs
    have h0 : ¬ HexDigit b0 := ha b0 (t0 ++ cs.flatMap encodeRune) (by rw [List.flatMap_cons, e0]; rfl)
    have hq : ∀ u : Bytes, escapedRune isPrint c = 0x5C :: u → hexDigit b = none := by
      intro u hu
      rw [List.flatMap_cons, hu] at e
      simp at e
      rw [← e.1]; decide
    by_cases h1 : c = 0x22 ∨ c = 0x5C
    · exact hq [UInt8.ofNat c] (by unfold escapedRune; rw [if_pos h1])
    by_cases h2 : isPrint c = true
    · have : escapedRune isPrint c = encodeRune c := by unfold escapedRune; rw [if_neg h1, if_pos h2]
      rw [List.flatMap_cons, this, e0] at e
      simp at e
      rw [← e.1]; exact (hexDigit_none _).2 h0
    · cases h3 : simpleEscape c with
      | some l =>
        exact hq [l] (by unfold escapedRune; rw [if_neg h1, if_neg h2, h3])
      | none =>
        by_cases h4 : c < 0x20 ∨ c = 0x7F
        · exact hq _ (by unfold escapedRune; rw [if_neg h1, if_neg h2, h3]; simp only; rw [if_pos h4])
        · by_cases h5 : c < 0x10000
          · exact hq _ (by unfold escapedRune; rw [if_neg h1, if_neg h2, h3]; simp only; rw [if_neg h4, if_pos h5])
          · exact hq _ (by unfold escapedRune; rw [if_neg h1, if_neg h2, h3]; simp only; rw [if_neg h4, if_neg h5])

theorem reads_text (isPrint : Nat → Bool) (hp : ∀ r, isPrint r = true → 0x20 ≤ r) (cs : List Nat)
    (h : ∀ c ∈ cs, ScalarValue c) (ha : Apart (cs.flatMap encodeRune)) :
    Reads (cs.flatMap (escapedRune isPrint) ++ [0x22]) (cs.flatMap encodeRune) := by
  induction cs with
  | nil => exact Reads.nil
  | cons c cs ih =>
    have hs : IsScalar c := h c (by simp)
    have ih := ih (fun x hx => h x (by simp [hx])) (by
      intro a x d t e
      exact ha (encodeRune c ++ a) x d t (by rw [List.flatMap_cons, e, List.append_assoc]))
    rw [List.flatMap_cons, List.flatMap_cons, List.append_assoc]
    by_cases h1 : c = 0x22 ∨ c = 0x5C
    · have e : escapedRune isPrint c = [0x5C, UInt8.ofNat c] := by unfold escapedRune; rw [if_pos h1]
      rw [e, encode_small (by omega)]
      refine Reads.step (by simp) (readChar_letter _ _ ?_ _) ih
      rcases h1 with rfl | rfl <;> decide
    by_cases h2 : isPrint c = true
    · have e : escapedRune isPrint c = encodeRune c := by unfold escapedRune; rw [if_neg h1, if_pos h2]
      rw [e]
      have := hp c h2
      exact reads_plain _ _ _ (encode_plain hs (by omega) (by omega) (by omega)) ih
    · cases h3 : simpleEscape c with
      | some l =>
        have e : escapedRune isPrint c = [0x5C, l] := by unfold escapedRune; rw [if_neg h1, if_neg h2, h3]
        obtain ⟨hl, hv⟩ := simple_letter h3
        rw [e, encode_small (by omega)]
        exact Reads.step (by simp) (readChar_letter _ _ hv _) ih
      | none =>
        by_cases h4 : c < 0x20 ∨ c = 0x7F
        · have e : escapedRune isPrint c = 0x5C :: 0x78 :: hexDigits 2 c := by
            unfold escapedRune; rw [if_neg h1, if_neg h2, h3]; simp only; rw [if_pos h4]
          have ec : encodeRune c = [UInt8.ofNat c] := encode_small (by omega)
          have hst := stops_rest isPrint cs (fun x hx => h x (by simp [hx])) (by
            intro d t ed
            refine ha [] (UInt8.ofNat c) d t (by rw [List.flatMap_cons, ec, ed]; rfl) ?_
            unfold HexEscaped
            rw [ofNat_toNat (by omega)]
            have := simple_none h3
            omega)
          rw [e, ec]
          refine Reads.step (by simp) ?_ ih
          have := readChar_hex2 (lowerDigit (c / 16 % 16)) (lowerDigit (c % 16))
            (hexDigit_lower (Nat.mod_lt _ (by decide))) (hexDigit_lower (Nat.mod_lt _ (by decide)))
            (by omega) hst
          rw [show c / 16 % 16 * 16 + c % 16 = c by omega] at this
          simpa [hexDigits, Nat.div_one] using this
        · by_cases h5 : c < 0x10000
          · have e : escapedRune isPrint c = 0x5C :: 0x75 :: hexDigits 4 c := by
              unfold escapedRune; rw [if_neg h1, if_neg h2, h3]; simp only; rw [if_neg h4, if_pos h5]
            rw [e]
            exact Reads.step (by simp) (readChar_u h5 _) ih
          · have e : escapedRune isPrint c = 0x5C :: 0x55 :: hexDigits 8 c := by
              unfold escapedRune; rw [if_neg h1, if_neg h2, h3]; simp only; rw [if_neg h4, if_neg h5]
            rw [e]
            exact Reads.step (by simp) (readChar_U hs.1 _) ih

/-- The literal for portable text denotes it. -/
theorem read_litString (isPrint : Nat → Bool) (hp : ∀ r, isPrint r = true → 0x20 ≤ r) {s : Bytes}
    (h : CText s) : readLit (litString isPrint s) = some s := by
  obtain ⟨⟨cs, hcs, rfl⟩, ha⟩ := h
  unfold litString
  rw [quoteBody_encode isPrint cs hcs _ (Nat.le_refl _)]
  exact Reads.lit (reads_text isPrint hp cs hcs ha)

theorem strChars_eq (isPrint : Nat → Bool) (hp : ∀ r, isPrint r = true → 0x20 ≤ r) {s : Bytes}
    (h : CText s) : strChars isPrint s = s := by
  unfold strChars; rw [read_litString isPrint hp h]; rfl

theorem strVal_eq (isPrint : Nat → Bool) (hp : ∀ r, isPrint r = true → 0x20 ≤ r) {s : Bytes}
    (h : CString s) : strVal isPrint s = s := by
  unfold strVal; rw [strChars_eq isPrint hp h.1]; exact cStr_self h.2

end PGV.Cpp
