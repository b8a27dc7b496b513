import Verif.Harness.Programs
import Verif.Lemmas.Utf8
import Verif.Spec.Portable

/-!
What the test programs write and the executor reads (Harness/Programs.lean).
-/

set_option linter.unusedSimpArgs false
set_option autoImplicit false

namespace PGV.Harness
open PGV PGV.Spec

theorem runes_scalar : ∀ (n : Nat) (s : Bytes), s.length ≤ n → ∀ c ∈ runes s, ScalarValue c := by
  intro n
  induction n with
  | zero =>
    intro s hs c hc
    have : s = [] := List.eq_nil_of_length_eq_zero (by omega)
    subst this
    simp [runes_nil] at hc
  | succ n ih =>
    intro s hs c hc
    cases s with
    | nil => simp [runes_nil] at hc
    | cons b t =>
      rw [runes_cons] at hc
      rcases List.mem_cons.1 hc with rfl | hc
      · unfold decodeRune ScalarValue
        simp only [inRange, Bool.and_eq_true, decide_eq_true_eq, UInt8.le_iff_toNat, UInt8.lt_iff_toNat,
          ← UInt8.toNat_inj]
        repeat' split
        all_goals
          simp_all [runeError]
          try omega
      · refine ih _ ?_ c hc
        have := (decodeRune_width (b :: t)).1
        simp only [List.length_drop, List.length_cons] at hs ⊢
        omega

theorem validUtf8_iff (s : Bytes) : validUtf8 s = true ↔ Utf8 s := by
  unfold validUtf8 Utf8
  simp only [decide_eq_true_eq]
  constructor
  · intro h
    exact ⟨runes s, runes_scalar _ s (Nat.le_refl _), h.symm⟩
  · rintro ⟨cs, hc, rfl⟩
    rw [runes_encode cs (fun c h => by
      have := hc c h
      simpa [IsScalar, ScalarValue] using this)]

/-! ### Numbers -/

theorem varint_small {n : Nat} (h : n < 128) : varint n = [UInt8.ofNat n] := by
  unfold varint; simp [h]

theorem varint_large {n : Nat} (h : ¬ n < 128) : varint n = UInt8.ofNat (128 + n % 128) :: varint (n / 128) := by
  rw [varint]; simp [h]

theorem readVarint_varint : ∀ (k n : Nat) (s : Bytes), n < 128 ^ k → readVarint (k + 1) (varint n ++ s) = some (n, s) := by
  intro k
  induction k with
  | zero =>
    intro n s h
    have : n = 0 := by simpa using h
    subst this
    rw [varint_small (by omega)]
    simp [readVarint, UInt8.lt_iff_toNat]
  | succ k ih =>
    intro n s h
    by_cases hn : n < 128
    · rw [varint_small hn]
      have : (UInt8.ofNat n).toNat = n := ofNat_toNat (by omega)
      simp [readVarint, UInt8.lt_iff_toNat, this, hn]
    · rw [varint_large hn]
      have h1 : (UInt8.ofNat (128 + n % 128)).toNat = 128 + n % 128 := ofNat_toNat (by omega)
      have h2 : n / 128 < 128 ^ k := by
        rw [Nat.div_lt_iff_lt_mul (by omega)]
        simpa [Nat.pow_succ] using h
      simp only [List.cons_append, readVarint, UInt8.lt_iff_toNat, h1, ih _ _ h2]
      rw [if_neg (by simp)]
      simp only [Option.some.injEq, Prod.mk.injEq, and_true]
      omega

theorem readVarint_lt : ∀ (k : Nat) (s t : Bytes) (n : Nat), readVarint k s = some (n, t) → t.length < s.length := by
  intro k
  induction k with
  | zero => intro s t n h; simp [readVarint] at h
  | succ k ih =>
    intro s t n h
    cases s with
    | nil => simp [readVarint] at h
    | cons b s =>
      cases k with
      | zero =>
        simp only [readVarint] at h
        split at h
        · simp only [Option.some.injEq, Prod.mk.injEq] at h
          simp [← h.2]
        · simp at h
      | succ k =>
        simp only [readVarint] at h
        split at h
        · simp only [Option.some.injEq, Prod.mk.injEq] at h
          simp [← h.2]
        · cases hr : readVarint (k + 1) s with
          | none => simp [hr] at h
          | some p =>
            obtain ⟨v, u⟩ := p
            simp only [hr, Option.some.injEq, Prod.mk.injEq] at h
            have := ih s u v hr
            rw [← h.2]
            simp; omega

theorem readBytes_lt (s b t : Bytes) (h : readBytes s = some (b, t)) : t.length < s.length := by
  unfold readBytes at h
  cases hr : readVarint 10 s with
  | none => simp [hr] at h
  | some p =>
    obtain ⟨v, u⟩ := p
    have := readVarint_lt 10 s u v hr
    simp only [hr] at h
    split at h
    · simp only [Option.some.injEq, Prod.mk.injEq] at h
      rw [← h.2, List.length_drop]
      omega
    · simp at h

theorem readField_lt (r r' : TestResult) (s t : Bytes) (h : readField r s = some (r', t)) : t.length < s.length := by
  unfold readField at h
  cases hr : readVarint 10 s with
  | none => simp [hr] at h
  | some p =>
    obtain ⟨key, u⟩ := p
    have h1 := readVarint_lt 10 s u key hr
    simp only [hr] at h
    split at h
    · simp at h
    split at h
    · cases hv : readVarint 10 u with
      | none => simp [hv] at h
      | some p =>
        obtain ⟨v, w⟩ := p
        have h2 := readVarint_lt 10 u w v hv
        simp only [hv, Option.some.injEq, Prod.mk.injEq] at h
        rw [← h.2]; omega
    split at h
    · cases hv : readBytes u with
      | none => simp [hv] at h
      | some p =>
        obtain ⟨v, w⟩ := p
        have h2 := readBytes_lt u v w hv
        simp only [hv] at h
        split at h
        · split at h
          · simp only [Option.some.injEq, Prod.mk.injEq] at h
            rw [← h.2]; omega
          · simp at h
        · simp only [Option.some.injEq, Prod.mk.injEq] at h
          rw [← h.2]; omega
    split at h
    · split at h
      · simp only [Option.some.injEq, Prod.mk.injEq] at h
        rw [← h.2, List.length_drop]; omega
      · simp at h
    split at h
    · split at h
      · simp only [Option.some.injEq, Prod.mk.injEq] at h
        rw [← h.2, List.length_drop]; omega
      · simp at h
    · simp at h

/-! ### Fields -/

theorem readFields_enough : ∀ (n m : Nat) (r : TestResult) (s : Bytes), s.length ≤ n → s.length ≤ m →
    readFields n r s = readFields m r s := by
  intro n
  induction n with
  | zero =>
    intro m r s h _
    have : s = [] := List.eq_nil_of_length_eq_zero (by omega)
    subst this
    cases m <;> simp [readFields]
  | succ n ih =>
    intro m r s hn hm
    cases s with
    | nil => cases m <;> simp [readFields]
    | cons b s =>
      cases m with
      | zero => simp at hm
      | succ m =>
        simp only [readFields]
        cases h : readField r (b :: s) with
        | none => rfl
        | some p =>
          obtain ⟨r', t⟩ := p
          have := readField_lt r r' _ t h
          exact ih m r' t (by omega) (by omega)

/-- Reading the rest of a message. -/
def rest (r : TestResult) (s : Bytes) : Option TestResult := readFields s.length r s

theorem rest_nil (r : TestResult) : rest r [] = some r := rfl

theorem rest_field (r r' : TestResult) (s t : Bytes) (h : readField r s = some (r', t)) : rest r s = rest r' t := by
  have hl := readField_lt r r' s t h
  unfold rest
  cases s with
  | nil => simp at hl
  | cons b s =>
    simp only [List.length_cons, readFields, h]
    exact readFields_enough _ _ _ _ (by simp at hl; omega) (Nat.le_refl _)

theorem readVarint_byte (k : Nat) (b : UInt8) (s : Bytes) (h : b < 0x80) :
    readVarint (k + 2) (b :: s) = some (b.toNat, s) := by
  simp only [readVarint, h, if_true]

theorem rest_valid (b : Bool) (r : TestResult) (s : Bytes) (h : r.valid = false) :
    rest r (boolField 0x08 b ++ s) = rest { r with valid := b } s := by
  cases b with
  | false => cases r; simp_all [boolField]
  | true =>
    apply rest_field
    simp [boolField, readField, readVarint_byte, UInt8.lt_iff_toNat]

theorem rest_error (b : Bool) (r : TestResult) (s : Bytes) (h : r.error = false) :
    rest r (boolField 0x10 b ++ s) = rest { r with error := b } s := by
  cases b with
  | false => cases r; simp_all [boolField]
  | true =>
    apply rest_field
    simp [boolField, readField, readVarint_byte, UInt8.lt_iff_toNat]

theorem rest_allow (b : Bool) (r : TestResult) (s : Bytes) (h : r.allowFailure = false) :
    rest r (boolField 0x20 b ++ s) = rest { r with allowFailure := b } s := by
  cases b with
  | false => cases r; simp_all [boolField]
  | true =>
    apply rest_field
    simp [boolField, readField, readVarint_byte, UInt8.lt_iff_toNat]

theorem rest_multi (b : Bool) (r : TestResult) (s : Bytes) (h : r.checkMultipleErrors = false) :
    rest r (boolField 0x28 b ++ s) = rest { r with checkMultipleErrors := b } s := by
  cases b with
  | false => cases r; simp_all [boolField]
  | true =>
    apply rest_field
    simp [boolField, readField, readVarint_byte, UInt8.lt_iff_toNat]

theorem readBytes_varint (b s : Bytes) (h : b.length < 2 ^ 63) : readBytes (varint b.length ++ (b ++ s)) = some (b, s) := by
  unfold readBytes
  rw [readVarint_varint 9 _ _ (by simpa using h)]
  simp

theorem rest_reason (b : Bytes) (r : TestResult) (s : Bytes) (hl : b.length < 2 ^ 63) (hu : validUtf8 b = true) :
    rest r (reasonField b ++ s) = rest { r with reasons := r.reasons ++ [b] } s := by
  apply rest_field
  simp only [reasonField, readField, List.cons_append, List.append_assoc, readVarint_byte _ 0x1A _ (by decide)]
  have : (0x1A : UInt8).toNat = 26 := rfl
  simp [this, readBytes_varint b s hl, hu]

theorem rest_badReason (b : Bytes) (r : TestResult) (s : Bytes) (hl : b.length < 2 ^ 63) (hu : validUtf8 b = false) :
    rest r (reasonField b ++ s) = none := by
  have : readField r (reasonField b ++ s) = none := by
    simp only [reasonField, readField, List.cons_append, List.append_assoc, readVarint_byte _ 0x1A _ (by decide)]
    have : (0x1A : UInt8).toNat = 26 := rfl
    simp [this, readBytes_varint b s hl, hu]
  unfold rest
  simp only [reasonField, List.cons_append, List.length_cons, readFields] at this ⊢
  rw [this]

theorem rest_reasons : ∀ (l : List Bytes) (r : TestResult) (s : Bytes),
    (∀ b ∈ l, b.length < 2 ^ 63 ∧ validUtf8 b = true) →
    rest r (l.flatMap reasonField ++ s) = rest { r with reasons := r.reasons ++ l } s := by
  intro l
  induction l with
  | nil => intro r s _; simp
  | cons b l ih =>
    intro r s h
    have hb := h b (by simp)
    rw [List.flatMap_cons, List.append_assoc, rest_reason b r _ hb.1 hb.2, ih _ _ (fun c hc => h c (by simp [hc]))]
    simp

theorem rest_badReasons : ∀ (l : List Bytes) (r : TestResult) (s : Bytes), (∀ b ∈ l, b.length < 2 ^ 63) →
    (∃ b ∈ l, validUtf8 b = false) → rest r (l.flatMap reasonField ++ s) = none := by
  intro l
  induction l with
  | nil => rintro r s _ ⟨_, h, _⟩; simp at h
  | cons b l ih =>
    rintro r s h ⟨c, hc, hu⟩
    rw [List.flatMap_cons, List.append_assoc]
    cases hb : validUtf8 b with
    | false => exact rest_badReason b r _ (h b (by simp)) hb
    | true =>
      rw [rest_reason b r _ (h b (by simp)) hb]
      refine ih _ _ (fun c hc => h c (by simp [hc])) ⟨c, ?_, hu⟩
      rcases List.mem_cons.1 hc with rfl | hc
      · rw [hb] at hu; simp at hu
      · exact hc

theorem decode_encode_result (r : TestResult) (h : ∀ b ∈ r.reasons, b.length < 2 ^ 63 ∧ Utf8 b) :
    decodeResult (encodeResult r) = some r := by
  show rest {} (encodeResult r) = some r
  unfold encodeResult
  simp only [List.append_assoc]
  rw [rest_valid _ _ _ rfl, rest_error _ _ _ rfl,
    rest_reasons _ _ _ (fun b hb => ⟨(h b hb).1, (validUtf8_iff b).2 (h b hb).2⟩), rest_allow _ _ _ rfl]
  have := rest_multi r.checkMultipleErrors
    { r with checkMultipleErrors := false } [] rfl
  simp only [List.append_nil] at this
  simp only [List.nil_append]
  rw [this, rest_nil]

theorem decode_bad_result (r : TestResult) (hl : ∀ b ∈ r.reasons, b.length < 2 ^ 63) (h : ∃ b ∈ r.reasons, ¬ Utf8 b) :
    decodeResult (encodeResult r) = none := by
  show rest {} (encodeResult r) = none
  unfold encodeResult
  simp only [List.append_assoc]
  rw [rest_valid _ _ _ rfl, rest_error _ _ _ rfl]
  refine rest_badReasons _ _ _ hl ?_
  obtain ⟨b, hb, hu⟩ := h
  refine ⟨b, hb, ?_⟩
  rw [← validUtf8_iff] at hu
  simpa using hu

/-! ### The output of the Python program -/

theorem validUtf8_ascii {b : UInt8} (h : b < 0x80) (s : Bytes) : validUtf8 (b :: s) = validUtf8 s := by
  have hb : encodeRune b.toNat = [b] := by
    have : b.toNat < 128 := h
    unfold encodeRune
    rw [if_neg (show ¬ ((0xD800 ≤ b.toNat ∧ b.toNat < 0xE000) ∨ 0x110000 ≤ b.toNat) by omega)]
    simp [this]
  unfold validUtf8
  rw [runes_cons_ascii s h, List.flatMap_cons, hb]
  simp

theorem validUtf8_nil : validUtf8 [] = true := by decide

/-- A byte of 0x80 to 0xFF that is not followed by another one is not UTF-8. -/
theorem validUtf8_lone {a b : UInt8} (ha : ¬ a < 0x80) (hb : b < 0x80) (s : Bytes) : validUtf8 (a :: b :: s) = false := by
  have hn : ∀ lo hi, 0x80 ≤ lo → inRange lo hi b = false := by
    intro lo hi h
    rw [Bool.eq_false_iff]
    intro h'
    have := (inRange_iff lo hi b).1 h'
    have h1 : b.toNat < 128 := hb
    have h2 : 128 ≤ lo.toNat := h
    omega
  have hd : decodeRune (a :: b :: s) = (runeError, 1) := by
    unfold decodeRune
    have h1 : inRange 0x80 0xBF b = false := hn _ _ (by decide)
    have h2 : inRange 0xA0 0xBF b = false := hn _ _ (by decide)
    have h3 : inRange 0x90 0xBF b = false := hn _ _ (by decide)
    have h4 : inRange 0x80 0x9F b = false := hn _ _ (by decide)
    have h5 : inRange 0xA0 0x9F b = false := hn _ _ (by decide)
    have h6 : inRange 0x80 0x8F b = false := hn _ _ (by decide)
    have h7 : inRange 0x90 0x8F b = false := hn _ _ (by decide)
    cases s with
    | nil => simp [ha, h1, runeError]
    | cons c s =>
      cases s with
      | nil =>
        simp only [ha, if_false, h1, Bool.false_eq_true]
        by_cases e0 : a = 0xE0 <;> by_cases ed : a = 0xED <;>
          simp [e0, ed, h1, h2, h3, h4, h5, h6, h7]
      | cons d s =>
        simp only [ha, if_false, h1, Bool.false_eq_true]
        by_cases e0 : a = 0xE0 <;> by_cases ed : a = 0xED <;> by_cases f0 : a = 0xF0 <;> by_cases f4 : a = 0xF4 <;>
          simp [e0, ed, f0, f4, h1, h2, h3, h4, h5, h6, h7]
  unfold validUtf8
  rw [runes_cons, hd]
  simp only [List.flatMap_cons, decide_eq_false_iff_not]
  intro h
  have h2 : encodeRune runeError = [0xEF, 0xBF, 0xBD] := by decide
  simp only [h2, List.cons_append, List.nil_append, List.cons.injEq] at h
  rw [← h.2.1] at hb
  exact absurd hb (by decide)

theorem validUtf8_reason_short (b : Bytes) (h : b.length < 128) : validUtf8 (reasonField b) = validUtf8 b := by
  unfold reasonField
  rw [validUtf8_ascii (by decide), varint_small h]
  have : (UInt8.ofNat b.length).toNat = b.length := ofNat_toNat (by omega)
  exact validUtf8_ascii (by simp [UInt8.lt_iff_toNat, this, h]) b

theorem validUtf8_reason_long (b : Bytes) (h : 128 ≤ b.length) (h' : b.length < 16384) :
    validUtf8 (reasonField b) = false := by
  unfold reasonField
  rw [validUtf8_ascii (by decide), varint_large (by omega), varint_small (by omega)]
  refine validUtf8_lone ?_ ?_ b
  · have : (UInt8.ofNat (128 + b.length % 128)).toNat = 128 + b.length % 128 := ofNat_toNat (by omega)
    simp only [UInt8.lt_iff_toNat, this]
    have h8 : (128 : UInt8).toNat = 128 := rfl
    omega
  · have : (UInt8.ofNat (b.length / 128)).toNat = b.length / 128 := ofNat_toNat (by omega)
    simp [UInt8.lt_iff_toNat, this]
    omega

end PGV.Harness
