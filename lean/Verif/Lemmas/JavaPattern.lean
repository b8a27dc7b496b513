import Verif.Lemmas.JavaLit

/-!
The Java literals for patterns.
-/

set_option linter.unusedSimpArgs false

namespace PGV.Java
open PGV PGV.Spec
open PGV.Go (escapedRune quoteBody simpleEscape hexDigits lowerDigit)

/-! ### Replacing -/

theorem replace_skip {o b : UInt8} {os new t : Bytes} (h : b ≠ o) :
    replaceAll (o :: os) new 0 (b :: t) = b :: replaceAll (o :: os) new 0 t := by
  rw [replaceAll, if_neg]
  simp [List.isPrefixOf, Ne.symm h]

theorem replace_skips {o : UInt8} {os new bs : Bytes} (h : ∀ b ∈ bs, b ≠ o) (t : Bytes) :
    replaceAll (o :: os) new 0 (bs ++ t) = bs ++ replaceAll (o :: os) new 0 t := by
  induction bs with
  | nil => rfl
  | cons b bs ih =>
    rw [List.cons_append, replace_skip (h b (by simp)), ih fun x hx => h x (by simp [hx])]
    rfl

theorem replace_miss {o p b : UInt8} {os new t : Bytes} (h : b ≠ p) :
    replaceAll (o :: p :: os) new 0 (o :: b :: t) = o :: replaceAll (o :: p :: os) new 0 (b :: t) := by
  rw [replaceAll, if_neg]
  simp [List.isPrefixOf, Ne.symm h]

theorem replace_drop (old new a t : Bytes) : replaceAll old new a.length (a ++ t) = replaceAll old new 0 t := by
  induction a with
  | nil => rfl
  | cons b a ih => rw [List.cons_append, List.length_cons, replaceAll]; exact ih

theorem replace_hit {o : UInt8} {os new t : Bytes} :
    replaceAll (o :: os) new 0 (o :: os ++ t) = new ++ replaceAll (o :: os) new 0 t := by
  rw [List.cons_append, replaceAll, if_pos]
  · rw [List.length_cons, Nat.add_sub_cancel, replace_drop]
  · rw [← List.cons_append, List.isPrefixOf_iff_prefix]
    exact List.prefix_append _ _

/-! ### The stages of the text -/

/-- `%q` on characters. -/
def quoted (isPrint : Nat → Bool) (cs : List Nat) : Bytes := cs.flatMap (escapedRune isPrint)

/-- `\u00` becomes `\x`. -/
def stage1 (t : Bytes) : Bytes := replaceAll [0x5C, 0x75, 0x30, 0x30] [0x5C, 0x78] 0 t
/-- `\x` becomes `\\x`. -/
def stage2 (t : Bytes) : Bytes := replaceAll [0x5C, 0x78] [0x5C, 0x5C, 0x78] 0 t
/-- `"` becomes `\"`. -/
def stage3 (t : Bytes) : Bytes := replaceAll [0x22] [0x5C, 0x22] 0 t

/-- The text of the literal. -/
def final (isPrint : Nat → Bool) (cs : List Nat) : Bytes := stage3 (stage2 (stage1 (quoted isPrint cs)))

theorem escapeBody_eq (isPrint : Nat → Bool) (cs : List Nat) (h : ∀ c ∈ cs, ScalarValue c) :
    escapeBody isPrint (cs.flatMap encodeRune) = final isPrint cs := by
  unfold escapeBody final stage3 stage2 stage1 quoted
  simp only
  rw [Cpp.quoteBody_encode isPrint cs h _ (Nat.le_refl _)]

theorem stages_plain {bs : Bytes} (h : ∀ b ∈ bs, b ≠ 0x5C ∧ b ≠ 0x22) (t : Bytes) :
    stage1 (bs ++ t) = bs ++ stage1 t ∧ stage2 (bs ++ t) = bs ++ stage2 t ∧ stage3 (bs ++ t) = bs ++ stage3 t :=
  ⟨replace_skips (fun b hb => (h b hb).1) t, replace_skips (fun b hb => (h b hb).1) t,
    replace_skips (fun b hb => (h b hb).2) t⟩

theorem all_plain {bs : Bytes} (h : ∀ b ∈ bs, b ≠ 0x5C ∧ b ≠ 0x22) (t : Bytes) :
    stage3 (stage2 (stage1 (bs ++ t))) = bs ++ stage3 (stage2 (stage1 t)) := by
  rw [(stages_plain h _).1, (stages_plain h _).2.1, (stages_plain h _).2.2]

/-- A two byte escape. -/
theorem all_pair {l : UInt8} (h1 : l ≠ 0x75) (h2 : l ≠ 0x78) (h3 : l ≠ 0x22) (h4 : l ≠ 0x5C) (t : Bytes) :
    stage3 (stage2 (stage1 ([0x5C, l] ++ t))) = [0x5C, l] ++ stage3 (stage2 (stage1 t)) := by
  show stage3 (stage2 (stage1 (0x5C :: l :: t))) = 0x5C :: l :: stage3 (stage2 (stage1 t))
  unfold stage1
  rw [replace_miss h1, replace_skip h4]
  unfold stage2
  rw [replace_miss h2, replace_skip h4]
  unfold stage3
  rw [replace_skip (by decide), replace_skip h3]

theorem all_quote (t : Bytes) :
    stage3 (stage2 (stage1 ([0x5C, 0x22] ++ t))) = [0x5C, 0x5C, 0x22] ++ stage3 (stage2 (stage1 t)) := by
  show stage3 (stage2 (stage1 (0x5C :: 0x22 :: t))) = 0x5C :: 0x5C :: 0x22 :: stage3 (stage2 (stage1 t))
  unfold stage1
  rw [replace_miss (by decide), replace_skip (by decide)]
  unfold stage2
  rw [replace_miss (by decide), replace_skip (by decide)]
  unfold stage3
  rw [replace_skip (by decide)]
  have := replace_hit (o := 0x22) (os := []) (new := [0x5C, 0x22])
    (t := replaceAll [0x5C, 0x78] [0x5C, 0x5C, 0x78] 0 (replaceAll [0x5C, 0x75, 0x30, 0x30] [0x5C, 0x78] 0 t))
  simp only [List.cons_append, List.nil_append] at this
  rw [this]

theorem all_x (t : Bytes) : stage3 (stage2 ([0x5C, 0x78] ++ t)) = [0x5C, 0x5C, 0x78] ++ stage3 (stage2 t) := by
  unfold stage2
  have := replace_hit (o := 0x5C) (os := [0x78]) (new := [0x5C, 0x5C, 0x78]) (t := t)
  simp only [List.cons_append, List.nil_append] at this ⊢
  rw [this]
  unfold stage3
  rw [replace_skip (by decide), replace_skip (by decide), replace_skip (by decide)]

theorem lower_plain (n : Nat) : lowerDigit (n % 16) ≠ 0x5C ∧ lowerDigit (n % 16) ≠ 0x22 ∧
    lowerDigit (n % 16) ≠ 0x0A ∧ lowerDigit (n % 16) ≠ 0x0D ∧ lowerDigit (n % 16) ≠ 0x75 := by
  have : ∀ n : Fin 16, lowerDigit n.val ≠ 0x5C ∧ lowerDigit n.val ≠ 0x22 ∧ lowerDigit n.val ≠ 0x0A ∧
    lowerDigit n.val ≠ 0x0D ∧ lowerDigit n.val ≠ 0x75 := by decide
  exact this ⟨n % 16, Nat.mod_lt _ (by decide)⟩

theorem digits_plain (n r : Nat) : ∀ b ∈ hexDigits n r, b ≠ 0x5C ∧ b ≠ 0x22 ∧ b ≠ 0x0A ∧ b ≠ 0x0D := by
  induction n with
  | zero => intro b hb; simp [hexDigits] at hb
  | succ n ih =>
    intro b hb
    rw [hexDigits] at hb
    rcases List.mem_cons.1 hb with rfl | hb
    · have := lower_plain (r / 16 ^ n)
      exact ⟨this.1, this.2.1, this.2.2.1, this.2.2.2.1⟩
    · exact ih b hb

theorem all_hex (n r : Nat) (t : Bytes) :
    stage3 (stage2 (stage1 (0x5C :: 0x78 :: hexDigits n r ++ t))) =
      0x5C :: 0x5C :: 0x78 :: hexDigits n r ++ stage3 (stage2 (stage1 t)) := by
  have hd : ∀ b ∈ hexDigits n r, b ≠ 0x5C ∧ b ≠ 0x22 := fun b hb =>
    ⟨(digits_plain n r b hb).1, (digits_plain n r b hb).2.1⟩
  have h1 : stage1 (0x5C :: 0x78 :: hexDigits n r ++ t) = [0x5C, 0x78] ++ (hexDigits n r ++ stage1 t) := by
    show stage1 (0x5C :: 0x78 :: (hexDigits n r ++ t)) = _
    unfold stage1
    rw [replace_miss (by decide), replace_skip (by decide), replace_skips fun b hb => (hd b hb).1]
    rfl
  rw [h1, all_x, (stages_plain hd _).2.1, (stages_plain hd _).2.2]
  rfl

theorem all_u00 (r : Nat) (t : Bytes) :
    stage3 (stage2 (stage1 (0x5C :: 0x75 :: 0x30 :: 0x30 :: hexDigits 2 r ++ t))) =
      0x5C :: 0x5C :: 0x78 :: hexDigits 2 r ++ stage3 (stage2 (stage1 t)) := by
  have hd : ∀ b ∈ hexDigits 2 r, b ≠ 0x5C ∧ b ≠ 0x22 := fun b hb =>
    ⟨(digits_plain 2 r b hb).1, (digits_plain 2 r b hb).2.1⟩
  have h1 : stage1 (0x5C :: 0x75 :: 0x30 :: 0x30 :: hexDigits 2 r ++ t) =
      [0x5C, 0x78] ++ (hexDigits 2 r ++ stage1 t) := by
    have := replace_hit (o := 0x5C) (os := [0x75, 0x30, 0x30]) (new := [0x5C, 0x78]) (t := hexDigits 2 r ++ t)
    simp only [List.cons_append, List.nil_append] at this ⊢
    unfold stage1
    rw [this, replace_skips fun b hb => (hd b hb).1]
  rw [h1, all_x, (stages_plain hd _).2.1, (stages_plain hd _).2.2]
  rfl

theorem lower_zero {n : Nat} (h : n < 16) (h0 : n ≠ 0) : lowerDigit n ≠ 0x30 := by
  have : ∀ n : Fin 16, n.val ≠ 0 → lowerDigit n.val ≠ 0x30 := by decide
  exact this ⟨n, h⟩ h0

theorem all_u {r : Nat} (h1 : 0x100 ≤ r) (h2 : r < 0x10000) (t : Bytes) :
    stage3 (stage2 (stage1 (0x5C :: 0x75 :: hexDigits 4 r ++ t))) =
      0x5C :: 0x75 :: hexDigits 4 r ++ stage3 (stage2 (stage1 t)) := by
  have hd : ∀ b ∈ hexDigits 4 r, b ≠ 0x5C ∧ b ≠ 0x22 := fun b hb =>
    ⟨(digits_plain 4 r b hb).1, (digits_plain 4 r b hb).2.1⟩
  have e1 : stage1 (0x5C :: 0x75 :: hexDigits 4 r ++ t) = 0x5C :: 0x75 :: (hexDigits 4 r ++ stage1 t) := by
    show stage1 (0x5C :: 0x75 :: (hexDigits 4 r ++ t)) = _
    unfold stage1
    have hnot : ([0x5C, 0x75, 0x30, 0x30] : Bytes).isPrefixOf (0x5C :: 0x75 :: (hexDigits 4 r ++ t)) = false := by
      simp only [hexDigits, List.isPrefixOf, List.cons_append, beq_self_eq_true, Bool.true_and]
      by_cases hz : r / 16 ^ 3 % 16 = 0
      · have : lowerDigit (r / 16 ^ 2 % 16) ≠ 0x30 :=
          lower_zero (Nat.mod_lt _ (by decide)) (by omega)
        have h' : ((0x30 : UInt8) == lowerDigit (r / 16 ^ 2 % 16)) = false := by
          simpa using Ne.symm this
        rw [h']; simp
      · have : lowerDigit (r / 16 ^ 3 % 16) ≠ 0x30 := lower_zero (Nat.mod_lt _ (by decide)) hz
        have h' : ((0x30 : UInt8) == lowerDigit (r / 16 ^ 3 % 16)) = false := by
          simpa using Ne.symm this
        rw [h']; simp
    rw [replaceAll, if_neg (by rw [hnot]; simp), replace_skip (by decide), replace_skips fun b hb => (hd b hb).1]
  rw [e1]
  have e2 : stage2 (0x5C :: 0x75 :: (hexDigits 4 r ++ stage1 t)) =
      0x5C :: 0x75 :: (hexDigits 4 r ++ stage2 (stage1 t)) := by
    unfold stage2
    rw [replace_miss (by decide), replace_skip (by decide), replace_skips fun b hb => (hd b hb).1]
  rw [e2]
  unfold stage3
  rw [replace_skip (by decide), replace_skip (by decide), replace_skips fun b hb => (hd b hb).2]
  rfl

theorem all_U (r : Nat) (t : Bytes) :
    stage3 (stage2 (stage1 (0x5C :: 0x55 :: hexDigits 8 r ++ t))) =
      0x5C :: 0x55 :: hexDigits 8 r ++ stage3 (stage2 (stage1 t)) := by
  have hd : ∀ b ∈ hexDigits 8 r, b ≠ 0x5C ∧ b ≠ 0x22 := fun b hb =>
    ⟨(digits_plain 8 r b hb).1, (digits_plain 8 r b hb).2.1⟩
  have := all_pair (l := 0x55) (by decide) (by decide) (by decide) (by decide) (hexDigits 8 r ++ t)
  rw [show 0x5C :: 0x55 :: hexDigits 8 r ++ t = [0x5C, 0x55] ++ (hexDigits 8 r ++ t) from rfl, this,
    all_plain hd]
  rfl

/-! ### Tokens -/

/-- What `strconv.IsPrint` says about ASCII. -/
def AsciiPrint (isPrint : Nat → Bool) : Prop := ∀ c, c < 0x80 → (isPrint c = true ↔ 0x20 ≤ c ∧ c < 0x7F)

theorem uni_nonempty : ∀ (t : Bytes) (s : UState) (u : Bytes), unicodeEscapes s t = some u →
    (t ≠ [] ∨ match s with | .normal => False | _ => True) → u ≠ [] := by
  intro t
  induction t with
  | nil =>
    intro s u h hs
    cases s <;> simp [unicodeEscapes] at h hs
    subst h; simp
  | cons b t ih =>
    intro s u h _
    cases s with
    | normal =>
      rw [unicodeEscapes] at h
      split at h
      · exact ih _ _ h (.inr trivial)
      · obtain ⟨u', _, rfl⟩ := Option.map_eq_some_iff.1 h; simp
    | backslash =>
      rw [unicodeEscapes] at h
      split at h
      · exact ih _ _ h (.inr trivial)
      · obtain ⟨u', _, rfl⟩ := Option.map_eq_some_iff.1 h; simp
    | u =>
      rw [unicodeEscapes] at h
      split at h
      · exact ih _ _ h (.inr trivial)
      · split at h
        · exact ih _ _ h (.inr trivial)
        · cases h
    | digits n acc =>
      rw [unicodeEscapes] at h
      split at h
      · rename_i x _
        split at h
        · exact ih _ _ h (.inr trivial)
        · split at h
          · rename_i hcp
            obtain ⟨u', _, rfl⟩ := Option.map_eq_some_iff.1 h
            have hs : IsScalar (acc * 16 + x) := by
              unfold isCodePoint at hcp
              simp at hcp
              exact ⟨hcp.1, by omega⟩
            obtain ⟨b, t, e, _⟩ := PGV.first_byte hs
            rw [e]; simp
          · cases h
      · cases h

theorem tok_backslash : Tok [0x5C, 0x5C] [0x5C, 0x5C] [0x5C] := tok_pair (by decide) fun t => by simp [javaEscape]

theorem tok_hex {c : Nat} (h : c < 256) :
    Tok (0x5C :: 0x5C :: 0x78 :: hexDigits 2 c) (0x5C :: 0x5C :: 0x78 :: hexDigits 2 c) (0x5C :: 0x78 :: hex2 c) := by
  have hd : ∀ b ∈ 0x78 :: hexDigits 2 c, b ≠ 0x22 ∧ b ≠ 0x5C ∧ b ≠ 0x0A ∧ b ≠ 0x0D := by
    intro b hb
    rcases List.mem_cons.1 hb with rfl | hb
    · decide
    · have := digits_plain 2 c b hb
      exact ⟨this.2.1, this.1, this.2.2⟩
  have he : hex2 c = hexDigits 2 c := by
    unfold hex2
    simp only [hexDigits, lowerDigit, Nat.pow_one, Nat.pow_zero, Nat.div_one]
    rw [Nat.mod_eq_of_lt (a := c / 16) (by omega)]
  rw [he]
  exact tok_backslash.append (tok_plain hd)

theorem hexVal_digit (n : Nat) : hexVal (lowerDigit (n % 16)) = some (n % 16) :=
  PGV.hexVal_lower (Nat.mod_lt _ (by decide))

theorem tok_u {c : Nat} (hs : ScalarValue c) (h1 : 0x100 ≤ c) (h2 : c < 0x10000) :
    Tok (0x5C :: 0x75 :: hexDigits 4 c) (encodeRune c) (encodeRune c) := by
  have hplain : ∀ b ∈ encodeRune c, b ≠ 0x22 ∧ b ≠ 0x5C ∧ b ≠ 0x0A ∧ b ≠ 0x0D := by
    intro b hb
    rcases Cpp.encode_bytes hs b hb with h | h
    · omega
    · refine ⟨?_, ?_, ?_, ?_⟩ <;> rintro rfl <;> exact absurd h.2 (by decide)
  refine ⟨fun rest => ?_, (tok_plain hplain).read⟩
  have e : (((c / 16 ^ 3 % 16) * 16 + c / 16 ^ 2 % 16) * 16 + c / 16 ^ 1 % 16) * 16 + c / 16 ^ 0 % 16 = c := by
    simp only [Nat.pow_zero, Nat.div_one, Nat.pow_one, Nat.reducePow]
    omega
  have hcp : isCodePoint c = true := PGV.isCodePoint_of hs
  simp only [List.cons_append, hexDigits]
  rw [unicodeEscapes, if_pos rfl, unicodeEscapes, if_pos rfl, unicodeEscapes,
    if_neg (lower_plain (c / 16 ^ 3)).2.2.2.2, hexVal_digit]
  simp only
  rw [unicodeEscapes, hexVal_digit]
  simp only
  rw [if_pos (by decide), unicodeEscapes, hexVal_digit]
  simp only
  rw [if_pos (by decide), unicodeEscapes, hexVal_digit]
  simp only
  rw [if_neg (by decide), e, if_pos hcp, List.nil_append]

theorem fail_letter {l : UInt8} (hu : l ≠ 0x75) (h : ∀ t, javaEscape (l :: t) = none) (rest : Bytes) :
    readText ([0x5C, l] ++ rest) = none := by
  refine fail_step rest (uni_pair hu) fun u _ => readBody_none (by simp) ?_
  show javaChar (0x5C :: l :: u) = none
  rw [javaChar, if_neg (by decide), if_pos rfl, h]

theorem fail_quote (rest : Bytes) (hne : rest ≠ []) : readText ([0x22] ++ rest) = none := by
  refine fail_step rest (uni_plain (by simp)) fun u hu => ?_
  have := uni_nonempty _ _ _ hu (.inl hne)
  refine readBody_none (by simpa using this) ?_
  show javaChar (0x22 :: u) = none
  rw [javaChar, if_pos (.inl rfl)]

/-! ### Characters -/

/-- The first byte of quoted text tells its first character, if it is not a backslash. -/
theorem quoted_head {isPrint : Nat → Bool} (cs : List Nat) (hs : ∀ c ∈ cs, ScalarValue c) {b : UInt8} {t : Bytes}
    (h : quoted isPrint cs = b :: t) (hb : b.toNat < 0x80) (hn : b ≠ 0x5C) :
    ∃ cs', cs = b.toNat :: cs' ∧ t = quoted isPrint cs' := by
  cases cs with
  | nil => simp [quoted] at h
  | cons c cs =>
    rw [quoted, List.flatMap_cons] at h
    unfold escapedRune at h
    have no : ∀ {w : Bytes}, 0x5C :: w = b :: t → False := fun e => by
      injection e with e _; exact hn e.symm
    split at h
    · exact absurd h (fun e => no (by simpa using e))
    split at h
    · obtain ⟨b', t', he, hr⟩ := PGV.first_byte (hs c (by simp))
      rw [he, List.cons_append] at h
      injection h with h1 h2
      subst h1
      rcases hr with ⟨hc, hr⟩ | hr
      · refine ⟨cs, by rw [hr], ?_⟩
        rw [Cpp.encode_small hc] at he
        injection he with _ he
        rw [← h2, ← he]; rfl
      · omega
    split at h
    · exact absurd h (fun e => no (by simpa using e))
    split at h
    · exact absurd h (fun e => no (by simpa using e))
    split at h
    · exact absurd h (fun e => no (by simpa using e))
    · exact absurd h (fun e => no (by simpa using e))

theorem stage1_head {t w : Bytes} (h : stage1 t = 0x78 :: w) : ∃ t', t = 0x78 :: t' := by
  unfold stage1 at h
  cases t with
  | nil => simp [replaceAll] at h
  | cons b t =>
    rw [replaceAll] at h
    split at h
    · simp at h
    · injection h with h _
      exact ⟨t, by rw [h]⟩

theorem quoted_cons {isPrint : Nat → Bool} (c : Nat) (cs : List Nat) :
    quoted isPrint (c :: cs) = escapedRune isPrint c ++ quoted isPrint cs := by
  rw [quoted, List.flatMap_cons]; rfl

theorem escaped_print {isPrint : Nat → Bool} (hp : AsciiPrint isPrint) {c : Nat} (h : 0x20 ≤ c ∧ c < 0x7F)
    (h1 : c ≠ 0x22) (h2 : c ≠ 0x5C) : escapedRune isPrint c = [UInt8.ofNat c] := by
  unfold escapedRune
  rw [if_neg (by omega), if_pos ((hp c (by omega)).2 h), Cpp.encode_small (by omega)]

/-- The text that follows a backslash followed by `x` or `u00`. -/
theorem final_bad {isPrint : Nat → Bool} (hp : AsciiPrint isPrint) (cs : List Nat)
    (h : (∃ a, cs = 0x78 :: a) ∨ ∃ a, cs = 0x75 :: 0x30 :: 0x30 :: a) :
    ∃ w, final isPrint (0x5C :: cs) = [0x5C, 0x5C] ++ ([0x5C, 0x78] ++ w) := by
  have he : escapedRune isPrint 0x5C = [0x5C, 0x5C] := by unfold escapedRune; rw [if_pos (.inr rfl)]; decide
  have hx : ∀ w, stage3 (stage2 (0x5C :: 0x5C :: 0x78 :: w)) =
      [0x5C, 0x5C] ++ ([0x5C, 0x78] ++ stage3 (stage2 w)) := by
    intro w
    have := all_x w
    unfold stage2 at this ⊢
    rw [replace_miss (by decide)]
    unfold stage3 at this ⊢
    rw [replace_skip (by decide)]
    simp only [List.cons_append, List.nil_append] at this ⊢
    rw [this]
  rcases h with ⟨a, rfl⟩ | ⟨a, rfl⟩
  · refine ⟨stage3 (stage2 (stage1 (quoted isPrint a))), ?_⟩
    unfold final
    rw [quoted_cons, quoted_cons, he, escaped_print hp (by decide) (by decide) (by decide)]
    have e1 : stage1 ([0x5C, 0x5C] ++ ([UInt8.ofNat 0x78] ++ quoted isPrint a)) =
        0x5C :: 0x5C :: 0x78 :: stage1 (quoted isPrint a) := by
      show stage1 (0x5C :: 0x5C :: 0x78 :: quoted isPrint a) = _
      unfold stage1
      rw [replace_miss (by decide), replace_miss (by decide), replace_skip (by decide)]
    rw [e1, hx]
  · refine ⟨stage3 (stage2 (stage1 (quoted isPrint a))), ?_⟩
    unfold final
    rw [quoted_cons, quoted_cons, quoted_cons, quoted_cons, he,
      escaped_print hp (c := 0x75) (by decide) (by decide) (by decide),
      escaped_print hp (c := 0x30) (by decide) (by decide) (by decide)]
    have e1 : stage1 ([0x5C, 0x5C] ++ ([UInt8.ofNat 0x75] ++ ([UInt8.ofNat 0x30] ++
        ([UInt8.ofNat 0x30] ++ quoted isPrint a)))) = 0x5C :: 0x5C :: 0x78 :: stage1 (quoted isPrint a) := by
      show stage1 (0x5C :: 0x5C :: 0x75 :: 0x30 :: 0x30 :: quoted isPrint a) = _
      have := replace_hit (o := 0x5C) (os := [0x75, 0x30, 0x30]) (new := [0x5C, 0x78]) (t := quoted isPrint a)
      simp only [List.cons_append, List.nil_append] at this
      unfold stage1
      rw [replace_miss (by decide), this]
    rw [e1, hx]

theorem final_backslash {isPrint : Nat → Bool} (cs : List Nat) (hs : ∀ c ∈ cs, ScalarValue c)
    (h1 : ¬ ∃ a, cs = 0x78 :: a) (h2 : ¬ ∃ a, cs = 0x75 :: 0x30 :: 0x30 :: a) :
    final isPrint (0x5C :: cs) = [0x5C, 0x5C] ++ final isPrint cs := by
  have he : escapedRune isPrint 0x5C = [0x5C, 0x5C] := by unfold escapedRune; rw [if_pos (.inr rfl)]; decide
  unfold final
  rw [quoted_cons, he]
  have e1 : stage1 ([0x5C, 0x5C] ++ quoted isPrint cs) = 0x5C :: 0x5C :: stage1 (quoted isPrint cs) := by
    show stage1 (0x5C :: 0x5C :: quoted isPrint cs) = _
    unfold stage1
    rw [replace_miss (by decide), replaceAll, if_neg]
    intro hpre
    rw [List.isPrefixOf_iff_prefix] at hpre
    obtain ⟨w, hw⟩ := hpre
    simp only [List.cons_append, List.nil_append, List.cons.injEq, true_and] at hw
    obtain ⟨cs1, rfl, e⟩ := quoted_head cs hs hw.symm (by decide) (by decide)
    obtain ⟨cs2, rfl, e'⟩ := quoted_head cs1 (fun c hc => hs c (by simp [hc])) e.symm (by decide) (by decide)
    obtain ⟨cs3, rfl, _⟩ := quoted_head cs2 (fun c hc => hs c (by simp [hc])) e'.symm (by decide) (by decide)
    exact h2 ⟨cs3, rfl⟩
  rw [e1]
  have e2 : stage2 (0x5C :: 0x5C :: stage1 (quoted isPrint cs)) =
      0x5C :: 0x5C :: stage2 (stage1 (quoted isPrint cs)) := by
    unfold stage2
    rw [replace_miss (by decide), replaceAll, if_neg]
    intro hpre
    rw [List.isPrefixOf_iff_prefix] at hpre
    obtain ⟨w, hw⟩ := hpre
    simp only [List.cons_append, List.nil_append, List.cons.injEq, true_and] at hw
    obtain ⟨t', ht⟩ := stage1_head hw.symm
    obtain ⟨cs1, rfl, e⟩ := quoted_head cs hs ht (by decide) (by decide)
    exact h1 ⟨cs1, rfl⟩
  rw [e2]
  unfold stage3
  rw [replace_skip (by decide), replace_skip (by decide)]
  rfl

/-- A character other than a backslash adds its token, which is read as it should be or not at all. -/
theorem final_char {isPrint : Nat → Bool} (hp : AsciiPrint isPrint) (c : Nat) (hs : ScalarValue c) (hb : c ≠ 0x5C) :
    ∃ tok, (∀ cs, final isPrint (c :: cs) = tok ++ final isPrint cs) ∧
      ((c ≠ 0x22 ∧ c ≠ 7 ∧ c ≠ 11 ∧ (0x10000 ≤ c → isPrint c = true)) → ∃ ph, Tok tok ph (patternChar isPrint c)) ∧
      (¬ (c ≠ 0x22 ∧ c ≠ 7 ∧ c ≠ 11 ∧ (0x10000 ≤ c → isPrint c = true)) →
        ∀ rest, rest ≠ [] → readText (tok ++ rest) = none) := by
  by_cases hq : c = 0x22
  · subst hq
    refine ⟨[0x5C, 0x5C, 0x22], fun cs => ?_, fun h => absurd rfl h.1, fun _ rest hr => ?_⟩
    · unfold final
      rw [quoted_cons, show escapedRune isPrint 0x22 = [0x5C, 0x22] from by
        unfold escapedRune; rw [if_pos (.inl rfl)]; decide, all_quote]
    · show readText ([0x5C, 0x5C] ++ ([0x22] ++ rest)) = none
      rw [tok_backslash.step, fail_quote rest hr]; rfl
  by_cases hi : isPrint c = true
  · have hge : 0x20 ≤ c := by
      by_cases h : c < 0x80
      · exact ((hp c h).1 hi).1
      · omega
    have hplain : ∀ b ∈ encodeRune c, b ≠ 0x22 ∧ b ≠ 0x5C ∧ b ≠ 0x0A ∧ b ≠ 0x0D := by
      intro b hb'
      rcases Cpp.encode_bytes hs b hb' with h | h
      · refine ⟨?_, ?_, ?_, ?_⟩ <;> rintro rfl <;> have := h.2
        · exact hq this.symm
        · exact hb this.symm
        · exact absurd (this ▸ hge) (by decide)
        · exact absurd (this ▸ hge) (by decide)
      · refine ⟨?_, ?_, ?_, ?_⟩ <;> rintro rfl <;> exact absurd h.2 (by decide)
    refine ⟨encodeRune c, fun cs => ?_, fun _ => ⟨encodeRune c, ?_⟩, fun h => absurd ⟨hq, by omega, by omega, fun _ => hi⟩ h⟩
    · unfold final
      rw [quoted_cons, show escapedRune isPrint c = encodeRune c from by
        unfold escapedRune; rw [if_neg (by omega), if_pos hi]]
      exact all_plain (fun b hb => ⟨(hplain b hb).2.1, (hplain b hb).1⟩) _
    · rw [show patternChar isPrint c = encodeRune c from by unfold patternChar; rw [if_neg (by simp [hi])]]
      exact tok_plain hplain
  have hq' : ¬ (c = 0x22 ∨ c = 0x5C) := by omega
  have hi' : isPrint c = false := by simpa using hi
  cases h3 : simpleEscape c with
  | some l =>
    have he : escapedRune isPrint c = [0x5C, l] := by
      unfold escapedRune; rw [if_neg hq', if_neg hi, h3]
    have key : (c = 7 ∧ l = 0x61) ∨ (c = 8 ∧ l = 0x62) ∨ (c = 12 ∧ l = 0x66) ∨ (c = 10 ∧ l = 0x6E) ∨
        (c = 13 ∧ l = 0x72) ∨ (c = 9 ∧ l = 0x74) ∨ (c = 11 ∧ l = 0x76) := by
      unfold simpleEscape at h3
      repeat' split at h3
      all_goals first | (injection h3 with h3; subst h3; simp_all; done) | simp at h3
    refine ⟨[0x5C, l], fun cs => ?_, ?_, ?_⟩
    · unfold final
      rw [quoted_cons, he]
      rcases key with ⟨_, rfl⟩ | ⟨_, rfl⟩ | ⟨_, rfl⟩ | ⟨_, rfl⟩ | ⟨_, rfl⟩ | ⟨_, rfl⟩ | ⟨_, rfl⟩ <;>
      exact all_pair (by decide) (by decide) (by decide) (by decide) _
    · intro hg
      refine ⟨[0x5C, l], ?_⟩
      rcases key with ⟨rfl, rfl⟩ | ⟨rfl, rfl⟩ | ⟨rfl, rfl⟩ | ⟨rfl, rfl⟩ | ⟨rfl, rfl⟩ | ⟨rfl, rfl⟩ | ⟨rfl, rfl⟩
      · exact absurd rfl hg.2.1
      · rw [show patternChar isPrint 8 = [8] from by simp [patternChar]; decide]
        exact tok_pair (by decide) fun t => by simp [javaEscape]
      · rw [show patternChar isPrint 12 = [12] from by simp [patternChar]; decide]
        exact tok_pair (by decide) fun t => by simp [javaEscape]
      · rw [show patternChar isPrint 10 = [10] from by simp [patternChar]; decide]
        exact tok_pair (by decide) fun t => by simp [javaEscape]
      · rw [show patternChar isPrint 13 = [13] from by simp [patternChar]; decide]
        exact tok_pair (by decide) fun t => by simp [javaEscape]
      · rw [show patternChar isPrint 9 = [9] from by simp [patternChar]; decide]
        exact tok_pair (by decide) fun t => by simp [javaEscape]
      · exact absurd rfl hg.2.2.1
    · intro hg rest _
      rcases key with ⟨rfl, rfl⟩ | ⟨rfl, rfl⟩ | ⟨rfl, rfl⟩ | ⟨rfl, rfl⟩ | ⟨rfl, rfl⟩ | ⟨rfl, rfl⟩ | ⟨rfl, rfl⟩
      · exact fail_letter (by decide) (fun t => by simp [javaEscape, octVal]) rest
      · exact absurd (by simp) hg
      · exact absurd (by simp) hg
      · exact absurd (by simp) hg
      · exact absurd (by simp) hg
      · exact absurd (by simp) hg
      · exact fail_letter (by decide) (fun t => by simp [javaEscape, octVal]) rest
  | none =>
    have hsim := Cpp.simple_none h3
    have good : ¬ 0x10000 ≤ c → (c ≠ 0x22 ∧ c ≠ 7 ∧ c ≠ 11 ∧ (0x10000 ≤ c → isPrint c = true)) :=
      fun h => ⟨hq, by omega, by omega, fun h' => absurd h' h⟩
    by_cases h4 : c < 0x20 ∨ c = 0x7F
    · have he : escapedRune isPrint c = 0x5C :: 0x78 :: hexDigits 2 c := by
        unfold escapedRune; rw [if_neg hq', if_neg hi, h3]; simp only; rw [if_pos h4]
      refine ⟨0x5C :: 0x5C :: 0x78 :: hexDigits 2 c, fun cs => ?_, fun _ => ⟨0x5C :: 0x5C :: 0x78 :: hexDigits 2 c, ?_⟩,
        fun h => absurd (good (by omega)) h⟩
      · unfold final
        rw [quoted_cons, he, all_hex]
      · rw [show patternChar isPrint c = 0x5C :: 0x78 :: hex2 c from by
          unfold patternChar; rw [if_pos ⟨by omega, hi', by simp; omega⟩]]
        exact tok_hex (by omega)
    by_cases h5 : c < 0x10000
    · have he : escapedRune isPrint c = 0x5C :: 0x75 :: hexDigits 4 c := by
        unfold escapedRune; rw [if_neg hq', if_neg hi, h3]; simp only; rw [if_neg h4, if_pos h5]
      by_cases h6 : c < 0x100
      · have he' : hexDigits 4 c = 0x30 :: 0x30 :: hexDigits 2 c := by
          have z : lowerDigit 0 = 0x30 := by decide
          simp only [hexDigits]
          rw [show c / 16 ^ 3 % 16 = 0 from by omega, show c / 16 ^ 2 % 16 = 0 from by omega, z]
        refine ⟨0x5C :: 0x5C :: 0x78 :: hexDigits 2 c, fun cs => ?_, fun _ => ⟨0x5C :: 0x5C :: 0x78 :: hexDigits 2 c, ?_⟩,
          fun h => absurd (good (by omega)) h⟩
        · unfold final
          rw [quoted_cons, he, he']
          exact all_u00 c _
        · rw [show patternChar isPrint c = 0x5C :: 0x78 :: hex2 c from by
            unfold patternChar; rw [if_pos ⟨by omega, hi', by simp; omega⟩]]
          exact tok_hex h6
      · refine ⟨0x5C :: 0x75 :: hexDigits 4 c, fun cs => ?_, fun _ => ⟨encodeRune c, ?_⟩,
          fun h => absurd (good (by omega)) h⟩
        · unfold final
          rw [quoted_cons, he]
          exact all_u (by omega) h5 _
        · rw [show patternChar isPrint c = encodeRune c from by
            unfold patternChar; rw [if_neg (by omega)]]
          exact tok_u hs (by omega) h5
    · have he : escapedRune isPrint c = 0x5C :: 0x55 :: hexDigits 8 c := by
        unfold escapedRune; rw [if_neg hq', if_neg hi, h3]; simp only; rw [if_neg h4, if_neg h5]
      refine ⟨0x5C :: 0x55 :: hexDigits 8 c, fun cs => ?_, fun h => absurd (h.2.2.2 (by omega)) hi, fun _ rest _ => ?_⟩
      · unfold final
        rw [quoted_cons, he]
        exact all_U c _
      · exact fail_letter (l := 0x55) (by decide) (fun t => by simp [javaEscape, octVal]) (hexDigits 8 c ++ rest)

theorem pattern_cons {isPrint : Nat → Bool} (c : Nat) (cs : List Nat) : JavaPattern isPrint (c :: cs) ↔
    (c ≠ 0x22 ∧ c ≠ 7 ∧ c ≠ 11 ∧ (0x10000 ≤ c → isPrint c = true)) ∧ JavaPattern isPrint cs ∧
    (c = 0x5C → (¬ ∃ a, cs = 0x78 :: a) ∧ ¬ ∃ a, cs = 0x75 :: 0x30 :: 0x30 :: a) := by
  constructor
  · intro h
    refine ⟨h.chars c (by simp), ⟨fun x hx => h.chars x (by simp [hx]), ?_, ?_⟩, ?_⟩
    · intro a b e; exact h.noX (c :: a) b (by rw [e]; rfl)
    · intro a b e; exact h.noU00 (c :: a) b (by rw [e]; rfl)
    · rintro rfl
      exact ⟨fun ⟨a, e⟩ => h.noX [] a (by rw [e]; rfl), fun ⟨a, e⟩ => h.noU00 [] a (by rw [e]; rfl)⟩
  · rintro ⟨h1, h2, h3⟩
    refine ⟨?_, ?_, ?_⟩
    · intro x hx
      rcases List.mem_cons.1 hx with rfl | hx
      · exact h1
      · exact h2.chars x hx
    · intro a b e
      cases a with
      | nil => injection e with e1 e2; exact (h3 e1).1 ⟨b, e2⟩
      | cons x a => injection e with _ e2; exact h2.noX a b e2
    · intro a b e
      cases a with
      | nil => injection e with e1 e2; exact (h3 e1).2 ⟨b, e2⟩
      | cons x a => injection e with _ e2; exact h2.noU00 a b e2

theorem read_end : readText [0x22] = some [] := by
  unfold readText
  rw [unicodeEscapes, if_neg (by decide), unicodeEscapes]
  exact readBody_end

theorem read_final {isPrint : Nat → Bool} (hp : AsciiPrint isPrint) (cs : List Nat) (hs : ∀ c ∈ cs, ScalarValue c)
    (v : Bytes) : readText (final isPrint cs ++ [0x22]) = some v ↔
      JavaPattern isPrint cs ∧ v = cs.flatMap (patternChar isPrint) := by
  induction cs generalizing v with
  | nil =>
    have : final isPrint [] = [] := rfl
    rw [this, List.nil_append, read_end]
    have hj : JavaPattern isPrint [] := ⟨by simp, by simp, by simp⟩
    simp [hj, eq_comm]
  | cons c cs ih =>
    have hs' : ∀ c ∈ cs, ScalarValue c := fun x hx => hs x (by simp [hx])
    rw [pattern_cons]
    have use : ∀ {tok ph : Bytes}, Tok tok ph (patternChar isPrint c) →
        (readText (tok ++ final isPrint cs ++ [0x22]) = some v ↔
          JavaPattern isPrint cs ∧ v = (c :: cs).flatMap (patternChar isPrint)) := by
      intro tok ph ht
      rw [List.append_assoc, ht.step, Option.map_eq_some_iff, List.flatMap_cons]
      constructor
      · rintro ⟨w, hw, rfl⟩
        obtain ⟨h1, rfl⟩ := (ih hs' w).1 hw
        exact ⟨h1, rfl⟩
      · rintro ⟨h1, rfl⟩
        exact ⟨_, (ih hs' _).2 ⟨h1, rfl⟩, rfl⟩
    by_cases hb : c = 0x5C
    · subst hb
      have hg : (0x5C : Nat) ≠ 0x22 ∧ (0x5C : Nat) ≠ 7 ∧ (0x5C : Nat) ≠ 11 ∧ (0x10000 ≤ 0x5C → isPrint 0x5C = true) :=
        ⟨by decide, by decide, by decide, fun h => absurd h (by decide)⟩
      by_cases hbad : (∃ a, cs = 0x78 :: a) ∨ ∃ a, cs = 0x75 :: 0x30 :: 0x30 :: a
      · obtain ⟨w, hw⟩ := final_bad hp cs hbad
        rw [hw, List.append_assoc, tok_backslash.step, List.append_assoc,
          fail_letter (by decide) (fun t => by simp [javaEscape, octVal])]
        constructor
        · intro h; simp at h
        · rintro ⟨⟨_, _, h3⟩, _⟩
          rcases hbad with h | h
          · exact absurd h (h3 rfl).1
          · exact absurd h (h3 rfl).2
      · rw [not_or] at hbad
        rw [final_backslash cs hs' hbad.1 hbad.2]
        have hpc : patternChar isPrint 0x5C = [0x5C] := by
          unfold patternChar
          rw [if_neg]
          · decide
          · rintro ⟨_, h, _⟩
            rw [(hp 0x5C (by decide)).2 (by decide)] at h
            cases h
        rw [use (by rw [hpc]; exact tok_backslash)]
        exact ⟨fun ⟨h1, h2⟩ => ⟨⟨hg, h1, fun _ => hbad⟩, h2⟩, fun ⟨⟨_, h1, _⟩, h2⟩ => ⟨h1, h2⟩⟩
    · obtain ⟨tok, h1, h2, h3⟩ := final_char hp c (hs c (by simp)) hb
      rw [h1]
      by_cases hg : c ≠ 0x22 ∧ c ≠ 7 ∧ c ≠ 11 ∧ (0x10000 ≤ c → isPrint c = true)
      · obtain ⟨ph, ht⟩ := h2 hg
        rw [use ht]
        exact ⟨fun ⟨h1, h2⟩ => ⟨⟨hg, h1, fun h => absurd h hb⟩, h2⟩, fun ⟨⟨_, h1, _⟩, h2⟩ => ⟨h1, h2⟩⟩
      · rw [List.append_assoc, h3 hg _ (by simp)]
        constructor
        · intro h; simp at h
        · rintro ⟨⟨h, _⟩, _⟩; exact absurd h hg

end PGV.Java
