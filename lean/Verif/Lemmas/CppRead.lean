import Verif.Lemmas.CppLit
import Verif.Spec.CppCompile

/-!
Exactly which texts become string literals a C++ compiler reads.
-/

set_option linter.unusedSimpArgs false
set_option autoImplicit false

namespace PGV.Cpp
open PGV PGV.Spec PGV.Spec.Cpp
open PGV.Go (lowerDigit litString escapedRune quoteBody hexDigits simpleEscape)

/-- The text, up to and with the closing quote, stands for something. -/
def Can (t : Bytes) : Prop := ∃ n v, readBody n t = some v

theorem readBody_le {n m : Nat} (h : n ≤ m) {t v : Bytes} (e : readBody n t = some v) : readBody m t = some v := by
  induction h with
  | refl => exact e
  | step _ ih => exact readBody_mono _ _ _ ih

theorem hexRun_length (t : Bytes) (acc : Nat) : (hexRun acc t).2.length ≤ t.length := by
  induction t generalizing acc with
  | nil => simp [hexRun]
  | cons b t ih =>
    rw [hexRun]
    split
    · have := ih (acc * 16 + ‹Nat›); simp only [List.length_cons]; omega
    · simp

theorem hexExact_length (n acc : Nat) (t : Bytes) (p : Nat × Bytes) (h : hexExact n acc t = some p) :
    p.2.length ≤ t.length := by
  induction n generalizing acc t with
  | zero => simp [hexExact] at h; subst h; simp
  | succ n ih =>
    cases t with
    | nil => simp [hexExact] at h
    | cons b t =>
      rw [hexExact] at h
      split at h
      · have := ih _ _ h; simp only [List.length_cons]; omega
      · simp at h

theorem readChar_shorter (t v rest : Bytes) (h : readChar t = some (v, rest)) : rest.length < t.length := by
  unfold readChar at h
  split at h
  · simp at h
  split at h
  · simp at h
  split at h
  · split at h
    · simp at h
    split at h
    · simp at h; rw [← h.2]; simp only [List.length_cons]; omega
    split at h
    · simp at h
      rw [← h.2.2]; simp only [List.length_cons]; omega
    split at h
    · obtain ⟨p, he, hp⟩ := Option.map_eq_some_iff.1 h
      have := hexExact_length _ _ _ _ he
      simp at hp; rw [← hp.2]; simp only [List.length_cons]; omega
    split at h
    · obtain ⟨p, he, hp⟩ := Option.map_eq_some_iff.1 h
      have := hexExact_length _ _ _ _ he
      simp at hp; rw [← hp.2]; simp only [List.length_cons]; omega
    · simp at h
  · simp at h; rw [← h.2]; simp only [List.length_cons]; omega

theorem Can.fuel {t : Bytes} (h : Can t) : ∃ v, readBody t.length t = some v := by
  obtain ⟨n, v, e⟩ := h
  refine ⟨v, ?_⟩
  suffices ∀ n t v, readBody n t = some v → readBody t.length t = some v from this n t v e
  intro n
  induction n with
  | zero => intro t v h; simp [readBody] at h
  | succ n ih =>
    intro t v h
    rw [readBody] at h
    by_cases ht : t = [0x22]
    · subst ht; rw [if_pos rfl] at h; rw [← h]; simp [readBody]
    · rw [if_neg ht] at h
      cases hs : readChar t with
      | none => simp [hs] at h
      | some p =>
        obtain ⟨w, rest⟩ := p
        have hl := readChar_shorter _ _ _ hs
        simp only [hs] at h
        cases hb : readBody n rest with
        | none => simp [hb] at h
        | some u =>
          have := readBody_le (show rest.length ≤ t.length - 1 by omega) (ih _ _ hb)
          rw [show t.length = (t.length - 1) + 1 by omega, readBody, if_neg ht, hs]
          simp only [this]; simpa [hb] using h

theorem readLit_can (t : Bytes) : (readLit (0x22 :: t)).isSome = true ↔ Can t := by
  show (readBody t.length t).isSome = true ↔ _
  constructor
  · intro h
    obtain ⟨v, e⟩ := Option.isSome_iff_exists.1 h
    exact ⟨_, v, e⟩
  · intro h
    obtain ⟨v, e⟩ := h.fuel
    rw [e]; rfl

theorem can_nil : Can [0x22] := ⟨1, [], by simp [readBody]⟩

theorem can_step {t rest v : Bytes} (hc : readChar t = some (v, rest)) : Can t ↔ Can rest := by
  have hne : t ≠ [0x22] := by rintro rfl; simp [readChar] at hc
  constructor
  · rintro ⟨n, w, e⟩
    cases n with
    | zero => simp [readBody] at e
    | succ n =>
      rw [readBody, if_neg hne, hc] at e
      simp only at e
      cases hb : readBody n rest with
      | none => simp [hb] at e
      | some u => exact ⟨n, u, hb⟩
  · rintro ⟨n, w, e⟩
    exact ⟨n + 1, v ++ w, by rw [readBody, if_neg hne, hc]; simp [e]⟩

theorem cannot {t : Bytes} (hne : t ≠ [0x22]) (hc : readChar t = none) : ¬ Can t := by
  rintro ⟨n, w, e⟩
  cases n with
  | zero => simp [readBody] at e
  | succ n => rw [readBody, if_neg hne, hc] at e; simp at e

theorem can_plain (bs t : Bytes) (h : ∀ b ∈ bs, b ≠ 0x22 ∧ b ≠ 0x0A ∧ b ≠ 0x5C) : Can (bs ++ t) ↔ Can t := by
  induction bs with
  | nil => exact Iff.rfl
  | cons b bs ih =>
    obtain ⟨h1, h2, h3⟩ := h b (by simp)
    rw [← ih fun x hx => h x (by simp [hx])]
    exact can_step (readChar_plain h1 h2 h3 (bs ++ t))

/-! ### Runs of digits -/

theorem hexDigit_hexVal (b : UInt8) : hexDigit b = hexVal b := by
  unfold hexDigit hexVal
  simp only [UInt8.le_iff_toNat_le]
  rfl

/-- Is a hexadecimal digit. -/
abbrev isHex (b : UInt8) : Bool := (hexVal b).isSome

theorem hexRun_take (t : Bytes) (acc : Nat) (ds : Bytes) (hd : ∀ d ∈ ds, isHex d = true) (ht : Stops t) :
    hexRun acc (ds ++ t) = (hexNumber acc ds, t) := by
  induction ds generalizing acc with
  | nil => exact hexRun_stop ht acc
  | cons d ds ih =>
    obtain ⟨x, hx⟩ := Option.isSome_iff_exists.1 (hd d (by simp))
    rw [List.cons_append, hexRun, hexDigit_hexVal, hx]
    simp only
    rw [ih _ fun y hy => hd y (by simp [hy])]
    simp [hexNumber, hx]

theorem isHex_iff (b : UInt8) : isHex b = true ↔ HexDigit b := by
  have := hexDigit_none b
  rw [hexDigit_hexVal] at this
  cases h : hexVal b with
  | none => simp [isHex, h, this.1 h]
  | some x => simp only [isHex, h, Option.isSome_some, true_iff]; exact Classical.byContradiction fun hn => by simp [this.2 hn] at h

theorem hex_plain {b : UInt8} (h : isHex b = true) : b ≠ 0x22 ∧ b ≠ 0x0A ∧ b ≠ 0x5C := by
  refine ⟨?_, ?_, ?_⟩ <;> rintro rfl <;> revert h <;> decide

theorem hex_range {b : UInt8} (h : isHex b = true) : 0x30 ≤ b.toNat ∧ b.toNat < 0x67 := by
  simp only [isHex, hexVal] at h
  repeat' split at h
  all_goals first | omega | simp at h

/-- The digits at the start of the text stay as they are in the literal. -/
theorem run_split (isPrint : Nat → Bool) (hp : PrintsAscii isPrint) (cs : List Nat) (h : ∀ c ∈ cs, ScalarValue c) :
    ∃ ds : List Nat, cs.flatMap (escapedRune isPrint) ++ [0x22] =
        (cs.flatMap encodeRune).takeWhile isHex ++ (ds.flatMap (escapedRune isPrint) ++ [0x22]) ∧
      Stops (ds.flatMap (escapedRune isPrint) ++ [0x22]) ∧ (∀ d ∈ ds, d ∈ cs) ∧ ds.length ≤ cs.length ∧
      cs.flatMap encodeRune = (cs.flatMap encodeRune).takeWhile isHex ++ ds.flatMap encodeRune := by
  induction cs with
  | nil => exact ⟨[], rfl, by intro b t e; simp at e; rw [← e.1]; decide, by simp, by simp, rfl⟩
  | cons c cs ih =>
    have hs : IsScalar c := h c (by simp)
    obtain ⟨b, t, e, hb⟩ := first_byte hs
    by_cases hx : isHex b = true
    · have hr := hex_range hx
      have hc : c < 0x80 ∧ b.toNat = c := by omega
      have e1 : encodeRune c = [b] := by
        rw [encode_small hc.1, ← hc.2]; simp
      have e2 : escapedRune isPrint c = [b] := by
        unfold escapedRune
        rw [if_neg (by have := hex_plain hx; intro hq; rcases hq with hq | hq <;> (rw [← hc.2] at hq)
                       · exact this.1 (UInt8.toNat_inj.1 hq)
                       · exact this.2.2 (UInt8.toNat_inj.1 hq)),
          if_pos ((hp c hc.1).2 (by omega)), e1]
      obtain ⟨ds, er, hst, hm, hl, ee⟩ := ih fun x hx => h x (by simp [hx])
      refine ⟨ds, ?_, hst, fun d hd => by simp [hm d hd], by simp only [List.length_cons]; omega, ?_⟩
      · rw [List.flatMap_cons, List.flatMap_cons, e1, e2, List.append_assoc, er]
        simp [hx]
      · rw [List.flatMap_cons, e1]
        simp only [List.singleton_append, List.takeWhile_cons, hx, if_true, List.cons_append]
        rw [List.nil_append, ← ee]
    · refine ⟨c :: cs, ?_, stops_rest isPrint (c :: cs) h ?_, fun _ h => h, Nat.le_refl _, ?_⟩
      · rw [List.flatMap_cons (f := encodeRune), e]
        simp [List.takeWhile_cons, hx]
      · intro d u ed
        rw [List.flatMap_cons, e] at ed
        simp at ed
        rw [← ed.1, ← isHex_iff]; exact hx
      · rw [List.flatMap_cons (f := encodeRune), e]
        simp [List.takeWhile_cons, hx]

/-! ### The condition -/

theorem clit_cons (b : UInt8) (s : Bytes) :
    CLiteral (b :: s) ↔ (HexEscaped b → hexNumber b.toNat (s.takeWhile isHex) < 256) ∧ CLiteral s := by
  constructor
  · intro h
    exact ⟨fun hb => h [] b s rfl hb, fun a c t e hc => h (b :: a) c t (by rw [e]; rfl) hc⟩
  · rintro ⟨h1, h2⟩ a c t e hc
    cases a with
    | nil => simp at e; obtain ⟨rfl, rfl⟩ := e; exact h1 hc
    | cons x a => simp at e; exact h2 a c t e.2 hc

theorem clit_skip (bs s : Bytes) (h : ∀ b ∈ bs, ¬ HexEscaped b) : CLiteral (bs ++ s) ↔ CLiteral s := by
  induction bs with
  | nil => exact Iff.rfl
  | cons b bs ih =>
    rw [List.cons_append, clit_cons, ih fun x hx => h x (by simp [hx])]
    simp [h b]

theorem hexNumber_two (c : Nat) (hc : c < 256) (ds : Bytes) :
    hexNumber 0 (hexDigits 2 c ++ ds) = hexNumber c ds := by
  unfold hexNumber
  rw [List.foldl_append]
  congr 1
  have h1 := hexDigit_lower (n := c / 16 % 16) (by omega)
  have h2 := hexDigit_lower (n := c % 16) (by omega)
  rw [hexDigit_hexVal] at h1 h2
  simp [hexDigits, h1, h2]
  omega

theorem take_hex (l : Bytes) : ∀ d ∈ l.takeWhile isHex, isHex d = true := by
  induction l with
  | nil => simp
  | cons y l ihl =>
    intro d hd
    rw [List.takeWhile_cons] at hd
    split at hd
    · rcases List.mem_cons.1 hd with rfl | hd
      · assumption
      · exact ihl d hd
    · simp at hd

theorem run_value (c : Nat) (hc : c < 256) (l rest : Bytes) (hst : Stops rest) :
    hexRun 0 (hexDigits 2 c ++ l.takeWhile isHex ++ rest) = (hexNumber c (l.takeWhile isHex), rest) := by
  have hdig : ∀ d ∈ hexDigits 2 c ++ l.takeWhile isHex, isHex d = true := by
    intro d hd
    rcases List.mem_append.1 hd with hd | hd
    · have l1 := hexDigit_lower (n := c / 16 % 16) (by omega)
      have l2 := hexDigit_lower (n := c % 16) (by omega)
      rw [hexDigit_hexVal] at l1 l2
      simp only [hexDigits, List.mem_cons, List.not_mem_nil, or_false] at hd
      rcases hd with rfl | rfl
      · simp [isHex, l1]
      · simp [isHex, Nat.div_one, l2]
    · exact take_hex l d hd
  have run := hexRun_take rest 0 _ hdig hst
  rwa [hexNumber_two c hc] at run

theorem readChar_bad (ds t : Bytes) (v : Nat) (hv : ¬ v < 256)
    (h : hexRun 0 (ds ++ t) = (v, t)) : readChar (0x5C :: 0x78 :: ds ++ t) = none := by
  show readChar (0x5C :: 0x78 :: (ds ++ t)) = _
  simp only [readChar]
  rw [if_neg (by decide), if_pos trivial]
  simp only [show escapeLetter 0x78 = none from by decide, h, if_true]
  rw [if_neg]
  exact fun hh => hv hh.2

theorem notEscaped_of_ge {b : UInt8} (h : 0x20 ≤ b.toNat) (h2 : b.toNat ≠ 0x7F) : ¬ HexEscaped b := by
  unfold HexEscaped; omega

theorem can_text (isPrint : Nat → Bool) (hp : PrintsAscii isPrint) (cs : List Nat) (h : ∀ c ∈ cs, ScalarValue c) :
    Can (cs.flatMap (escapedRune isPrint) ++ [0x22]) ↔ CLiteral (cs.flatMap encodeRune) := by
  induction cs with
  | nil => exact iff_of_true can_nil (by intro a c t e; simp at e)
  | cons c cs ih =>
    have hs : IsScalar c := h c (by simp)
    have hcs : ∀ x ∈ cs, ScalarValue x := fun x hx => h x (by simp [hx])
    have ih := ih hcs
    rw [List.flatMap_cons, List.flatMap_cons, List.append_assoc]
    have hbig : 0x80 ≤ c → ∀ b ∈ encodeRune c, ¬ HexEscaped b := by
      intro hc b hb
      rcases encode_bytes hs b hb with hh | hh
      · omega
      · exact notEscaped_of_ge (by omega) (by omega)
    have hone : c < 0x80 → ¬ (c < 0x20 ∧ ¬ (7 ≤ c ∧ c ≤ 13)) → c ≠ 0x7F → ∀ b ∈ encodeRune c, ¬ HexEscaped b := by
      intro hc h1 h2 b hb
      rw [encode_small hc, List.mem_singleton] at hb
      subst hb
      unfold HexEscaped
      rw [ofNat_toNat (by omega)]
      omega
    by_cases h1 : c = 0x22 ∨ c = 0x5C
    · have e : escapedRune isPrint c = [0x5C, UInt8.ofNat c] := by unfold escapedRune; rw [if_pos h1]
      have hl : escapeLetter (UInt8.ofNat c) = some (UInt8.ofNat c) := by rcases h1 with rfl | rfl <;> decide
      rw [e, can_step (readChar_letter _ _ hl _), ih, clit_skip _ _ (hone (by omega) (by omega) (by omega))]
    by_cases h2 : isPrint c = true
    · have e : escapedRune isPrint c = encodeRune c := by unfold escapedRune; rw [if_neg h1, if_pos h2]
      have hr : 0x80 ≤ c ∨ (0x20 ≤ c ∧ c < 0x7F) := by
        by_cases hc : c < 0x80
        · exact Or.inr ((hp c hc).1 h2)
        · exact Or.inl (by omega)
      rw [e, can_plain _ _ (encode_plain hs (by omega) (by omega) (by omega)), ih, clit_skip]
      rcases hr with hr | hr
      · exact hbig hr
      · exact hone (by omega) (by omega) (by omega)
    have hr : 0x80 ≤ c ∨ c < 0x20 ∨ c = 0x7F := by
      by_cases hc : c < 0x80
      · have := mt (hp c hc).2 h2; omega
      · exact Or.inl (by omega)
    cases h3 : simpleEscape c with
    | some l =>
      have e : escapedRune isPrint c = [0x5C, l] := by unfold escapedRune; rw [if_neg h1, if_neg h2, h3]
      obtain ⟨hl, hv⟩ := simple_letter h3
      rw [e, can_step (readChar_letter _ _ hv _), ih, clit_skip]
      refine hone (by omega) ?_ (by omega)
      have : 7 ≤ c ∧ c ≤ 13 := by
        unfold simpleEscape at h3
        repeat' split at h3
        all_goals first | (subst c; decide) | (simp at h3; done)
      omega
    | none =>
      by_cases h4 : c < 0x20 ∨ c = 0x7F
      · have e : escapedRune isPrint c = 0x5C :: 0x78 :: hexDigits 2 c := by
          unfold escapedRune; rw [if_neg h1, if_neg h2, h3]; simp only; rw [if_pos h4]
        have ec : encodeRune c = [UInt8.ofNat c] := encode_small (by omega)
        obtain ⟨ds, er, hst, -⟩ := run_split isPrint hp cs hcs
        generalize ds.flatMap (escapedRune isPrint) ++ [0x22] = rest at er hst
        have he : HexEscaped (UInt8.ofNat c) := by
          unfold HexEscaped; rw [ofNat_toNat (by omega)]; have := simple_none h3; omega
        have htake := take_hex (cs.flatMap encodeRune)
        have run := run_value c (by omega) (cs.flatMap encodeRune) rest hst
        rw [ec, List.singleton_append, clit_cons, ← ih, e, er, can_plain _ rest fun d hd => hex_plain (htake d hd)]
        simp only [he, true_imp_iff, ofNat_toNat (show c < 256 by omega)]
        have eq : 0x5C :: 0x78 :: hexDigits 2 c ++ ((cs.flatMap encodeRune).takeWhile isHex ++ rest) =
            0x5C :: 0x78 :: (hexDigits 2 c ++ (cs.flatMap encodeRune).takeWhile isHex) ++ rest := by simp
        rw [eq]
        by_cases hv : hexNumber c ((cs.flatMap encodeRune).takeWhile isHex) < 256
        · rw [can_step (readChar_x _ rest _ (by simp [hexDigits]) hv run)]
          simp [hv]
        · refine iff_of_false (cannot (by simp) (readChar_bad _ rest _ hv run)) fun hh => hv hh.1
      · by_cases h5 : c < 0x10000
        · have e : escapedRune isPrint c = 0x5C :: 0x75 :: hexDigits 4 c := by
            unfold escapedRune; rw [if_neg h1, if_neg h2, h3]; simp only; rw [if_neg h4, if_pos h5]
          rw [e, can_step (readChar_u h5 _), ih, clit_skip _ _ (hbig (by omega))]
        · have e : escapedRune isPrint c = 0x5C :: 0x55 :: hexDigits 8 c := by
            unfold escapedRune; rw [if_neg h1, if_neg h2, h3]; simp only; rw [if_neg h4, if_neg h5]
          rw [e, can_step (readChar_U hs.1 _), ih, clit_skip _ _ (hbig (by omega))]

/-- Text is a literal exactly when no escape grows too large. -/
theorem textLit_iff (isPrint : Nat → Bool) (hp : PrintsAscii isPrint) {s : Bytes} (h : Utf8 s) :
    textLit (litString isPrint s) = true ↔ CLiteral s := by
  obtain ⟨cs, hcs, rfl⟩ := h
  unfold textLit litString
  rw [quoteBody_encode isPrint cs hcs _ (Nat.le_refl _)]
  exact (readLit_can _).trans (can_text isPrint hp cs hcs)

/-! ### What is read -/

theorem apart_cons (b : UInt8) (s : Bytes) :
    Apart (b :: s) ↔ (HexEscaped b → s.takeWhile isHex = []) ∧ Apart s := by
  constructor
  · intro h
    refine ⟨fun hb => ?_, fun a c d t e => h (b :: a) c d t (by rw [e]; rfl)⟩
    cases s with
    | nil => rfl
    | cons d t =>
      have := h [] b d t rfl hb
      rw [← isHex_iff] at this
      simp [List.takeWhile_cons, this]
  · rintro ⟨h1, h2⟩ a c d t e hc
    cases a with
    | nil =>
      simp at e; obtain ⟨rfl, rfl⟩ := e
      have := h1 hc
      rw [← isHex_iff]
      intro hd
      simp [List.takeWhile_cons, hd] at this
    | cons x a => simp at e; exact h2 a c d t e.2 hc

theorem apart_skip (bs s : Bytes) (h : ∀ b ∈ bs, ¬ HexEscaped b) : Apart (bs ++ s) ↔ Apart s := by
  induction bs with
  | nil => exact Iff.rfl
  | cons b bs ih =>
    rw [List.cons_append, apart_cons, ih fun x hx => h x (by simp [hx])]
    simp [h b]

theorem readBody_step {n : Nat} {t rest v w : Bytes} (hc : readChar t = some (v, rest))
    (h : readBody n t = some w) : ∃ m u, readBody m rest = some u ∧ w = v ++ u := by
  have hne : t ≠ [0x22] := by rintro rfl; simp [readChar] at hc
  cases n with
  | zero => simp [readBody] at h
  | succ n =>
    rw [readBody, if_neg hne, hc] at h
    simp only [Option.map_eq_some_iff] at h
    obtain ⟨u, hu, rfl⟩ := h
    exact ⟨n, u, hu, rfl⟩

theorem readBody_plain {bs t w : Bytes} {n : Nat} (hb : ∀ b ∈ bs, b ≠ 0x22 ∧ b ≠ 0x0A ∧ b ≠ 0x5C)
    (h : readBody n (bs ++ t) = some w) : ∃ m u, readBody m t = some u ∧ w = bs ++ u := by
  induction bs generalizing n w with
  | nil => exact ⟨n, w, h, rfl⟩
  | cons b bs ih =>
    obtain ⟨h1, h2, h3⟩ := hb b (by simp)
    obtain ⟨m, u, hu, rfl⟩ := readBody_step (readChar_plain h1 h2 h3 (bs ++ t)) h
    obtain ⟨k, x, hx, rfl⟩ := ih (fun y hy => hb y (by simp [hy])) hu
    exact ⟨k, x, hx, rfl⟩

/-- What is read is not longer than the text, and shorter if an escape ran on. -/
theorem read_length (isPrint : Nat → Bool) (hp : PrintsAscii isPrint) : ∀ (k : Nat) (cs : List Nat),
    cs.length ≤ k → (∀ c ∈ cs, ScalarValue c) → ∀ n w, readBody n (cs.flatMap (escapedRune isPrint) ++ [0x22]) = some w →
    w.length ≤ (cs.flatMap encodeRune).length ∧
      (w.length = (cs.flatMap encodeRune).length → Apart (cs.flatMap encodeRune)) := by
  intro k
  induction k with
  | zero =>
    intro cs hk hcs n w h
    have : cs = [] := List.length_eq_zero_iff.1 (by omega)
    subst this
    cases n with
    | zero => simp [readBody] at h
    | succ n => simp [readBody] at h; subst h; exact ⟨by simp, fun _ a c d t e => by simp at e⟩
  | succ k ih =>
    intro cs hk hcs n w h
    cases cs with
    | nil => exact ih [] (by simp) (by simp) n w h
    | cons c cs =>
      have hs : IsScalar c := hcs c (by simp)
      have hcs' : ∀ x ∈ cs, ScalarValue x := fun x hx => hcs x (by simp [hx])
      simp only [List.length_cons] at hk
      have ih' := ih cs (by omega) hcs'
      rw [List.flatMap_cons, List.append_assoc] at h
      rw [List.flatMap_cons]
      have hbig : 0x80 ≤ c → ∀ b ∈ encodeRune c, ¬ HexEscaped b := by
        intro hc b hb
        rcases encode_bytes hs b hb with hh | hh
        · omega
        · exact notEscaped_of_ge (by omega) (by omega)
      have hone : c < 0x80 → ¬ (c < 0x20 ∧ ¬ (7 ≤ c ∧ c ≤ 13)) → c ≠ 0x7F → ∀ b ∈ encodeRune c, ¬ HexEscaped b := by
        intro hc h1 h2 b hb
        rw [encode_small hc, List.mem_singleton] at hb
        subst hb
        unfold HexEscaped
        rw [ofNat_toNat (by omega)]
        omega
      have fin : ∀ v u : Bytes, v.length = (encodeRune c).length → (∀ b ∈ encodeRune c, ¬ HexEscaped b) →
          (∃ m, readBody m (cs.flatMap (escapedRune isPrint) ++ [0x22]) = some u) →
          (v ++ u).length ≤ (encodeRune c ++ cs.flatMap encodeRune).length ∧
          ((v ++ u).length = (encodeRune c ++ cs.flatMap encodeRune).length →
            Apart (encodeRune c ++ cs.flatMap encodeRune)) := by
        rintro v u hv hb ⟨m, hm⟩
        obtain ⟨i1, i2⟩ := ih' m u hm
        simp only [List.length_append]
        rw [apart_skip _ _ hb]
        exact ⟨by omega, fun e => i2 (by omega)⟩
      by_cases h1 : c = 0x22 ∨ c = 0x5C
      · have e : escapedRune isPrint c = [0x5C, UInt8.ofNat c] := by unfold escapedRune; rw [if_pos h1]
        have hl : escapeLetter (UInt8.ofNat c) = some (UInt8.ofNat c) := by rcases h1 with rfl | rfl <;> decide
        rw [e] at h
        obtain ⟨m, u, hu, rfl⟩ := readBody_step (readChar_letter _ _ hl _) h
        exact fin _ _ (by rw [encode_small (by omega)]) (hone (by omega) (by omega) (by omega)) ⟨m, hu⟩
      by_cases h2 : isPrint c = true
      · have e : escapedRune isPrint c = encodeRune c := by unfold escapedRune; rw [if_neg h1, if_pos h2]
        have hr : 0x80 ≤ c ∨ (0x20 ≤ c ∧ c < 0x7F) := by
          by_cases hc : c < 0x80
          · exact Or.inr ((hp c hc).1 h2)
          · exact Or.inl (by omega)
        rw [e] at h
        obtain ⟨m, u, hu, rfl⟩ := readBody_plain (encode_plain hs (by omega) (by omega) (by omega)) h
        refine fin _ _ rfl ?_ ⟨m, hu⟩
        rcases hr with hr | hr
        · exact hbig hr
        · exact hone (by omega) (by omega) (by omega)
      have hr : 0x80 ≤ c ∨ c < 0x20 ∨ c = 0x7F := by
        by_cases hc : c < 0x80
        · have := mt (hp c hc).2 h2; omega
        · exact Or.inl (by omega)
      cases h3 : simpleEscape c with
      | some l =>
        have e : escapedRune isPrint c = [0x5C, l] := by unfold escapedRune; rw [if_neg h1, if_neg h2, h3]
        obtain ⟨hl, hv⟩ := simple_letter h3
        rw [e] at h
        obtain ⟨m, u, hu, rfl⟩ := readBody_step (readChar_letter _ _ hv _) h
        refine fin _ _ (by rw [encode_small (by omega)]) (hone (by omega) ?_ (by omega)) ⟨m, hu⟩
        have : 7 ≤ c ∧ c ≤ 13 := by
          unfold simpleEscape at h3
          repeat' split at h3
          all_goals first | (subst c; decide) | (simp at h3; done)
        omega
      | none =>
        by_cases h4 : c < 0x20 ∨ c = 0x7F
        · have e : escapedRune isPrint c = 0x5C :: 0x78 :: hexDigits 2 c := by
            unfold escapedRune; rw [if_neg h1, if_neg h2, h3]; simp only; rw [if_pos h4]
          have ec : encodeRune c = [UInt8.ofNat c] := encode_small (by omega)
          obtain ⟨ds, er, hst, hm, hl, ee⟩ := run_split isPrint hp cs hcs'
          have run := run_value c (by omega) (cs.flatMap encodeRune) _ hst
          have he : HexEscaped (UInt8.ofNat c) := by
            unfold HexEscaped; rw [ofNat_toNat (by omega)]; have := simple_none h3; omega
          have eq : 0x5C :: 0x78 :: hexDigits 2 c ++ ((cs.flatMap encodeRune).takeWhile isHex ++
              (ds.flatMap (escapedRune isPrint) ++ [0x22])) =
              0x5C :: 0x78 :: (hexDigits 2 c ++ (cs.flatMap encodeRune).takeWhile isHex) ++
              (ds.flatMap (escapedRune isPrint) ++ [0x22]) := by simp
          rw [e, er, eq] at h
          have hv : hexNumber c ((cs.flatMap encodeRune).takeWhile isHex) < 256 := by
            refine Classical.byContradiction fun hv => ?_
            exact cannot (by simp) (readChar_bad _ _ _ hv run) ⟨n, w, h⟩
          obtain ⟨m, u, hu, rfl⟩ := readBody_step (readChar_x _ _ _ (by simp [hexDigits]) hv run) h
          obtain ⟨i1, i2⟩ := ih ds (by omega) (fun x hx => hcs' x (hm x hx)) m u hu
          have hlen := congrArg List.length ee
          rw [List.length_append] at hlen
          rw [ec]
          refine ⟨?_, fun hh => ?_⟩
          · simp only [List.length_append, List.length_cons, List.length_nil]; omega
          · simp only [List.length_append, List.length_cons, List.length_nil] at hh
            have hz : (cs.flatMap encodeRune).takeWhile isHex = [] := List.length_eq_zero_iff.1 (by omega)
            rw [List.singleton_append, apart_cons]
            refine ⟨fun _ => hz, ?_⟩
            rw [hz, List.nil_append] at ee
            rw [ee]
            exact i2 (by omega)
        · by_cases h5 : c < 0x10000
          · have e : escapedRune isPrint c = 0x5C :: 0x75 :: hexDigits 4 c := by
              unfold escapedRune; rw [if_neg h1, if_neg h2, h3]; simp only; rw [if_neg h4, if_pos h5]
            rw [e] at h
            obtain ⟨m, u, hu, rfl⟩ := readBody_step (readChar_u h5 _) h
            exact fin _ _ rfl (hbig (by omega)) ⟨m, hu⟩
          · have e : escapedRune isPrint c = 0x5C :: 0x55 :: hexDigits 8 c := by
              unfold escapedRune; rw [if_neg h1, if_neg h2, h3]; simp only; rw [if_neg h4, if_neg h5]
            rw [e] at h
            obtain ⟨m, u, hu, rfl⟩ := readBody_step (readChar_U hs.1 _) h
            exact fin _ _ rfl (hbig (by omega)) ⟨m, hu⟩

/-- The literal stands for the text exactly when no escape runs on. -/
theorem litString_iff (isPrint : Nat → Bool) (hp : PrintsAscii isPrint) {s : Bytes} (h : Utf8 s) :
    readLit (litString isPrint s) = some s ↔ Apart s := by
  constructor
  · intro e
    obtain ⟨cs, hcs, rfl⟩ := h
    unfold litString at e
    rw [quoteBody_encode isPrint cs hcs _ (Nat.le_refl _)] at e
    exact (read_length isPrint hp _ cs (Nat.le_refl _) hcs _ _ e).2 rfl
  · intro ha
    refine read_litString isPrint (fun r hr => ?_) ⟨h, ha⟩
    by_cases h8 : r < 0x80
    · exact ((hp r h8).1 hr).1
    · omega

end PGV.Cpp
