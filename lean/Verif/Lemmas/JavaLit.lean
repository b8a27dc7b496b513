import Verif.Java.Literal
import Verif.Spec.JavaLiteral
import Verif.Lemmas.LitText

/-!
Reading Java literals.
-/

set_option linter.unusedSimpArgs false

namespace PGV.Java
open PGV PGV.Spec
open PGV.Go (escapedRune quoteBody simpleEscape hexDigits lowerDigit)

/-! ### The reader -/

theorem octalEscape_rest (d : Nat) (t : Bytes) : (octalEscape d t).2.length ≤ t.length := by
  unfold octalEscape
  cases t with
  | nil => simp
  | cons b t =>
    cases h : octVal b with
    | none => simp [h]
    | some e =>
      cases t with
      | nil => simp [h]
      | cons c t =>
        cases h' : octVal c with
        | none => simp [h, h']
        | some g =>
          simp only [h, h']
          split <;> simp <;> omega

theorem encode_le4 (r : Nat) : (encodeRune r).length ≤ 4 := by
  unfold encodeRune
  generalize (if (0xD800 ≤ r ∧ r < 0xE000) ∨ 0x110000 ≤ r then runeError else r) = q
  simp only
  repeat' split
  all_goals simp

theorem octVal_lt {b : UInt8} {d : Nat} (h : octVal b = some d) : d < 8 := by
  unfold octVal at h
  split at h
  · injection h with h; omega
  · cases h

theorem encode_le2 {r : Nat} (h : r < 0x800) : (encodeRune r).length ≤ 2 := by
  unfold encodeRune
  have hc : ¬ ((0xD800 ≤ r ∧ r < 0xE000) ∨ 0x110000 ≤ r) := by omega
  simp only [hc, if_false, h, if_true]
  split <;> simp

/-- An octal escape denotes fewer bytes than it has digits and the backslash. -/
theorem octal_shrinks {d : Nat} (hd : d < 8) (t : Bytes) :
    (encodeRune (octalEscape d t).1).length + (octalEscape d t).2.length < t.length + 2 := by
  have one : ∀ r, r < 0x80 → (encodeRune r).length = 1 := fun r hr => by rw [Cpp.encode_small hr]; rfl
  unfold octalEscape
  cases t with
  | nil => simp [one d (by omega)]
  | cons b t =>
    cases h : octVal b with
    | none => simp [h, one d (by omega)]; omega
    | some e =>
      have he := octVal_lt h
      cases t with
      | nil => simp [h, one (d * 8 + e) (by omega)]
      | cons c t =>
        cases h' : octVal c with
        | none => simp [h, h', one (d * 8 + e) (by omega)]; omega
        | some g =>
          have hg := octVal_lt h'
          simp only [h, h']
          split
          · have := encode_le2 (r := d * 64 + e * 8 + g) (by omega)
            simp only [List.length_cons]; omega
          · simp only [List.length_cons, one (d * 8 + e) (by omega)]; omega

theorem escape_shrinks {t v rest : Bytes} (h : javaEscape t = some (v, rest)) :
    v.length + rest.length < t.length + 1 ∧ rest.length < t.length := by
  cases t with
  | nil => simp [javaEscape] at h
  | cons c t =>
    simp only [javaEscape] at h
    have one : ∀ {x : UInt8}, some ([x], t) = some (v, rest) →
        v.length + rest.length < (c :: t).length + 1 ∧ rest.length < (c :: t).length := by
      intro x h
      simp only [Option.some.injEq, Prod.mk.injEq] at h
      obtain ⟨rfl, rfl⟩ := h
      simp; omega
    by_cases h1 : c = 0x62
    · rw [if_pos h1] at h; exact one h
    rw [if_neg h1] at h
    by_cases h2 : c = 0x73
    · rw [if_pos h2] at h; exact one h
    rw [if_neg h2] at h
    by_cases h3 : c = 0x74
    · rw [if_pos h3] at h; exact one h
    rw [if_neg h3] at h
    by_cases h4 : c = 0x6E
    · rw [if_pos h4] at h; exact one h
    rw [if_neg h4] at h
    by_cases h5 : c = 0x66
    · rw [if_pos h5] at h; exact one h
    rw [if_neg h5] at h
    by_cases h6 : c = 0x72
    · rw [if_pos h6] at h; exact one h
    rw [if_neg h6] at h
    by_cases h7 : c = 0x22
    · rw [if_pos h7] at h; exact one h
    rw [if_neg h7] at h
    by_cases h8 : c = 0x27
    · rw [if_pos h8] at h; exact one h
    rw [if_neg h8] at h
    by_cases h9 : c = 0x5C
    · rw [if_pos h9] at h; exact one h
    rw [if_neg h9] at h
    cases hd : octVal c with
    | none => simp [hd] at h
    | some d =>
      simp only [hd, Option.some.injEq, Prod.mk.injEq] at h
      obtain ⟨rfl, rfl⟩ := h
      have h1 := octal_shrinks (octVal_lt hd) t
      have h2 := octalEscape_rest d t
      simp only [List.length_cons]
      omega

theorem char_rest {t v rest : Bytes} (h : javaChar t = some (v, rest)) : rest.length < t.length := by
  cases t with
  | nil => simp [javaChar] at h
  | cons b t =>
    simp only [javaChar] at h
    split at h
    · cases h
    · split at h
      · have := escape_shrinks h
        simp only [List.length_cons]; omega
      · simp only [Option.some.injEq, Prod.mk.injEq] at h
        obtain ⟨rfl, rfl⟩ := h
        simp

/-- Enough fuel is enough. -/
theorem body_fuel : ∀ (n : Nat) (t : Bytes), t.length ≤ n → javaBody n t = javaBody t.length t := by
  intro n
  induction n using Nat.strongRecOn with
  | _ n ih =>
    intro t ht
    cases n with
    | zero =>
      have : t = [] := List.length_eq_zero_iff.1 (by omega)
      subst this; rfl
    | succ n =>
      cases hl : t.length with
      | zero =>
        have : t = [] := List.length_eq_zero_iff.1 hl
        subst this; simp [javaBody, javaChar]
      | succ m =>
        rw [javaBody, javaBody]
        split
        · rfl
        · cases hc : javaChar t with
          | none => rfl
          | some x =>
            obtain ⟨v, rest⟩ := x
            have := char_rest hc
            simp only
            rw [ih n (by omega) rest (by omega), ih m (by omega) rest (by omega)]

/-- The value of the text of a literal after the opening quote, when Unicode escapes are replaced. -/
def readBody (t : Bytes) : Option Bytes := javaBody t.length t

/-- The value of the text of a literal after the opening quote. -/
def readText (t : Bytes) : Option Bytes := (unicodeEscapes .normal t).bind readBody

theorem javaString_quote (t : Bytes) : javaString (0x22 :: t) = readText t := by
  unfold javaString readText
  rw [unicodeEscapes, if_neg (by decide)]
  cases unicodeEscapes .normal t <;> rfl

theorem readBody_end : readBody [0x22] = some [] := by simp [readBody, javaBody]

theorem readBody_step {tok rest v : Bytes} (hne : tok ++ rest ≠ [0x22])
    (h : javaChar (tok ++ rest) = some (v, rest)) : readBody (tok ++ rest) = (readBody rest).map (v ++ ·) := by
  have hr := char_rest h
  unfold readBody
  cases hl : (tok ++ rest).length with
  | zero => omega
  | succ n =>
    rw [javaBody, if_neg hne, h]
    simp only
    rw [body_fuel n rest (by omega)]

theorem readBody_none {t : Bytes} (hne : t ≠ [0x22]) (h : javaChar t = none) : readBody t = none := by
  unfold readBody
  cases hl : t.length with
  | zero => rfl
  | succ n => rw [javaBody, if_neg hne, h]

theorem readBody_plain {b : UInt8} (h1 : b ≠ 0x22) (h2 : b ≠ 0x5C) (h3 : b ≠ 0x0A) (h4 : b ≠ 0x0D) (t : Bytes) :
    readBody (b :: t) = (readBody t).map (b :: ·) :=
  readBody_step (tok := [b]) (v := [b]) (by simp [h1]) (by simp [javaChar, h1, h2, h3, h4])

/-- A token of the text: what Unicode escapes make of it and the value it is read as. -/
structure Tok (tok ph v : Bytes) : Prop where
  uni : ∀ rest, unicodeEscapes .normal (tok ++ rest) = (unicodeEscapes .normal rest).map (ph ++ ·)
  read : ∀ rest, readBody (ph ++ rest) = (readBody rest).map (v ++ ·)

theorem Tok.step {tok ph v : Bytes} (h : Tok tok ph v) (rest : Bytes) :
    readText (tok ++ rest) = (readText rest).map (v ++ ·) := by
  unfold readText
  rw [h.uni]
  cases unicodeEscapes .normal rest with
  | none => rfl
  | some u => simp [h.read]

/-- Text that Unicode escapes leave alone and that does not read. -/
theorem fail_step {tok : Bytes} (rest : Bytes)
    (huni : ∀ rest, unicodeEscapes .normal (tok ++ rest) = (unicodeEscapes .normal rest).map (tok ++ ·))
    (hread : ∀ u, unicodeEscapes .normal rest = some u → readBody (tok ++ u) = none) :
    readText (tok ++ rest) = none := by
  unfold readText
  rw [huni]
  cases h : unicodeEscapes .normal rest with
  | none => rfl
  | some u => exact hread u h

theorem uni_plain {bs : Bytes} (h : ∀ b ∈ bs, b ≠ 0x5C) (rest : Bytes) :
    unicodeEscapes .normal (bs ++ rest) = (unicodeEscapes .normal rest).map (bs ++ ·) := by
  induction bs with
  | nil => simp
  | cons b bs ih =>
    rw [List.cons_append, unicodeEscapes, if_neg (h b (by simp)), ih fun x hx => h x (by simp [hx])]
    simp [Function.comp_def]

theorem tok_plain {bs : Bytes} (h : ∀ b ∈ bs, b ≠ 0x22 ∧ b ≠ 0x5C ∧ b ≠ 0x0A ∧ b ≠ 0x0D) : Tok bs bs bs := by
  refine ⟨fun rest => uni_plain (fun b hb => (h b hb).2.1) rest, ?_⟩
  intro rest
  induction bs with
  | nil => simp
  | cons b bs ih =>
    have hb := h b (by simp)
    rw [List.cons_append, readBody_plain hb.1 hb.2.1 hb.2.2.1 hb.2.2.2, ih fun x hx => h x (by simp [hx])]
    simp [Function.comp_def]

theorem uni_pair {c : UInt8} (h : c ≠ 0x75) (rest : Bytes) :
    unicodeEscapes .normal ([0x5C, c] ++ rest) = (unicodeEscapes .normal rest).map ([0x5C, c] ++ ·) := by
  show unicodeEscapes .normal (0x5C :: c :: rest) = _
  rw [unicodeEscapes, if_pos rfl, unicodeEscapes, if_neg h]
  rfl

theorem tok_pair {c v : UInt8} (hu : c ≠ 0x75) (h : ∀ t, javaEscape (c :: t) = some ([v], t)) :
    Tok [0x5C, c] [0x5C, c] [v] := by
  refine ⟨uni_pair hu, fun rest => ?_⟩
  refine readBody_step (by simp) ?_
  show javaChar (0x5C :: c :: rest) = _
  rw [javaChar, if_neg (by decide), if_pos rfl, h]

theorem Tok.append {t p v t' p' v' : Bytes} (h : Tok t p v) (h' : Tok t' p' v') : Tok (t ++ t') (p ++ p') (v ++ v') := by
  refine ⟨fun rest => ?_, fun rest => ?_⟩
  · rw [List.append_assoc, h.uni, h'.uni]
    cases unicodeEscapes .normal rest <;> simp
  · rw [List.append_assoc, h.read, h'.read]
    cases readBody rest <;> simp

/-! ### Text that is put between quotes as it is -/

theorem digits_shrink : ∀ (t : Bytes) (s : UState) (u : Bytes), unicodeEscapes s t = some u →
    match s with
    | .normal => u.length ≤ t.length ∧ (u.length = t.length → u = t)
    | .backslash => u.length ≤ t.length + 1 ∧ (u.length = t.length + 1 → u = 0x5C :: t)
    | .u => u.length < t.length + 2
    | .digits n _ => u.length + n < t.length + 6 := by
  intro t
  induction t with
  | nil =>
    intro s u h
    cases s <;> simp [unicodeEscapes] at h
    · subst h; simp
    · subst h; simp
  | cons b t ih =>
    intro s u h
    cases s with
    | normal =>
      rw [unicodeEscapes] at h
      split at h
      · rename_i hb
        have := ih .backslash u h
        simp only at this
        subst hb
        exact ⟨by simp only [List.length_cons]; omega, fun e => this.2 (by simpa using e)⟩
      · obtain ⟨u', h', rfl⟩ := Option.map_eq_some_iff.1 h
        have := ih .normal u' h'
        simp only at this
        refine ⟨by simp only [List.length_cons]; omega, fun e => ?_⟩
        rw [this.2 (by simpa using e)]
    | backslash =>
      rw [unicodeEscapes] at h
      split at h
      · have := ih .u u h
        simp only at this
        refine ⟨by simp only [List.length_cons]; omega, fun e => ?_⟩
        simp only [List.length_cons] at e
        omega
      · obtain ⟨u', h', rfl⟩ := Option.map_eq_some_iff.1 h
        have := ih .normal u' h'
        simp only at this
        refine ⟨by simp only [List.length_cons]; omega, fun e => ?_⟩
        rw [this.2 (by simpa using e)]
    | u =>
      rw [unicodeEscapes] at h
      split at h
      · have := ih .u u h
        simp only at this
        simp only [List.length_cons]; omega
      · split at h
        · have := ih _ u h
          simp only at this
          simp only [List.length_cons]; omega
        · cases h
    | digits n acc =>
      rw [unicodeEscapes] at h
      split at h
      · split at h
        · have := ih _ u h
          simp only at this
          simp only [List.length_cons]; omega
        · split at h
          · obtain ⟨u', h', rfl⟩ := Option.map_eq_some_iff.1 h
            rename_i x _ _ _
            have := ih .normal u' h'
            simp only at this
            have := encode_le4 (acc * 16 + x)
            simp only [List.length_append, List.length_cons]; omega
          · cases h
      · cases h

/-- The value is at least one byte shorter than the text, and only plain text gives one byte. -/
theorem body_shrinks : ∀ (n : Nat) (t v : Bytes), javaBody n t = some v →
    v.length + 1 ≤ t.length ∧ (v.length + 1 = t.length → t = v ++ [0x22] ∧ JavaPlain v) := by
  intro n
  induction n with
  | zero => intro t v h; simp [javaBody] at h
  | succ n ih =>
    intro t v h
    rw [javaBody] at h
    split at h
    · rename_i ht
      injection h with h
      subst h; subst ht
      exact ⟨by simp, fun _ => ⟨rfl, by simp [JavaPlain]⟩⟩
    · cases hc : javaChar t with
      | none => simp [hc] at h
      | some x =>
        obtain ⟨w, rest⟩ := x
        simp only [hc] at h
        obtain ⟨v', h', rfl⟩ := Option.map_eq_some_iff.1 h
        have hi := ih rest v' h'
        cases t with
        | nil => simp [javaChar] at hc
        | cons b t =>
          simp only [javaChar] at hc
          split at hc
          · cases hc
          · rename_i hb
            split at hc
            · have := escape_shrinks hc
              refine ⟨by simp only [List.length_append, List.length_cons]; omega, fun e => ?_⟩
              simp only [List.length_append, List.length_cons] at e
              omega
            · rename_i hb'
              simp only [Option.some.injEq, Prod.mk.injEq] at hc
              obtain ⟨rfl, rfl⟩ := hc
              simp only [not_or] at hb
              refine ⟨by simp only [List.length_append, List.length_cons, List.length_nil]; omega, fun e => ?_⟩
              obtain ⟨h1, h2⟩ := hi.2 (by simpa using e)
              refine ⟨by rw [h1]; rfl, ?_⟩
              intro x hx
              rcases List.mem_cons.1 hx with rfl | hx
              · exact ⟨hb.1, hb', hb.2⟩
              · exact h2 x hx

theorem read_raw (s : Bytes) : javaString (rawString s) = some s ↔ JavaPlain s := by
  unfold rawString
  rw [List.cons_append, javaString_quote]
  constructor
  · intro h
    unfold readText at h
    cases hu : unicodeEscapes .normal (s ++ [0x22]) with
    | none => simp [hu] at h
    | some u =>
      simp only [hu, Option.bind_some] at h
      have h1 := digits_shrink _ _ _ hu
      have h2 := body_shrinks _ _ _ h
      simp only [List.length_append, List.length_cons, List.length_nil] at h1
      exact (h2.2 (by omega)).2
  · intro h
    rw [(tok_plain h).step]
    have : readText [0x22] = some [] := by
      unfold readText
      rw [unicodeEscapes, if_neg (by decide), unicodeEscapes]
      exact readBody_end
    rw [this]; simp

end PGV.Java
