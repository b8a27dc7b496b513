import Verif.Lemmas.Known
import Verif.Spec.Text

/-!
Hostnames: from lower-casing to the plain grammar.
-/

set_option linter.unusedSimpArgs false

namespace PGV.Go
open PGV PGV.Spec

theorem splitByte_map (sep : UInt8) (f : UInt8 → UInt8) (hf : ∀ b, f b = sep ↔ b = sep) (s : Bytes) :
    splitByte sep (s.map f) = (splitByte sep s).map (List.map f) := by
  induction s with
  | nil => rfl
  | cons b t ih =>
    simp only [List.map_cons, splitByte]
    by_cases hb : b = sep
    · rw [if_pos ((hf b).2 hb), if_pos hb, ih]; rfl
    · rw [if_neg (fun h => hb ((hf b).1 h)), if_neg hb, ih]
      cases h : splitByte sep t with
      | nil => rfl
      | cons p ps => rfl

theorem lowerByte_dot (b : UInt8) : lowerByte b = 0x2E ↔ b = 0x2E := by
  revert b
  have : ∀ n : Fin 256, lowerByte (UInt8.ofNat n) = 0x2E ↔ UInt8.ofNat n = 0x2E := by decide +kernel
  intro b
  have h := this ⟨b.toNat, b.toNat_lt⟩
  simpa using h

theorem lowerByte_hyphen (b : UInt8) : lowerByte b = 0x2D ↔ b = 0x2D := by
  revert b
  have : ∀ n : Fin 256, lowerByte (UInt8.ofNat n) = 0x2D ↔ UInt8.ofNat n = 0x2D := by decide +kernel
  intro b
  have h := this ⟨b.toNat, b.toNat_lt⟩
  simpa using h

instance (b : UInt8) : Decidable (LabelByte b) := by unfold LabelByte; infer_instance

theorem lowerByte_label (b : UInt8) :
    ((0x61 ≤ lowerByte b ∧ lowerByte b ≤ 0x7A) ∨ (0x30 ≤ lowerByte b ∧ lowerByte b ≤ 0x39) ∨
      lowerByte b = 0x2D) ↔ LabelByte b := by
  revert b
  have : ∀ n : Fin 256, ((0x61 ≤ lowerByte (UInt8.ofNat n) ∧ lowerByte (UInt8.ofNat n) ≤ 0x7A) ∨
      (0x30 ≤ lowerByte (UInt8.ofNat n) ∧ lowerByte (UInt8.ofNat n) ≤ 0x39) ∨
      lowerByte (UInt8.ofNat n) = 0x2D) ↔ LabelByte (UInt8.ofNat n) := by decide +kernel
  intro b
  have h := this ⟨b.toNat, b.toNat_lt⟩
  simpa using h

theorem labelOk_lower (l : Bytes) : LabelOk (l.map lowerByte) ↔ Label l := by
  unfold LabelOk Label
  simp only [List.length_map, List.forall_mem_map, lowerByte_label, List.head?_map,
    List.getLast?_map, ne_eq]
  have h : ∀ o : Option UInt8, o.map lowerByte = some 0x2D ↔ o = some 0x2D := by
    intro o; cases o <;> simp [lowerByte_hyphen]
  rw [h, h]

theorem goLower_ascii {E : Env} {s : Bytes} (h : ∀ b ∈ s, b < 0x80) :
    goLower E s = s.map lowerByte := by
  rw [← toLower_eq]; unfold toLower; rw [if_pos ((isASCII_iff s).2 h)]

theorem label_no_dot' {l : Bytes} (h : Label l) : (0x2E : UInt8) ∉ l := by
  intro hm
  have := h.2.2.1 _ hm
  revert this
  decide

theorem labels_lower (core : Bytes) :
    (∃ ls : List Bytes, ls ≠ [] ∧ core.map lowerByte = List.intercalate [0x2E] ls ∧
      ∀ l ∈ ls, LabelOk l) ↔
    ∃ ls : List Bytes, ls ≠ [] ∧ core = List.intercalate [0x2E] ls ∧ ∀ l ∈ ls, Label l := by
  rw [← labels_iff, findSome_none, splitByte_map _ _ lowerByte_dot]
  simp only [List.forall_mem_map, hostPartErr_iff, labelOk_lower]
  constructor
  · intro h
    exact ⟨splitByte 0x2E core, splitByte_ne_nil _ _, (intercalate_splitByte _ _).symm, h⟩
  · rintro ⟨ls, hne, rfl, hl⟩
    rw [splitByte_intercalate _ _ hne (fun l h => label_no_dot' (hl l h))]
    exact hl

theorem intercalate_label_no_dot {ls : List Bytes} (hne : ls ≠ []) (hl : ∀ l ∈ ls, Label l) :
    ¬ [(0x2E : UInt8)] <:+ List.intercalate [0x2E] ls := by
  rintro ⟨t, ht⟩
  have h1 := splitByte_intercalate 0x2E ls hne (fun l h => label_no_dot' (hl l h))
  rw [← ht] at h1
  have h2 : ∀ t : Bytes, splitByte 0x2E (t ++ [(0x2E : UInt8)]) = splitByte 0x2E t ++ [[]] := by
    intro t
    induction t with
    | nil => rfl
    | cons b t ih =>
      simp only [List.cons_append, splitByte, ih]
      split
      · rfl
      · cases h : splitByte 0x2E t with
        | nil => exact absurd h (splitByte_ne_nil _ _)
        | cons p ps => rfl
  have : [] ∈ splitByte 0x2E (t ++ [(0x2E : UInt8)]) := by rw [h2]; simp
  rw [h1] at this
  have := (hl _ this).1
  simp at this

theorem mem_intercalate {sep : Bytes} {ls : List Bytes} {b : UInt8}
    (h : b ∈ List.intercalate sep ls) : (∃ l ∈ ls, b ∈ l) ∨ b ∈ sep := by
  induction ls with
  | nil => simp [List.intercalate] at h
  | cons a r ih =>
    cases r with
    | nil => simp [List.intercalate] at h; exact .inl ⟨a, by simp, h⟩
    | cons c r =>
      rw [show List.intercalate sep (a :: c :: r) = a ++ (sep ++ List.intercalate sep (c :: r)) by
        simp [List.intercalate]] at h
      rcases List.mem_append.1 h with h | h
      · exact .inl ⟨a, by simp, h⟩
      · rcases List.mem_append.1 h with h | h
        · exact .inr h
        · rcases ih h with ⟨l, hl, hb⟩ | h
          · exact .inl ⟨l, by simp only [List.mem_cons] at hl ⊢; exact .inr hl, hb⟩
          · exact .inr h

theorem decodeRune_append_dot (b : UInt8) (t : Bytes) :
    decodeRune (b :: (t ++ [(0x2E : UInt8)])) = decodeRune (b :: t) ∧
      (decodeRune (b :: t)).2 ≤ (b :: t).length := by
  have e1 : ∀ lo hi : UInt8, 0x80 ≤ lo → inRange lo hi (0x2E : UInt8) = false := by
    intro lo hi h
    simp only [inRange, Bool.and_eq_false_iff, decide_eq_false_iff_not]
    left
    intro h2
    simp only [UInt8.le_iff_toNat] at h h2
    have : (0x80 : UInt8).toNat = 128 := rfl
    have : (0x2E : UInt8).toNat = 46 := rfl
    omega
  have hE0 : (0x80 : UInt8) ≤ (if b = 0xE0 then 0xA0 else 0x80) := by split <;> decide
  have hF0 : (0x80 : UInt8) ≤ (if b = 0xF0 then 0x90 else 0x80) := by split <;> decide
  have h80 : (0x80 : UInt8) ≤ 0x80 := by decide
  match t with
  | [] =>
    simp only [decodeRune, List.nil_append]
    repeat' split
    all_goals simp_all
  | [b1] =>
    simp only [decodeRune, List.cons_append, List.nil_append]
    repeat' split
    all_goals simp_all
  | [b1, b2] =>
    simp only [decodeRune, List.cons_append, List.nil_append]
    repeat' split
    all_goals simp_all
  | b1 :: b2 :: b3 :: r =>
    simp only [decodeRune, List.cons_append]
    repeat' split
    all_goals simp_all

theorem runes_append_dot : ∀ (n : Nat) (s : Bytes), s.length ≤ n →
    runes (s ++ [(0x2E : UInt8)]) = runes s ++ [0x2E] := by
  intro n
  induction n with
  | zero =>
    intro s h
    have : s = [] := List.length_eq_zero_iff.1 (by omega)
    subst this; decide
  | succ n ih =>
    intro s h
    cases s with
    | nil => decide
    | cons b t =>
      obtain ⟨h1, h2⟩ := decodeRune_append_dot b t
      have h3 := (decodeRune_width (b :: t)).1
      rw [List.cons_append, runes_cons, h1, runes_cons b t]
      rw [show (b :: (t ++ [(0x2E : UInt8)])) = (b :: t) ++ [0x2E] from rfl,
        List.drop_append_of_le_length h2, ih _ (by simp only [List.length_drop]; simp at h; simp; omega)]
      rfl

theorem runes_append_ascii {core : Bytes} {r : Nat} (h : r ∈ runes core) :
    r ∈ runes (core ++ [(0x2E : UInt8)]) := by
  rw [runes_append_dot _ core (Nat.le_refl _)]
  exact List.mem_append_left _ h

theorem hostname_ascii {E : Env} {s : Bytes} (h : ∀ b ∈ s, b < 0x80) :
    HostnameOk (goLower E) s ↔ Hostname s := by
  unfold HostnameOk Hostname
  refine and_congr_right fun _ => ?_
  constructor
  · rintro ⟨core, hc, hl⟩
    have hca : ∀ b ∈ core, b < 0x80 := by
      rcases hc with hc | ⟨hc, -⟩
      · intro b hb; exact h b (by rw [hc]; simp [hb])
      · rw [← hc]; exact h
    rw [goLower_ascii hca, labels_lower] at hl
    obtain ⟨ls, hne, hcore, hl⟩ := hl
    refine ⟨ls, hne, hl, ?_⟩
    rcases hc with hc | ⟨hc, -⟩
    · exact .inr (by rw [hc, hcore])
    · exact .inl (by rw [hc, hcore])
  · rintro ⟨ls, hne, hl, hs⟩
    refine ⟨List.intercalate [0x2E] ls, ?_, ?_⟩
    · rcases hs with hs | hs
      · exact .inr ⟨hs, by rw [hs]; exact intercalate_label_no_dot hne hl⟩
      · exact .inl hs
    · have hca : ∀ b ∈ List.intercalate [0x2E] ls, b < 0x80 := by
        intro b hb
        refine h b ?_
        rcases hs with hs | hs <;> rw [hs] <;> simp [hb]
      rw [goLower_ascii hca, labels_lower]
      exact ⟨ls, hne, rfl, hl⟩

/-- Every byte of a hostname is ASCII. -/
theorem hostname_bytes {s : Bytes} (h : Hostname s) : ∀ b ∈ s, b < 0x80 := by
  obtain ⟨-, ls, hne, hl, hs⟩ := h
  have hi : ∀ b ∈ List.intercalate [(0x2E : UInt8)] ls, b < 0x80 := by
    intro b hb
    rcases mem_intercalate hb with ⟨l, hm, hl2⟩ | hl2
    · have := (hl l hm).2.2.1 b hl2
      unfold LabelByte at this
      simp only [UInt8.le_iff_toNat, UInt8.lt_iff_toNat] at *
      rcases this with h | h | h | rfl
      · exact Nat.lt_of_le_of_lt h.2 (by decide)
      · exact Nat.lt_of_le_of_lt h.2 (by decide)
      · exact Nat.lt_of_le_of_lt h.2 (by decide)
      · decide
    · simp at hl2; subst hl2; decide
  rcases hs with rfl | rfl
  · exact hi
  · intro b hb
    rcases List.mem_append.1 hb with hb | hb
    · exact hi b hb
    · simp at hb; subst hb; decide

theorem encodeRune_nonascii {c : Nat} (h : 0x80 ≤ c) : ∃ b ∈ encodeRune c, 0x80 ≤ b.toNat := by
  unfold encodeRune
  simp only
  have hc : 0x80 ≤ (if (0xD800 ≤ c ∧ c < 0xE000) ∨ 0x110000 ≤ c then runeError else c) ∧
      (if (0xD800 ≤ c ∧ c < 0xE000) ∨ 0x110000 ≤ c then runeError else c) < 0x110000 := by
    split
    · decide
    · omega
  generalize (if (0xD800 ≤ c ∧ c < 0xE000) ∨ 0x110000 ≤ c then runeError else c) = d at hc ⊢
  rw [if_neg (by omega)]
  have last : 0x80 ≤ (UInt8.ofNat (0x80 + d % 64)).toNat := by
    rw [ofNat_toNat (by omega)]; omega
  split
  · exact ⟨_, by simp, last⟩
  · split
    · exact ⟨_, by simp, last⟩
    · exact ⟨_, by simp, last⟩

/-- Without runes whose lower-case form is ASCII, hostnames are those of the plain grammar. -/
theorem hostname_iff {E : Env} {s : Bytes}
    (hrunes : ∀ r ∈ runes s, 0x80 ≤ r → 0x80 ≤ E.lowerRune r) :
    HostnameOk (goLower E) s ↔ Hostname s := by
  by_cases h : ∀ b ∈ s, b < 0x80
  · exact hostname_ascii h
  · constructor
    · rintro ⟨hlen, core, hc, ls, hne, hlow, hl⟩
      exfalso
      -- core is not ASCII
      have hcn : ¬ ∀ b ∈ core, b < 0x80 := by
        intro hca
        apply h
        rcases hc with hc | ⟨hc, -⟩
        · intro b hb
          rw [hc] at hb
          rcases List.mem_append.1 hb with hb | hb
          · exact hca b hb
          · simp at hb; subst hb; decide
        · rw [hc]; exact hca
      have hex : ∃ r ∈ runes core, 0x80 ≤ r := by
        refine Classical.byContradiction fun hno => hcn (ascii_of_runes fun r hr => ?_)
        refine Classical.byContradiction fun hr2 => hno ⟨r, hr, by omega⟩
      obtain ⟨r, hr, hr2⟩ := hex
      have hrs : r ∈ runes s := by
        rcases hc with hc | ⟨hc, -⟩
        · rw [hc]; exact runes_append_ascii hr
        · rw [hc]; exact hr
      have hlr := hrunes r hrs hr2
      obtain ⟨b, hb, hb2⟩ := encodeRune_nonascii hlr
      have hbm : b ∈ goLower E core := by
        unfold goLower
        rw [if_neg hcn]
        rw [List.mem_flatMap]
        exact ⟨r, hr, by rw [if_neg (by omega)]; exact hb⟩
      rw [hlow] at hbm
      rcases mem_intercalate hbm with ⟨l, hm, hl2⟩ | hl2
      · have := (hl l hm).2.2.1 b hl2
        simp only [UInt8.le_iff_toNat] at this
        have h7 : (0x7A : UInt8).toNat = 122 := rfl
        have h8 : (0x39 : UInt8).toNat = 57 := rfl
        rcases this with h | h | rfl
        · omega
        · omega
        · revert hb2; decide
      · simp at hl2; subst hl2; revert hb2; decide
    · intro hh; exact absurd (hostname_bytes hh) h

end PGV.Go
