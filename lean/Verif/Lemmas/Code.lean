import Verif.Lemmas.Utf8
import Verif.Java.Lib

/-!
Self-synchronizing codes: prefixes, suffixes and substrings of encoded texts are encodings of
prefixes, suffixes and substrings. UTF-8 and UTF-16 are such codes, so affix rules mean the same on
Go strings (UTF-8) and Java strings (UTF-16).
-/

set_option linter.unusedSimpArgs false

namespace PGV.Code
open PGV

/-- A prefix-free code of the scalars `D` whose words start with a unit in `lead` and continue with
units outside. -/
structure Synced {α : Type} (D : Nat → Prop) (enc : Nat → List α) (lead : α → Prop) : Prop where
  word : ∀ r, D r → ∃ a t, enc r = a :: t ∧ lead a ∧ ∀ b ∈ t, ¬ lead b
  free : ∀ r s, D r → D s → enc r <+: enc s → r = s

variable {α : Type} {D : Nat → Prop} {enc : Nat → List α} {lead : α → Prop}

/-- An encoded text split before a lead unit splits into encoded texts. -/
theorem split (h : Synced D enc lead) : ∀ (ss : List Nat) (u v : List α), (∀ r ∈ ss, D r) →
    ss.flatMap enc = u ++ v → (∀ a ∈ v.head?, lead a) →
    ∃ s1 s2, ss = s1 ++ s2 ∧ s1.flatMap enc = u ∧ s2.flatMap enc = v := by
  intro ss
  induction ss with
  | nil =>
    intro u v _ he _
    simp only [List.flatMap_nil] at he
    have := List.append_eq_nil_iff.1 he.symm
    exact ⟨[], [], by simp [this.1, this.2]⟩
  | cons r ss ih =>
    intro u v hD he hv
    cases u with
    | nil => exact ⟨[], r :: ss, by simpa using he⟩
    | cons a u =>
      obtain ⟨l, t, hw, hl, ht⟩ := h.word r (hD r (by simp))
      rw [List.flatMap_cons, hw] at he
      simp only [List.cons_append, List.cons.injEq] at he
      obtain ⟨rfl, he⟩ := he
      rcases List.append_eq_append_iff.1 he with ⟨w, h1, h2⟩ | ⟨w, h1, h2⟩
      · obtain ⟨s1, s2, e1, e2, e3⟩ := ih w v (fun r hr => hD r (by simp [hr])) h2 hv
        refine ⟨r :: s1, s2, by simp [e1], ?_, e3⟩
        rw [List.flatMap_cons, hw, e2, h1]; rfl
      · cases w with
        | nil =>
          refine ⟨[r], ss, rfl, ?_, ?_⟩
          · simp [hw, h1]
          · simpa using h2.symm
        | cons b w =>
          exfalso
          refine ht b (by rw [h1]; simp) (hv b ?_)
          rw [h2]; simp

/-- A prefix of an encoded text that is itself an encoded text encodes a prefix. -/
theorem prefix_iff (h : Synced D enc lead) : ∀ (ps ss : List Nat), (∀ r ∈ ps, D r) →
    (∀ r ∈ ss, D r) → (ps.flatMap enc <+: ss.flatMap enc ↔ ps <+: ss) := by
  intro ps
  induction ps with
  | nil => intro ss _ _; simp
  | cons p ps ih =>
    intro ss hp hs
    constructor
    · intro hpre
      cases ss with
      | nil =>
        obtain ⟨l, t, hw, -, -⟩ := h.word p (hp p (by simp))
        rw [List.flatMap_cons, hw] at hpre
        simp at hpre
      | cons s ss =>
        rw [List.flatMap_cons, List.flatMap_cons] at hpre
        have h1 : enc p <+: enc s ++ ss.flatMap enc := (List.prefix_append _ _).trans hpre
        have h2 : enc s <+: enc s ++ ss.flatMap enc := List.prefix_append _ _
        have heq : p = s := by
          rcases List.prefix_or_prefix_of_prefix h1 h2 with h3 | h3
          · exact h.free p s (hp p (by simp)) (hs s (by simp)) h3
          · exact (h.free s p (hs s (by simp)) (hp p (by simp)) h3).symm
        subst heq
        rw [List.prefix_append_right_inj] at hpre
        rw [List.prefix_cons_inj]
        exact (ih ss (fun r hr => hp r (by simp [hr])) (fun r hr => hs r (by simp [hr]))).1 hpre
    · rintro ⟨t, rfl⟩
      exact ⟨t.flatMap enc, by rw [← List.flatMap_append]⟩

theorem head_lead (h : Synced D enc lead) {ps : List Nat} (hp : ∀ r ∈ ps, D r) (t : List α)
    (hne : ps ≠ []) : ∀ a ∈ (ps.flatMap enc ++ t).head?, lead a := by
  cases ps with
  | nil => exact absurd rfl hne
  | cons p ps =>
    obtain ⟨l, t', hw, hl, -⟩ := h.word p (hp p (by simp))
    intro a ha
    rw [List.flatMap_cons, hw] at ha
    simp at ha
    rw [← ha]; exact hl

/-- The same for substrings. -/
theorem infix_iff (h : Synced D enc lead) (ps ss : List Nat) (hp : ∀ r ∈ ps, D r)
    (hs : ∀ r ∈ ss, D r) : ps.flatMap enc <:+: ss.flatMap enc ↔ ps <:+: ss := by
  constructor
  · rintro ⟨u, t, he⟩
    by_cases hne : ps = []
    · subst hne; exact List.nil_infix
    · obtain ⟨s1, s2, e1, e2, e3⟩ := split h ss u (ps.flatMap enc ++ t) hs
        (by rw [← he, List.append_assoc]) (head_lead h hp t hne)
      have : ps <+: s2 := (prefix_iff h ps s2 hp (fun r hr => hs r (by simp [e1, hr]))).1 ⟨t, e3.symm⟩
      rw [e1]
      exact this.isInfix.trans (List.suffix_append s1 s2).isInfix
  · rintro ⟨u, t, rfl⟩
    exact ⟨u.flatMap enc, t.flatMap enc, by rw [← List.flatMap_append, ← List.flatMap_append]⟩

theorem inj (h : Synced D enc lead) {ps ss : List Nat} (hp : ∀ r ∈ ps, D r)
    (hs : ∀ r ∈ ss, D r) (he : ps.flatMap enc = ss.flatMap enc) : ps = ss := by
  have h1 := (prefix_iff h ps ss hp hs).1 (by rw [he]; exact List.prefix_rfl)
  have h2 := (prefix_iff h ss ps hs hp).1 (by rw [he]; exact List.prefix_rfl)
  exact h1.eq_of_length (Nat.le_antisymm h1.length_le h2.length_le)

/-- The same for suffixes. -/
theorem suffix_iff (h : Synced D enc lead) (ps ss : List Nat) (hp : ∀ r ∈ ps, D r)
    (hs : ∀ r ∈ ss, D r) : ps.flatMap enc <:+ ss.flatMap enc ↔ ps <:+ ss := by
  constructor
  · rintro ⟨u, he⟩
    by_cases hne : ps = []
    · subst hne; exact List.nil_suffix
    · obtain ⟨s1, s2, e1, e2, e3⟩ := split h ss u (ps.flatMap enc) hs he.symm
        (by have := head_lead h hp [] hne; simpa using this)
      have : s2 = ps := inj h (fun r hr => hs r (by simp [e1, hr])) hp e3
      rw [e1, ← this]
      exact List.suffix_append _ _
  · rintro ⟨u, rfl⟩
    exact ⟨u.flatMap enc, by rw [← List.flatMap_append]⟩

/-! ### UTF-8 -/

/-- Bytes that are not continuation bytes. -/
def lead8 (b : UInt8) : Prop := ¬ (0x80 ≤ b.toNat ∧ b.toNat < 0xC0)

theorem encode_take {c : Nat} (h : IsScalar c) : decodeRune (encodeRune c) = (c, (encodeRune c).length) := by
  have := decode_encode c h []
  simpa using this

theorem utf8_synced : Synced IsScalar encodeRune lead8 where
  word := by
    intro r hr
    obtain ⟨h1, h2⟩ := hr
    unfold encodeRune
    have hc : ¬ ((0xD800 ≤ r ∧ r < 0xE000) ∨ 0x110000 ≤ r) := by omega
    simp only [hc, if_false]
    split
    · refine ⟨_, _, rfl, ?_, by simp⟩
      unfold lead8; rw [ofNat_toNat (by omega)]; omega
    · split
      · refine ⟨_, _, rfl, ?_, ?_⟩
        · unfold lead8; rw [ofNat_toNat (by omega)]; omega
        · intro b hb
          simp only [List.mem_cons, List.not_mem_nil, or_false] at hb
          subst hb
          unfold lead8; rw [ofNat_toNat (by omega)]; omega
      · split
        · refine ⟨_, _, rfl, ?_, ?_⟩
          · unfold lead8; rw [ofNat_toNat (by omega)]; omega
          · intro b hb
            simp only [List.mem_cons, List.not_mem_nil, or_false] at hb
            rcases hb with rfl | rfl <;> (unfold lead8; rw [ofNat_toNat (by omega)]; omega)
        · refine ⟨_, _, rfl, ?_, ?_⟩
          · unfold lead8; rw [ofNat_toNat (by omega)]; omega
          · intro b hb
            simp only [List.mem_cons, List.not_mem_nil, or_false] at hb
            rcases hb with rfl | rfl | rfl <;> (unfold lead8; rw [ofNat_toNat (by omega)]; omega)
  free := by
    rintro r s hr hs ⟨t, ht⟩
    have h1 := decode_encode r hr t
    have h2 := encode_take hs
    rw [ht, h2] at h1
    exact (Prod.ext_iff.1 h1).1.symm

/-! ### UTF-16 -/

/-- Code units that are not low surrogates. -/
def lead16 (u : Nat) : Prop := ¬ (0xDC00 ≤ u ∧ u ≤ 0xDFFF)

theorem utf16_synced : Synced IsScalar Java.utf16Rune lead16 where
  word := by
    intro r hr
    obtain ⟨h1, h2⟩ := hr
    unfold Java.utf16Rune
    split
    · refine ⟨_, _, rfl, ?_, by simp⟩
      unfold lead16; omega
    · refine ⟨_, _, rfl, ?_, ?_⟩
      · unfold lead16; omega
      · intro b hb
        have hb := List.mem_singleton.1 hb
        unfold lead16; omega
  free := by
    rintro r s ⟨hr1, hr2⟩ ⟨hs1, hs2⟩ ⟨t, ht⟩
    have e1 : ∀ x, x < 0x10000 → Java.utf16Rune x = [x] := fun x h => if_pos h
    have e2 : ∀ x, ¬ x < 0x10000 → ∃ a b, Java.utf16Rune x = [a, b] ∧
        a = 0xD800 + (x - 0x10000) / 0x400 ∧ b = 0xDC00 + (x - 0x10000) % 0x400 :=
      fun x h => ⟨_, _, if_neg h, rfl, rfl⟩
    by_cases h1 : r < 0x10000 <;> by_cases h2 : s < 0x10000
    · rw [e1 r h1, e1 s h2] at ht
      have := (List.cons.inj ht).1
      exact this
    · obtain ⟨a, b, h3, h4, h5⟩ := e2 s h2
      rw [e1 r h1, h3] at ht
      have := (List.cons.inj ht).1
      omega
    · obtain ⟨a, b, h3, h4, h5⟩ := e2 r h1
      rw [e1 s h2, h3] at ht
      have := (List.cons.inj ht).1
      omega
    · obtain ⟨a, b, h3, h4, h5⟩ := e2 r h1
      obtain ⟨a', b', h3', h4', h5'⟩ := e2 s h2
      rw [h3, h3'] at ht
      have h6 := (List.cons.inj ht).1
      have h7 := (List.cons.inj (List.cons.inj ht).2).1
      omega

/-! ### Code points of Java strings -/

theorem codePoints_cons (r : Nat) (hr : IsScalar r) (t : Java.JString) (ht : ∀ u ∈ t.head?, lead16 u) :
    Java.codePoints (Java.utf16Rune r ++ t) = r :: Java.codePoints t := by
  obtain ⟨h1, h2⟩ := hr
  unfold Java.utf16Rune
  split
  · cases t with
    | nil => rfl
    | cons w t =>
      simp only [List.cons_append, List.nil_append, Java.codePoints]
      have : Java.isHigh r = false ∨ Java.isLow w = false := by
        right
        have := ht w (by simp)
        unfold lead16 at this
        simp only [Java.isLow, Bool.and_eq_false_iff, decide_eq_false_iff_not]; omega
      rcases this with h | h <;> simp [h]
  · rename_i h
    simp only [List.cons_append, List.nil_append, Java.codePoints]
    have e1 : Java.isHigh (0xD800 + (r - 0x10000) / 0x400) = true := by
      simp only [Java.isHigh, Bool.and_eq_true, decide_eq_true_eq]; omega
    have e2 : Java.isLow (0xDC00 + (r - 0x10000) % 0x400) = true := by
      simp only [Java.isLow, Bool.and_eq_true, decide_eq_true_eq]; omega
    rw [e1, e2]
    simp only [Bool.and_self, if_true, List.cons.injEq, and_true]
    omega

theorem codePoints_utf16 (rs : List Nat) (h : ∀ r ∈ rs, IsScalar r) :
    Java.codePoints (rs.flatMap Java.utf16Rune) = rs := by
  induction rs with
  | nil => rfl
  | cons r rs ih =>
    rw [List.flatMap_cons, codePoints_cons r (h r (by simp)), ih (fun s hs => h s (by simp [hs]))]
    by_cases hne : rs = []
    · subst hne; simp
    · have := head_lead utf16_synced (fun s hs => h s (by simp [hs])) [] hne
      simpa using this

end PGV.Code
