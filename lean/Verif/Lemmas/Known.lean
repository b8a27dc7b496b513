import Verif.Lemmas.Lib
import Verif.Lemmas.Utf8
import Verif.Lemmas.Regex

/-!
The well-known format helpers against their grammars.
-/

namespace PGV
open PGV.Go PGV.Spec

/-! ### Splitting -/

theorem splitByte_ne_nil (sep : UInt8) (s : Bytes) : splitByte sep s ≠ [] := by
  cases s with
  | nil => simp [splitByte]
  | cons b t =>
    simp only [splitByte]
    split
    · simp
    · split <;> simp

theorem intercalate_nil_cons (sep : Bytes) (p : Bytes) (ps : List Bytes) (h : ps ≠ []) :
    List.intercalate sep (p :: ps) = p ++ sep ++ List.intercalate sep ps := by
  cases ps with
  | nil => exact absurd rfl h
  | cons q qs => simp [List.intercalate, List.intersperse]

theorem intercalate_single (sep : Bytes) (p : Bytes) : List.intercalate sep [p] = p := by
  simp [List.intercalate]

theorem intercalate_splitByte (sep : UInt8) (s : Bytes) :
    List.intercalate [sep] (splitByte sep s) = s := by
  induction s with
  | nil => simp [splitByte, List.intercalate]
  | cons b t ih =>
    simp only [splitByte]
    split
    · rename_i h
      rw [intercalate_nil_cons _ _ _ (splitByte_ne_nil sep t), ih, h]; rfl
    · cases hs : splitByte sep t with
      | nil => exact absurd hs (splitByte_ne_nil sep t)
      | cons p ps =>
        rw [hs] at ih
        cases ps with
        | nil =>
          rw [intercalate_single] at ih
          simp only [intercalate_single, ih]
        | cons q qs =>
          rw [intercalate_nil_cons _ _ _ (by simp)] at ih
          simp only
          rw [intercalate_nil_cons _ _ _ (by simp)]
          rw [← ih]; simp

theorem splitByte_not_mem (sep : UInt8) (s : Bytes) : ∀ p ∈ splitByte sep s, sep ∉ p := by
  induction s with
  | nil => simp [splitByte]
  | cons b t ih =>
    simp only [splitByte]
    split
    · intro p hp
      rcases List.mem_cons.1 hp with rfl | hp
      · simp
      · exact ih p hp
    · rename_i hb
      cases hs : splitByte sep t with
      | nil => exact absurd hs (splitByte_ne_nil sep t)
      | cons q qs =>
        rw [hs] at ih
        intro p hp
        simp only at hp
        rcases List.mem_cons.1 hp with rfl | hp
        · intro hm
          rcases List.mem_cons.1 hm with h | hm
          · exact hb h.symm
          · exact ih q (by simp) hm
        · exact ih p (by simp [hp])

theorem splitByte_append (sep : UInt8) (p rest : Bytes) (h : sep ∉ p) :
    splitByte sep (p ++ sep :: rest) = p :: splitByte sep rest := by
  induction p with
  | nil => simp [splitByte]
  | cons b t ih =>
    have hb : b ≠ sep := fun e => h (by simp [e])
    have ht : sep ∉ t := fun e => h (by simp [e])
    simp only [List.cons_append, splitByte, hb, if_false, ih ht]

theorem splitByte_of_not_mem (sep : UInt8) (p : Bytes) (h : sep ∉ p) : splitByte sep p = [p] := by
  induction p with
  | nil => rfl
  | cons b t ih =>
    have hb : b ≠ sep := fun e => h (by simp [e])
    have ht : sep ∉ t := fun e => h (by simp [e])
    simp only [splitByte, hb, if_false, ih ht]

/-- Splitting is the only way to write a string as separated parts without the separator. -/
theorem splitByte_intercalate (sep : UInt8) (ls : List Bytes) (hne : ls ≠ [])
    (h : ∀ l ∈ ls, sep ∉ l) : splitByte sep (List.intercalate [sep] ls) = ls := by
  induction ls with
  | nil => exact absurd rfl hne
  | cons p ps ih =>
    cases ps with
    | nil => rw [intercalate_single]; exact splitByte_of_not_mem sep p (h p (by simp))
    | cons q qs =>
      rw [intercalate_nil_cons _ _ _ (by simp)]
      rw [List.append_assoc, List.singleton_append, splitByte_append sep p _ (h p (by simp)),
        ih (by simp) (fun l hl => h l (by simp [hl]))]

theorem splitN2_spec (sep : UInt8) (s : Bytes) :
    match splitN2 sep s with
    | (p, some q) => s = p ++ sep :: q ∧ sep ∉ p
    | (p, none) => s = p ∧ sep ∉ p := by
  induction s with
  | nil => simp [splitN2]
  | cons b t ih =>
    simp only [splitN2]
    split
    · rename_i p q heq
      split at heq
      · rename_i hb
        simp at heq
        obtain ⟨rfl, rfl⟩ := heq
        simp [hb]
      · rename_i hb
        cases hsp : splitN2 sep t with
        | mk p' q' =>
          rw [hsp] at ih heq
          simp at heq
          obtain ⟨rfl, rfl⟩ := heq
          simp only at ih
          refine ⟨by rw [ih.1]; rfl, ?_⟩
          intro hm
          rcases List.mem_cons.1 hm with h | h
          · exact hb h.symm
          · exact ih.2 h
    · rename_i p heq
      split at heq
      · simp at heq
      · rename_i hb
        cases hsp : splitN2 sep t with
        | mk p' q' =>
          rw [hsp] at ih heq
          simp at heq
          obtain ⟨rfl, rfl⟩ := heq
          simp only at ih
          refine ⟨by rw [← ih.1], ?_⟩
          intro hm
          rcases List.mem_cons.1 hm with h | h
          · exact hb h.symm
          · exact ih.2 h

theorem splitN2_unique (sep : UInt8) (p q : Bytes) (h : sep ∉ p) :
    splitN2 sep (p ++ sep :: q) = (p, some q) := by
  induction p with
  | nil => simp [splitN2]
  | cons b t ih =>
    have hb : b ≠ sep := fun e => h (by simp [e])
    have ht : sep ∉ t := fun e => h (by simp [e])
    simp only [List.cons_append, splitN2, hb, if_false, ih ht]

/-! ### Hostnames -/

theorem hostRuneOk_iff (r : Nat) : hostRuneOk r = true ↔
    (0x61 ≤ r ∧ r ≤ 0x7A) ∨ (0x30 ≤ r ∧ r ≤ 0x39) ∨ r = 0x2D := by
  unfold hostRuneOk
  simp only [Bool.not_eq_true', Bool.and_eq_false_iff, Bool.or_eq_false_iff, decide_eq_false_iff_not,
    bne_eq_false_iff_eq]
  omega

theorem runes_any_false (part : Bytes) :
    (runes part).any (fun r => !hostRuneOk r) = false ↔
      ∀ b ∈ part, (0x61 ≤ b ∧ b ≤ 0x7A) ∨ (0x30 ≤ b ∧ b ≤ 0x39) ∨ b = 0x2D := by
  rw [List.any_eq_false]
  have : (∀ r ∈ runes part, ¬ (!hostRuneOk r) = true) ↔ ∀ r ∈ runes part, hostRuneOk r = true := by
    simp
  rw [this]
  have h2 := runes_all_iff (p := fun r => hostRuneOk r = true)
    (fun r hr => by rw [hostRuneOk_iff] at hr; omega) part
  rw [h2]
  apply forall_congr'; intro b
  apply imp_congr_right; intro _
  rw [hostRuneOk_iff, ← UInt8.toNat_inj (b := 0x2D)]
  rfl

theorem hostPartErr_iff (part : Bytes) : hostPartErr part = none ↔ LabelOk part := by
  unfold hostPartErr LabelOk
  rw [← runes_any_false]
  split
  · simp; omega
  · split
    · rename_i h; simp [h]
    · split
      · rename_i h; simp [h]
      · split
        · rename_i h; simp [h]
        · rename_i h1 h2 h3 h4
          simp [h2, h3, h4]; omega

theorem label_no_dot {l : Bytes} (h : LabelOk l) : (0x2E : UInt8) ∉ l := by
  intro hm
  have := h.2.2.1 _ hm
  revert this
  decide

theorem isASCII_iff (s : Bytes) : isASCII s = true ↔ ∀ b ∈ s, b < 0x80 := by
  simp [isASCII, List.all_eq_true]

theorem toLower_eq (E : Env) (s : Bytes) : toLower E s = goLower E s := by
  unfold toLower goLower
  by_cases h : ∀ b ∈ s, b < 0x80
  · rw [if_pos ((isASCII_iff s).2 h), if_pos h]
    apply List.map_congr_left
    intro b _
    unfold lowerByte inRange
    simp
  · rw [if_neg (fun e => h ((isASCII_iff s).1 e)), if_neg h]
    rfl

theorem trimSuffix_spec (s : Bytes) (core : Bytes) :
    trimSuffix s [0x2E] = core ↔ (s = core ++ [0x2E] ∨ (s = core ∧ ¬ [0x2E] <:+ s)) := by
  unfold trimSuffix
  split
  · rename_i h
    rw [hasSuffix_iff] at h
    obtain ⟨t, rfl⟩ := h
    have : (t ++ [(0x2E : UInt8)]).take ((t ++ [(0x2E : UInt8)]).length - [(0x2E : UInt8)].length) = t := by
      simp
    rw [this]
    constructor
    · rintro rfl; left; rfl
    · rintro (h | ⟨_, h⟩)
      · exact (List.append_inj' h rfl).1
      · exact absurd ⟨t, rfl⟩ h
  · rename_i h
    rw [hasSuffix_iff] at h
    constructor
    · rintro rfl; right; exact ⟨rfl, h⟩
    · rintro (rfl | ⟨h2, _⟩)
      · exact absurd ⟨core, rfl⟩ h
      · exact h2

theorem findSome_none {α β : Type} (f : α → Option β) (l : List α) :
    l.findSome? f = none ↔ ∀ a ∈ l, f a = none := by
  simp [List.findSome?_eq_none_iff]

theorem labels_iff (s : Bytes) :
    (splitByte 0x2E s).findSome? hostPartErr = none ↔
      ∃ labels : List Bytes, labels ≠ [] ∧ s = List.intercalate [0x2E] labels ∧
        ∀ l ∈ labels, LabelOk l := by
  rw [findSome_none]
  constructor
  · intro h
    exact ⟨splitByte 0x2E s, splitByte_ne_nil _ _, (intercalate_splitByte _ _).symm,
      fun l hl => (hostPartErr_iff l).1 (h l hl)⟩
  · rintro ⟨labels, hne, rfl, hl⟩
    rw [splitByte_intercalate _ _ hne (fun l h => label_no_dot (hl l h))]
    exact fun l h => (hostPartErr_iff l).2 (hl l h)

theorem validateHostname_iff (E : Env) (s : Bytes) :
    validateHostname E s = none ↔ HostnameOk (goLower E) s := by
  unfold validateHostname HostnameOk
  simp only
  split
  · rename_i h
    constructor
    · intro h'; cases h'
    · rintro ⟨h', _⟩; omega
  · rename_i h
    rw [labels_iff, toLower_eq]
    constructor
    · intro h'
      exact ⟨by omega, trimSuffix s [0x2E], (trimSuffix_spec s _).1 rfl, h'⟩
    · rintro ⟨_, core, hc, h'⟩
      rw [(trimSuffix_spec s core).2 hc]; exact h'

/-! ### E-mail -/

theorem validateEmail_iff (E : Env) (s : Bytes) : validateEmail E s = none ↔ EmailOk E s := by
  unfold validateEmail EmailOk
  cases hp : E.parseMail s with
  | error e => simp
  | ok a =>
    simp only [Except.ok.injEq]
    have hat := E.mail_at s a hp
    have hs := splitN2_spec 0x40 a
    constructor
    · intro h
      split at h
      · cases h
      · rename_i h1
        split at h
        · cases h
        · rename_i h2
          refine ⟨a, rfl, by omega, ?_⟩
          cases hsp : splitN2 0x40 a with
          | mk p q =>
            rw [hsp] at h h2 hs
            cases q with
            | none => simp at h
            | some q =>
              exact ⟨p, q, hs.1, hs.2, by simpa using h2, (validateHostname_iff E q).1 h⟩
    · rintro ⟨a', rfl, h1, p, q, rfl, h2, h3, h4⟩
      rw [if_neg (by omega)]
      rw [splitN2_unique _ _ _ h2]
      simp only
      rw [if_neg (by omega)]
      exact (validateHostname_iff E q).2 h4

/-! ### UUID -/

theorem hexClass_iff (r : Nat) : hexClass.has r = true ↔
    (0x30 ≤ r ∧ r ≤ 0x39) ∨ (0x41 ≤ r ∧ r ≤ 0x46) ∨ (0x61 ≤ r ∧ r ≤ 0x66) := by
  simp [hexClass, CClass.has]; omega

theorem hexDigit_iff (b : UInt8) : HexDigit b ↔ hexClass.has b.toNat = true := by
  rw [hexClass_iff]; rfl

theorem uuidRe_iff (s : List Nat) : uuidRe.accepts s = true ↔
    ∃ g1 g2 g3 g4 g5 : List Nat,
      s = g1 ++ 0x2D :: (g2 ++ 0x2D :: (g3 ++ 0x2D :: (g4 ++ 0x2D :: g5))) ∧
      (g1.length = 8 ∧ ∀ r ∈ g1, hexClass.has r = true) ∧
      (g2.length = 4 ∧ ∀ r ∈ g2, hexClass.has r = true) ∧
      (g3.length = 4 ∧ ∀ r ∈ g3, hexClass.has r = true) ∧
      (g4.length = 4 ∧ ∀ r ∈ g4, hexClass.has r = true) ∧
      (g5.length = 12 ∧ ∀ r ∈ g5, hexClass.has r = true) := by
  rw [Re.accepts_iff]
  unfold uuidRe
  simp only [Re.matches_seq_cons, Re.matches_rep_cls, Re.matches_chr]
  constructor
  · rintro ⟨g1, _, rfl, h1, _, _, rfl, rfl, g2, _, rfl, h2, _, _, rfl, rfl, g3, _, rfl, h3, _, _,
      rfl, rfl, g4, _, rfl, h4, _, _, rfl, rfl, g5, e, rfl, h5, he⟩
    rw [Re.seq, Re.matches_eps] at he
    subst he
    exact ⟨g1, g2, g3, g4, g5, by simp, h1, h2, h3, h4, h5⟩
  · rintro ⟨g1, g2, g3, g4, g5, rfl, h1, h2, h3, h4, h5⟩
    exact ⟨g1, _, rfl, h1, [0x2D], _, rfl, rfl, g2, _, rfl, h2, [0x2D], _, rfl, rfl, g3, _, rfl, h3,
      [0x2D], _, rfl, rfl, g4, _, rfl, h4, [0x2D], _, rfl, rfl, g5, [], by simp, h5, .eps⟩

theorem matchFull_uuid (s : Bytes) : matchFull uuidRe s = true ↔ UuidOk s := by
  unfold matchFull UuidOk HexRun
  rw [uuidRe_iff]
  have small : ∀ r, hexClass.has r = true → r < 0x80 := fun r h => by
    rw [hexClass_iff] at h; omega
  constructor
  · rintro ⟨g1, g2, g3, g4, g5, hs, h1, h2, h3, h4, h5⟩
    have ha : ∀ b ∈ s, b < 0x80 := by
      apply ascii_of_runes
      rw [hs]
      intro r hr
      simp only [List.mem_append, List.mem_cons] at hr
      rcases hr with h | rfl | h | rfl | h | rfl | h | rfl | h
      · exact small r (h1.2 r h)
      · decide
      · exact small r (h2.2 r h)
      · decide
      · exact small r (h3.2 r h)
      · decide
      · exact small r (h4.2 r h)
      · decide
      · exact small r (h5.2 r h)
    rw [runes_ascii s ha] at hs
    obtain ⟨b1, t1, rfl, rfl, e1⟩ := List.map_eq_append_iff.1 hs
    obtain ⟨d1, u1, rfl, hd1, e1⟩ := List.map_eq_cons_iff.1 e1
    obtain ⟨b2, t2, rfl, rfl, e2⟩ := List.map_eq_append_iff.1 e1
    obtain ⟨d2, u2, rfl, hd2, e2⟩ := List.map_eq_cons_iff.1 e2
    obtain ⟨b3, t3, rfl, rfl, e3⟩ := List.map_eq_append_iff.1 e2
    obtain ⟨d3, u3, rfl, hd3, e3⟩ := List.map_eq_cons_iff.1 e3
    obtain ⟨b4, t4, rfl, rfl, e4⟩ := List.map_eq_append_iff.1 e3
    obtain ⟨d4, b5, rfl, hd4, rfl⟩ := List.map_eq_cons_iff.1 e4
    have hd : ∀ d : UInt8, d.toNat = 0x2D → d = 0x2D := fun d h => UInt8.toNat_inj.1 h
    rw [hd d1 hd1, hd d2 hd2, hd d3 hd3, hd d4 hd4]
    have conv : ∀ (n : Nat) (b : Bytes),
        ((b.map UInt8.toNat).length = n ∧ ∀ r ∈ b.map UInt8.toNat, hexClass.has r = true) →
        b.length = n ∧ ∀ x ∈ b, HexDigit x := by
      intro n b h
      refine ⟨by simpa using h.1, fun x hx => (hexDigit_iff x).2 (h.2 _ (List.mem_map_of_mem hx))⟩
    exact ⟨b1, b2, b3, b4, b5, rfl, conv _ _ h1, conv _ _ h2, conv _ _ h3, conv _ _ h4,
      conv _ _ h5⟩
  · rintro ⟨g1, g2, g3, g4, g5, rfl, h1, h2, h3, h4, h5⟩
    have ha : ∀ b ∈ g1 ++ 0x2D :: (g2 ++ 0x2D :: (g3 ++ 0x2D :: (g4 ++ 0x2D :: g5))), b < 0x80 := by
      intro b hb
      have hx : ∀ b : UInt8, HexDigit b → b < 0x80 := fun b h => by
        rw [UInt8.lt_iff_toNat]
        exact small _ ((hexDigit_iff b).1 h)
      simp only [List.mem_append, List.mem_cons] at hb
      rcases hb with h | rfl | h | rfl | h | rfl | h | rfl | h
      · exact hx b (h1.2 b h)
      · decide
      · exact hx b (h2.2 b h)
      · decide
      · exact hx b (h3.2 b h)
      · decide
      · exact hx b (h4.2 b h)
      · decide
      · exact hx b (h5.2 b h)
    rw [runes_ascii _ ha]
    have conv : ∀ (n : Nat) (b : Bytes), (b.length = n ∧ ∀ x ∈ b, HexDigit x) →
        ((b.map UInt8.toNat).length = n ∧ ∀ r ∈ b.map UInt8.toNat, hexClass.has r = true) := by
      intro n b h
      refine ⟨by simpa using h.1, fun r hr => ?_⟩
      obtain ⟨x, hx, rfl⟩ := List.mem_map.1 hr
      exact (hexDigit_iff x).1 (h.2 x hx)
    exact ⟨_, _, _, _, _, by simp, conv _ _ h1, conv _ _ h2, conv _ _ h3, conv _ _ h4, conv _ _ h5⟩

theorem validateUuid_iff (s : Bytes) : validateUuid s = none ↔ UuidOk s := by
  rw [← matchFull_uuid]
  unfold validateUuid
  cases matchFull uuidRe s <;> simp

/-! ### IP addresses as bytes -/

theorem ipTo4_iff (b : Bytes) : (ipTo4 b).isSome = true ↔ IPv4Bytes b := by
  unfold ipTo4 IPv4Bytes
  split
  · rename_i h; simp [h]
  · rename_i h
    split
    · rename_i h2
      simp only [Option.isSome_some, true_iff]
      right
      obtain ⟨hl, hz, h10, h11⟩ := h2
      refine ⟨b.drop 12, by simp [hl], ?_⟩
      have e : b = b.take 10 ++ ([b[10], b[11]] ++ b.drop 12) := by
        apply List.ext_getElem
        · simp [hl]
        · intro i h1 h2
          simp only [List.getElem_append, List.length_take, List.getElem_take]
          split
          · rfl
          · rename_i h3
            have h3' : 10 ≤ i := by omega
            split
            · rename_i h4
              simp at h4
              have : i = 10 ∨ i = 11 := by omega
              rcases this with rfl | rfl
              · simp [hl]
              · simp [hl]
            · rename_i h4
              simp at h4
              simp only [List.getElem_drop]
              congr 1
              simp; omega
      have t10 : b.take 10 = List.replicate 10 0 := by
        apply List.eq_replicate_iff.2
        refine ⟨by simp [hl], ?_⟩
        intro x hx
        rw [List.all_eq_true] at hz
        simpa using hz x hx
      have g10 : b[10] = 0xFF := by
        rw [List.getElem?_eq_getElem (by omega)] at h10; simpa using h10
      have g11 : b[11] = 0xFF := by
        rw [List.getElem?_eq_getElem (by omega)] at h11; simpa using h11
      rw [t10, g10, g11] at e
      rw [List.append_assoc]
      exact e
    · rename_i h2
      simp only [Option.isSome_none, Bool.false_eq_true, false_iff]
      rintro (h3 | ⟨v4, h3, rfl⟩)
      · exact h h3
      · apply h2
        refine ⟨by simp [h3], ?_, ?_, ?_⟩
        · simp
        · simp
        · simp

theorem ipTo16_iff (b : Bytes) : (ipTo16 b).isSome = true ↔ IPBytes b := by
  unfold ipTo16 IPBytes
  split
  · rename_i h; simp [h]
  · split
    · rename_i h; simp [h]
    · rename_i h1 h2; simp [h1, h2]

end PGV
