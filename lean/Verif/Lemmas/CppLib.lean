import Verif.Cpp.Lib
import Verif.Spec.Portable
import Verif.Lemmas.PyHost

/-!
The helpers of validate/validate.h compute what their names say.
-/

set_option linter.unusedSimpArgs false
set_option autoImplicit false

namespace PGV.Cpp
open PGV PGV.Spec

theorem isPrefix_iff (p s : Bytes) : isPrefix p s = true ↔ p <+: s := by
  unfold isPrefix compareAt
  rw [beq_iff_eq, List.drop_zero, List.prefix_iff_eq_take]
  exact eq_comm

theorem isSuffix_iff (p s : Bytes) : isSuffix p s = true ↔ p <:+ s := by
  unfold isSuffix compareAt
  rw [Bool.and_eq_true, decide_eq_true_eq, beq_iff_eq]
  constructor
  · rintro ⟨hl, h⟩
    have : (s.drop (s.length - p.length)).length = p.length := by simp; omega
    rw [List.take_of_length_le (by omega)] at h
    exact List.suffix_iff_eq_drop.2 h.symm
  · intro h
    have hl := h.length_le
    refine ⟨hl, ?_⟩
    have : (s.drop (s.length - p.length)).length = p.length := by simp; omega
    rw [List.take_of_length_le (by omega)]
    exact (List.suffix_iff_eq_drop.1 h).symm

theorem findFrom_iff (p s : Bytes) (n : Nat) : (findFrom p n s).isSome = true ↔ p <:+: s := by
  induction s generalizing n with
  | nil =>
    unfold findFrom
    cases p <;> simp
  | cons b t ih =>
    unfold findFrom
    have e : compareAt (b :: t) 0 p.length p = true ↔ p <+: b :: t := isPrefix_iff p (b :: t)
    rw [List.infix_cons_iff, ← e, ← ih (n + 1)]
    cases compareAt (b :: t) 0 p.length p <;> simp

theorem contains_iff (s p : Bytes) : contains s p = true ↔ p <:+: s := findFrom_iff p s 0

/-- One step of `Utf8Len` over an encoded character. -/
theorem tbl_encode {c : Nat} (h : ScalarValue c) :
    ∃ b t, encodeRune c = b :: t ∧ utf8LenTbl b = (encodeRune c).length := by
  unfold ScalarValue at h
  unfold encodeRune
  have hc : ¬ ((0xD800 ≤ c ∧ c < 0xE000) ∨ 0x110000 ≤ c) := by omega
  have key : ∀ n : Nat, n < 256 → utf8LenTbl (UInt8.ofNat n) =
      if n < 0xC0 then 1 else if n < 0xE0 then 2 else if n < 0xF0 then 3 else 4 := by
    intro n hn
    unfold utf8LenTbl
    simp only [UInt8.lt_iff_toNat, ofNat_toNat hn]
    rfl
  simp only [hc, if_false]
  split
  · refine ⟨_, _, rfl, ?_⟩
    rw [key _ (by omega), if_pos (by omega)]; rfl
  · split
    · refine ⟨_, _, rfl, ?_⟩
      rw [key _ (by omega), if_neg (by omega), if_pos (by omega)]; rfl
    · split
      · refine ⟨_, _, rfl, ?_⟩
        rw [key _ (by omega), if_neg (by omega), if_neg (by omega), if_pos (by omega)]; rfl
      · refine ⟨_, _, rfl, ?_⟩
        rw [key _ (by omega), if_neg (by omega), if_neg (by omega), if_neg (by omega)]; rfl

theorem utf8LenFuel_encode (cs : List Nat) (h : ∀ c ∈ cs, ScalarValue c) (n : Nat)
    (hn : (cs.flatMap encodeRune).length ≤ n) : utf8LenFuel n (cs.flatMap encodeRune) = cs.length := by
  induction cs generalizing n with
  | nil => cases n <;> rfl
  | cons c cs ih =>
    obtain ⟨b, t, e1, e2⟩ := tbl_encode (h c (by simp))
    have hl : (encodeRune c).length = t.length + 1 := by rw [e1]; rfl
    simp only [List.flatMap_cons, List.length_append] at hn
    cases n with
    | zero => omega
    | succ n =>
      have hd : ((encodeRune c ++ cs.flatMap encodeRune)).drop (utf8LenTbl b) = cs.flatMap encodeRune := by
        rw [e2]; exact List.drop_left' rfl
      rw [List.flatMap_cons]
      rw [e1, List.cons_append] at hd ⊢
      unfold utf8LenFuel
      rw [hd, ih (fun x hx => h x (by simp [hx])) n (by omega), List.length_cons]
      omega

theorem utf8Len_eq {s : Bytes} (h : Utf8 s) : utf8Len s = runeCount s := by
  obtain ⟨cs, hcs, rfl⟩ := h
  unfold utf8Len runeCount
  rw [utf8LenFuel_encode cs hcs _ (Nat.le_refl _), runes_encode cs hcs]

theorem hostCharBad_iff (b : UInt8) : hostCharBad b = false ↔ LabelByte b := by
  have : ∀ n : Fin 256, hostCharBad (UInt8.ofNat n) = false ↔ LabelByte (UInt8.ofNat n) := by
    decide +kernel
  have h := this ⟨b.toNat, b.toNat_lt⟩
  simpa using h

theorem hostPartBad_iff (l : Bytes) : hostPartBad l = false ↔ Label l := by
  unfold hostPartBad Label
  simp only [Bool.or_eq_false_iff, List.any_eq_false, Bool.not_eq_true, hostCharBad_iff,
    beq_eq_false_iff_ne, decide_eq_false_iff_not, ne_eq]
  have : l.isEmpty = false ↔ 1 ≤ l.length := by cases l <;> simp
  rw [this]
  constructor
  · rintro ⟨⟨⟨⟨a, b⟩, c⟩, d⟩, e⟩; exact ⟨a, by omega, e, c, d⟩
  · rintro ⟨a, b, e, c, d⟩; exact ⟨⟨⟨⟨a, by omega⟩, c⟩, d⟩, e⟩

theorem splitByte_ne_nil (sep : UInt8) (s : Bytes) : splitByte sep s ≠ [] := by
  cases s with
  | nil => simp [splitByte]
  | cons b t =>
    unfold splitByte
    split
    · simp
    · split <;> simp

theorem splitByte_append_sep (sep : UInt8) (s : Bytes) :
    splitByte sep (s ++ [sep]) = splitByte sep s ++ [[]] := by
  induction s with
  | nil => simp [splitByte]
  | cons b t ih =>
    simp only [List.cons_append, splitByte, ih]
    split
    · rfl
    · cases h : splitByte sep t with
      | nil => exact absurd h (splitByte_ne_nil sep t)
      | cons x xs => simp [h]

theorem splitByte_last (sep : UInt8) (s : Bytes) (h : s ≠ []) (hs : s.getLast? ≠ some sep) :
    (splitByte sep s).getLast? ≠ some [] := by
  induction s with
  | nil => exact absurd rfl h
  | cons b t ih =>
    cases t with
    | nil =>
      have hb : b ≠ sep := by rintro rfl; simp at hs
      simp [splitByte, hb]
    | cons c t =>
      have ih := ih (by simp) (by simpa [List.getLast?_cons_cons] using hs)
      have hne := splitByte_ne_nil sep (c :: t)
      rw [splitByte]
      split
      · cases hx : splitByte sep (c :: t) with
        | nil => exact absurd hx hne
        | cons x xs =>
          rw [hx] at ih
          rw [List.getLast?_cons_cons]; exact ih
      · cases hx : splitByte sep (c :: t) with
        | nil => exact absurd hx hne
        | cons x xs =>
          rw [hx] at ih
          simp only
          cases xs with
          | nil => simp
          | cons y ys =>
            rw [List.getLast?_cons_cons] at ih ⊢; exact ih

theorem dotTokens_eq (s : Bytes) (hs : s ≠ []) :
    (∀ p ∈ dotTokens s, Label p) ↔ ∀ p ∈ splitByte 0x2E (trimSuffix s [0x2E]), Label p := by
  by_cases hd : s.getLast? = some 0x2E
  · obtain ⟨t, rfl⟩ : ∃ t, s = t ++ [0x2E] := by
      rw [List.getLast?_eq_some_iff] at hd; exact hd
    have ht : trimSuffix (t ++ [0x2E]) [0x2E] = t := by
      unfold trimSuffix
      rw [if_pos ((hasSuffix_iff _ _).2 ⟨t, rfl⟩)]
      simp
    have hn := splitByte_ne_nil 0x2E t
    rw [ht]
    unfold dotTokens
    rw [splitByte_append_sep]
    have hl : ¬ (splitByte 0x2E t ++ [[]]).length = 1 := by
      cases h : splitByte 0x2E t with
      | nil => exact absurd h hn
      | cons x xs => simp
    simp only [List.getLast?_append, List.getLast?_singleton, Option.some_or, hl, if_false,
      List.dropLast_concat]
  · have ht : trimSuffix s [0x2E] = s := by
      unfold trimSuffix
      rw [if_neg]
      rw [hasSuffix_iff]
      rintro ⟨t, rfl⟩
      simp at hd
    rw [ht]
    have hlast := splitByte_last 0x2E s hs hd
    unfold dotTokens
    simp only

/-- `IsHostname` accepts exactly the hostnames. -/
theorem isHostname_iff (s : Bytes) : isHostname s = true ↔ Hostname s := by
  rw [Go.hostname_split]
  unfold isHostname
  by_cases hl : s.length > 253
  · simp [hl]; omega
  · simp only [hl, if_false]
    have e : ((dotTokens s).all fun p => !hostPartBad p) = true ↔ ∀ p ∈ dotTokens s, Label p := by
      simp only [List.all_eq_true, Bool.not_eq_true', hostPartBad_iff]
    rw [e]
    by_cases hs : s = []
    · subst hs
      constructor
      · intro h
        have := (h [] (by simp [dotTokens, splitByte])).1
        simp at this
      · rintro ⟨-, h⟩
        have := (h [] (by simp [trimSuffix, hasSuffix, splitByte])).1
        simp at this
    · rw [dotTokens_eq s hs]
      exact ⟨fun h => ⟨by omega, h⟩, fun h => h.2⟩

end PGV.Cpp
