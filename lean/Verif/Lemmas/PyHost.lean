import Verif.Lemmas.PyMsg
import Verif.Lemmas.Host

/-!
Hostnames, UUIDs and header patterns in Python.
-/

set_option linter.unusedSimpArgs false
set_option autoImplicit false

namespace PGV.Go
open PGV PGV.Spec

/-- Hostnames in terms of splitting at dots. -/
theorem hostname_split (s : Bytes) : Hostname s ↔
    s.length ≤ 253 ∧ ∀ p ∈ splitByte 0x2E (trimSuffix s [0x2E]), Label p := by
  unfold Hostname
  refine and_congr_right fun _ => ?_
  constructor
  · rintro ⟨ls, hne, hl, hs⟩
    have hc : trimSuffix s [0x2E] = List.intercalate [0x2E] ls := by
      rw [trimSuffix_spec]
      rcases hs with hs | hs
      · exact .inr ⟨hs, by rw [hs]; exact intercalate_label_no_dot hne hl⟩
      · exact .inl hs
    rw [hc, splitByte_intercalate _ _ hne (fun l h => label_no_dot' (hl l h))]
    exact hl
  · intro h
    refine ⟨splitByte 0x2E (trimSuffix s [0x2E]), splitByte_ne_nil _ _, h, ?_⟩
    rw [intercalate_splitByte]
    rcases (trimSuffix_spec s _).1 rfl with h | ⟨h, -⟩
    · exact .inr h
    · exact .inl h

end PGV.Go

namespace PGV.Py
open PGV PGV.Spec

/-! ### Hostnames -/

theorem split_map (s : Bytes) :
    split 0x2E (s.map UInt8.toNat) = (splitByte 0x2E s).map (List.map UInt8.toNat) := by
  induction s with
  | nil => rfl
  | cons b t ih =>
    simp only [List.map_cons, split, splitByte, ih]
    have : b.toNat = 0x2E ↔ b = 0x2E := by
      rw [← UInt8.toNat_inj]; rfl
    by_cases hb : b = 0x2E
    · rw [if_pos hb, if_pos (this.2 hb)]; rfl
    · rw [if_neg hb, if_neg (fun h => hb (this.1 h))]
      cases h : splitByte 0x2E t with
      | nil => exact absurd h (PGV.splitByte_ne_nil _ _)
      | cons p ps => rfl

theorem hostChar_byte (b : UInt8) : hostChar b.toNat = true ↔ LabelByte b := by
  have : ∀ n : Fin 256, hostChar (UInt8.ofNat n).toNat = true ↔ LabelByte (UInt8.ofNat n) := by
    decide +kernel
  have h := this ⟨b.toNat, b.toNat_lt⟩
  simpa using h

theorem map_toNat_eq (o : Option UInt8) : o.map UInt8.toNat = some 0x2D ↔ o = some 0x2D := by
  cases o with
  | none => simp
  | some b =>
    simp only [Option.map_some, Option.some.injEq, ← UInt8.toNat_inj]
    rfl

theorem hostPart_iff (l : Bytes) : hostPart (l.map UInt8.toNat) = true ↔ Label l := by
  unfold hostPart Label
  simp only [List.length_map, List.head?_map, List.getLast?_map, Bool.or_eq_true, beq_iff_eq,
    decide_eq_true_eq, map_toNat_eq]
  by_cases h1 : l.length = 0 ∨ l.length > 63
  · rw [if_pos h1]
    simp
    omega
  · rw [if_neg h1]
    by_cases h2 : l.head? = some 0x2D ∨ l.getLast? = some 0x2D
    · rw [if_pos h2]
      simp only [Bool.false_eq_true, false_iff]
      rintro ⟨-, -, -, h3, h4⟩
      exact h2.elim h3 h4
    · rw [if_neg h2]
      simp only [List.all_map, List.all_eq_true, Function.comp, hostChar_byte]
      refine ⟨fun h => ⟨by omega, by omega, h, fun e => h2 (.inl e), fun e => h2 (.inr e)⟩,
        fun h => h.2.2.1⟩

theorem trim_map (s : Bytes) :
    (if (s.map UInt8.toNat).getLast? == some 0x2E then (s.map UInt8.toNat).dropLast
      else s.map UInt8.toNat) = (trimSuffix s [0x2E]).map UInt8.toNat := by
  have hg : (s.map UInt8.toNat).getLast? = some 0x2E ↔ s.getLast? = some 0x2E := by
    rw [List.getLast?_map]
    cases s.getLast? with
    | none => simp
    | some b => simp only [Option.map_some, Option.some.injEq, ← UInt8.toNat_inj]; rfl
  rcases List.eq_nil_or_concat s with rfl | ⟨t, b, rfl⟩
  · rfl
  · by_cases hb : b = 0x2E
    · subst hb
      rw [(PGV.trimSuffix_spec _ t).2 (.inl (by simp))]
      simp
    · rw [(PGV.trimSuffix_spec _ (t.concat b)).2 (.inr ⟨rfl, ?_⟩)]
      · rw [if_neg]
        rw [beq_iff_eq, hg]
        simpa using hb
      · rintro ⟨u, hu⟩
        have := congrArg List.getLast? hu
        simp at this
        exact hb this.symm

/-- On ASCII text. -/
theorem hostName_ascii (s : Bytes) :
    validateHostName (s.map UInt8.toNat) = true ↔ Hostname s := by
  rw [Go.hostname_split]
  unfold validateHostName
  rw [trim_map, split_map]
  cases s with
  | nil =>
    simp only [List.map_nil, List.isEmpty_nil, if_true, Bool.false_eq_true, false_iff]
    intro h
    have := h.2 [] (by decide)
    simp [Label] at this
  | cons b t =>
    rw [if_neg (by simp)]
    simp only [List.length_map]
    by_cases hl : (b :: t).length > 253
    · rw [if_pos hl]
      simp only [Bool.false_eq_true, false_iff]
      omega
    · rw [if_neg hl]
      simp only [List.all_map, List.all_eq_true, Function.comp, hostPart_iff]
      refine ⟨fun h => ⟨by omega, h⟩, fun h => h.2⟩

theorem mem_split (sep : Nat) (s : PStr) (c : Nat) (hc : c ∈ s) (hne : c ≠ sep) :
    ∃ p ∈ split sep s, c ∈ p := by
  induction s with
  | nil => simp at hc
  | cons a t ih =>
    simp only [split]
    rcases List.mem_cons.1 hc with rfl | hc
    · rw [if_neg hne]
      cases split sep t <;> simp
    · obtain ⟨p, hp, hcp⟩ := ih hc
      split
      · exact ⟨p, by simp [hp], hcp⟩
      · cases h : split sep t with
        | nil => simp [h] at hp
        | cons q qs =>
          rw [h] at hp
          rcases List.mem_cons.1 hp with rfl | hp
          · exact ⟨a :: p, by simp, by simp [hcp]⟩
          · exact ⟨p, by simp [hp], hcp⟩

theorem hostName_small {s : PStr} (h : validateHostName s = true) : ∀ c ∈ s, c < 0x80 := by
  intro c hc
  unfold validateHostName at h
  split at h
  · simp at h
  split at h
  · simp at h
  by_cases hd : c = 0x2E
  · omega
  have hc' : c ∈ (if s.getLast? == some 0x2E then s.dropLast else s) := by
    split
    · rename_i hl
      rcases List.eq_nil_or_concat s with rfl | ⟨t, b, rfl⟩
      · simp at hc
      · simp at hl hc ⊢
        rcases hc with hc | hc
        · exact hc
        · omega
    · exact hc
  obtain ⟨p, hp, hcp⟩ := mem_split 0x2E _ c hc' hd
  have hpart := List.all_eq_true.1 h p hp
  unfold hostPart at hpart
  split at hpart
  · simp at hpart
  split at hpart
  · simp at hpart
  have := List.all_eq_true.1 hpart c hcp
  simp [hostChar] at this
  omega

/-- Python's hostname check accepts exactly the hostnames of the plain grammar. -/
theorem hostName_iff (s : Bytes) : validateHostName (pstr s) = true ↔ Hostname s := by
  constructor
  · intro h
    have ha := ascii_of_runes (hostName_small h)
    rw [pstr, runes_ascii s ha] at h
    exact (hostName_ascii s).1 h
  · intro h
    rw [pstr, runes_ascii s (Go.hostname_bytes h)]
    exact (hostName_ascii s).2 h

/-! ### UUIDs -/

theorem isPrefixOf_head {p s : PStr} {c d : Nat} (h : (c :: p).isPrefixOf (d :: s) = true) : c = d := by
  simp [List.isPrefixOf] at h
  exact h.1

theorem removeFuel_absent (c : Nat) (p : PStr) (n : Nat) (s : PStr) (h : c ∉ s) :
    removeFuel (c :: p) n s = s := by
  induction n generalizing s with
  | zero => rfl
  | succ n ih =>
    cases s with
    | nil => rfl
    | cons d s =>
      simp only [List.mem_cons, not_or] at h
      unfold removeFuel
      rw [if_neg (fun hp => h.1 (isPrefixOf_head hp)), ih s h.2]

theorem removeFuel_one (c : Nat) (n : Nat) (s : PStr) (h : s.length < n) :
    removeFuel [c] n s = s.filter (· != c) := by
  induction n generalizing s with
  | zero => omega
  | succ n ih =>
    cases s with
    | nil => rfl
    | cons d s =>
      simp only [List.length_cons] at h
      unfold removeFuel
      by_cases hd : c = d
      · subst hd
        rw [if_pos (by simp [List.isPrefixOf])]
        simp only [List.length_cons, List.length_nil, List.drop_succ_cons, List.drop_zero]
        rw [ih s (by omega)]
        simp
      · rw [if_neg (fun hp => hd (isPrefixOf_head hp)), ih s (by omega)]
        rw [List.filter_cons_of_pos (by simpa using fun e => hd e.symm)]

theorem stripBraces_absent (s : PStr) (h : ∀ c ∈ s, c ≠ 0x7B ∧ c ≠ 0x7D) : stripBraces s = s := by
  have key : ∀ l : PStr, (∀ c ∈ l, c ≠ 0x7B ∧ c ≠ 0x7D) →
      l.dropWhile (fun c => c == 0x7B || c == 0x7D) = l := by
    intro l hl
    cases l with
    | nil => rfl
    | cons c l =>
      have := hl c (by simp)
      rw [List.dropWhile_cons_of_neg (by simp [this])]
  unfold stripBraces
  rw [key s h, key s.reverse (fun c hc => h c (by simpa using hc)), List.reverse_reverse]

/-- Python accepts every UUID that Go accepts. -/
theorem uuidOk_of (P : PEnv) (s : Bytes) (h : UuidOk s) : uuidOk P (pstr s) = true := by
  have ha := Java.uuidOk_ascii h
  obtain ⟨a, b, c, d, e, hs, h1, h2, h3, h4, h5⟩ := h
  have hx : ∀ x, HexDigit x → isHex x.toNat = true := by
    intro x hx
    have : ∀ n : Fin 256, (((0x30 : UInt8) ≤ UInt8.ofNat n ∧ UInt8.ofNat n ≤ 0x39) ∨
        (0x41 ≤ UInt8.ofNat n ∧ UInt8.ofNat n ≤ 0x46) ∨
        (0x61 ≤ UInt8.ofNat n ∧ UInt8.ofNat n ≤ 0x66)) → isHex (UInt8.ofNat n).toNat = true := by
      decide +kernel
    have h := this ⟨x.toNat, x.toNat_lt⟩
    simp only [UInt8.ofNat_toNat] at h
    exact h hx
  have hrun : ∀ {n : Nat} {g : Bytes}, HexRun n g → ∀ c ∈ g.map UInt8.toNat, isHex c = true := by
    intro n g hg c hc
    obtain ⟨x, hxm, rfl⟩ := List.mem_map.1 hc
    exact hx x (hg.2 x hxm)
  have hrange : ∀ c, isHex c = true → c ≠ 0x2D ∧ c ≠ 0x75 ∧ c ≠ 0x7B ∧ c ≠ 0x7D := by
    intro c hc
    simp [isHex] at hc
    omega
  have hp : pstr s = a.map UInt8.toNat ++ 0x2D :: (b.map UInt8.toNat ++ 0x2D :: (c.map UInt8.toNat ++
      0x2D :: (d.map UInt8.toNat ++ 0x2D :: e.map UInt8.toNat))) := by
    rw [pstr, runes_ascii s ha, hs]
    simp
  have hall : ∀ c ∈ pstr s, c = 0x2D ∨ isHex c = true := by
    rw [hp]
    intro x hx
    simp only [List.mem_append, List.mem_cons] at hx
    rcases hx with h | rfl | h | rfl | h | rfl | h | rfl | h <;>
      first
      | exact .inl rfl
      | exact .inr (hrun h1 _ h)
      | exact .inr (hrun h2 _ h)
      | exact .inr (hrun h3 _ h)
      | exact .inr (hrun h4 _ h)
      | exact .inr (hrun h5 _ h)
  have hu : 0x75 ∉ pstr s := fun hm => by
    rcases hall _ hm with h | h
    · omega
    · exact (hrange _ h).2.1 rfl
  have hfil : ∀ {n : Nat} {g : Bytes}, HexRun n g →
      (g.map UInt8.toNat).filter (· != 0x2D) = g.map UInt8.toNat := by
    intro n g hg
    rw [List.filter_eq_self]
    intro x hx
    simpa using (hrange x (hrun hg x hx)).1
  have hhex : (pstr s).filter (· != 0x2D) = a.map UInt8.toNat ++ (b.map UInt8.toNat ++
      (c.map UInt8.toNat ++ (d.map UInt8.toNat ++ e.map UInt8.toNat))) := by
    rw [hp]
    simp only [List.filter_append, List.filter_cons, bne_self_eq_false, Bool.false_eq_true, if_false,
      hfil h1, hfil h2, hfil h3, hfil h4, hfil h5]
  unfold uuidOk remove
  rw [show chars "urn:" = 0x75 :: [0x72, 0x6E, 0x3A] by decide,
    show chars "uuid:" = 0x75 :: [0x75, 0x69, 0x64, 0x3A] by decide, show chars "-" = [0x2D] by decide]
  rw [removeFuel_absent _ _ _ _ hu, removeFuel_absent _ _ _ _ hu, stripBraces_absent, removeFuel_one _ _ _
    (by omega), hhex]
  · simp only [Bool.and_eq_true, beq_iff_eq, Bool.or_eq_true]
    refine ⟨?_, .inl ?_⟩
    · simp [h1.1, h2.1, h3.1, h4.1, h5.1]
    · rw [List.all_eq_true]
      intro x hx
      simp only [List.mem_append] at hx
      rcases hx with h | h | h | h | h
      · exact hrun h1 _ h
      · exact hrun h2 _ h
      · exact hrun h3 _ h
      · exact hrun h4 _ h
      · exact hrun h5 _ h
  · intro x hx
    rcases hall x hx with h | h
    · omega
    · exact ⟨(hrange x h).2.2.1, (hrange x h).2.2.2⟩

end PGV.Py
