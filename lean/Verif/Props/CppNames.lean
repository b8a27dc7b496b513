import Verif.Spec.CppCompile

/-!
C78: the C++ names the generator writes are those protoc's C++ generator declares.
-/

set_option linter.unusedSimpArgs false

namespace PGV.Props
open PGV PGV.Cpp PGV.Spec.Cpp

theorem method_iff (keyword : Ident → Bool) (hc : keyword "const".toList = true)
    (hi : keyword "inline".toList = true) (s : Ident) :
    methodName s = protocField keyword s ↔
      s.map lowerOf = s ∧ (keyword s = true → s = "const".toList ∨ s = "inline".toList) := by
  unfold methodName protocField
  have len : ∀ l : Ident, (l.map lowerOf).length = l.length := fun l => by simp
  by_cases h1 : s = "const".toList
  · subst h1
    have e : ("const".toList).map lowerOf = "const".toList := by decide
    simp only [e, hc, if_true]
    simp
  by_cases h2 : s = "inline".toList
  · subst h2
    have e : ("inline".toList).map lowerOf = "inline".toList := by decide
    simp only [e, hi, if_true]
    simp
  rw [if_neg h1, if_neg h2]
  simp only [h1, h2, or_self, imp_false, Bool.not_eq_true]
  constructor
  · intro h
    split at h
    · have := congrArg List.length h
      simp at this
    · rename_i hk
      rw [← h] at hk
      exact ⟨h.symm, by simpa using hk⟩
  · rintro ⟨h, hk⟩
    rw [h, hk]
    simp

theorem low_facts {c : Char} (h : isLow c = true) :
    c ≠ '_' ∧ isDig c = false ∧ isUp c = false ∧ upperOf c ≠ '_' := by
  simp only [isLow, decide_eq_true_eq, Char.le_def, UInt32.le_iff_toNat_le] at h
  have h1 : c.val.toNat = c.toNat := rfl
  have h2 : 'a'.val.toNat = 97 := rfl
  have h3 : 'z'.val.toNat = 122 := rfl
  refine ⟨?_, ?_, ?_, ?_⟩
  · rintro rfl
    revert h; decide
  · simp only [isDig, decide_eq_false_iff_not, Char.le_def, UInt32.le_iff_toNat_le, not_and, Nat.not_le]
    have h4 : '9'.val.toNat = 57 := rfl
    omega
  · simp only [isUp, decide_eq_false_iff_not, Char.le_def, UInt32.le_iff_toNat_le, not_and, Nat.not_le]
    have h4 : 'Z'.val.toNat = 90 := rfl
    omega
  · have hl : isLow c = true := by
      simp only [isLow, decide_eq_true_eq, Char.le_def, UInt32.le_iff_toNat_le]; exact h
    rw [upperOf, if_pos hl]
    intro he
    have hn : (Char.ofNat (c.toNat - 32)).toNat = c.toNat - 32 := by
      have hv : Nat.isValidChar (c.toNat - 32) := Or.inl (by omega)
      rw [Char.ofNat, dif_pos hv]
      rfl
    rw [he] at hn
    have h5 : '_'.toNat = 95 := rfl
    omega

theorem up_facts {c : Char} (h : isUp c = true) :
    c ≠ '_' ∧ isDig c = false ∧ isLow c = false := by
  simp only [isUp, decide_eq_true_eq, Char.le_def, UInt32.le_iff_toNat_le] at h
  have h2 : 'A'.val.toNat = 65 := rfl
  have h3 : 'Z'.val.toNat = 90 := rfl
  refine ⟨?_, ?_, ?_⟩
  · rintro rfl
    revert h; decide
  · simp only [isDig, decide_eq_false_iff_not, Char.le_def, UInt32.le_iff_toNat_le, not_and, Nat.not_le]
    have h4 : '9'.val.toNat = 57 := rfl
    omega
  · simp only [isLow, decide_eq_false_iff_not, Char.le_def, UInt32.le_iff_toNat_le, not_and, Nat.not_le]
    have h4 : 'a'.val.toNat = 97 := rfl
    omega

theorem dig_facts {c : Char} (h : isDig c = true) :
    c ≠ '_' ∧ isUp c = false ∧ isLow c = false := by
  refine ⟨?_, ?_, ?_⟩
  · rintro rfl
    revert h; decide
  · cases hu : isUp c with
    | false => rfl
    | true => rw [(up_facts hu).2.1] at h; cases h
  · cases hu : isLow c with
    | false => rfl
    | true => rw [(low_facts hu).2.1] at h; cases h

/-- Without a lower-case letter next, it does not matter whether one would be made upper-case. -/
theorem protocCamelLoop_cap {s : Ident} (h : (s.head?.map isLow).getD false = false) :
    protocCamelLoop false s = protocCamelLoop true s := by
  cases s with
  | nil => rfl
  | cons c t =>
    have : isLow c = false := by simpa using h
    simp [protocCamelLoop, this]

theorem pggLoop_filter : ∀ (s : Ident), (∀ c ∈ s, isLow c = true ∨ isUp c = true ∨ isDig c = true ∨ c = '_') →
    ∀ cap, (pggLoop cap s).filter (· ≠ '_') = protocCamelLoop cap s
  | [], _, _ => rfl
  | c :: t, h, cap => by
    have ih := pggLoop_filter t (fun x hx => h x (by simp [hx]))
    rcases h c (by simp) with hl | hu | hd | rfl
    · obtain ⟨h1, h2, h3, h4⟩ := low_facts hl
      cases cap
      · simp [pggLoop, protocCamelLoop, hl, h1, ← ih]
      · simp [pggLoop, protocCamelLoop, hl, h1, h2, h4, ← ih]
    · obtain ⟨h1, h2, h3⟩ := up_facts hu
      simp [pggLoop, protocCamelLoop, hu, h1, h2, h3, upperOf, ← ih]
    · obtain ⟨h1, h2, h3⟩ := dig_facts hd
      simp [pggLoop, protocCamelLoop, hd, h1, h2, h3, ← ih]
    · have e1 : isLow '_' = false := by decide
      have e2 : isUp '_' = false := by decide
      have e3 : isDig '_' = false := by decide
      cases hn : (t.head?.map isLow).getD false with
      | true => simp [pggLoop, protocCamelLoop, e1, e2, e3, hn, ← ih]
      | false =>
        have := protocCamelLoop_cap hn
        simp [pggLoop, protocCamelLoop, e1, e2, e3, hn, upperOf, ← this, ← ih]

theorem underscore_mem : ∀ (s : Ident), (∀ c ∈ s, isLow c = true ∨ isUp c = true ∨ isDig c = true ∨ c = '_') →
    ∀ cap, '_' ∉ pggLoop cap s ↔ UnderscoresFollowed s
  | [], _, _ => by simp [pggLoop, UnderscoresFollowed]
  | c :: t, h, cap => by
    have ih := underscore_mem t (fun x hx => h x (by simp [hx]))
    have tail : c ≠ '_' → (UnderscoresFollowed (c :: t) ↔ UnderscoresFollowed t) := by
      intro hc
      constructor
      · intro hu a b he
        exact hu (c :: a) b (by simp [he])
      · intro hu a b he
        cases a with
        | nil => simp at he; exact absurd he.1 hc
        | cons x a =>
          simp at he
          exact hu a b he.2
    rcases h c (by simp) with hl | hu | hd | rfl
    · obtain ⟨h1, h2, h3, h4⟩ := low_facts hl
      rw [tail h1]
      have h1' : ¬ '_' = c := fun e => h1 e.symm
      have h4' : ¬ '_' = upperOf c := fun e => h4 e.symm
      cases cap
      · simp [pggLoop, hl, h1', ih]
      · simp [pggLoop, hl, h1, h2, h4', ih]
    · obtain ⟨h1, h2, h3⟩ := up_facts hu
      rw [tail h1]
      have h1' : ¬ '_' = c := fun e => h1 e.symm
      simp [pggLoop, hu, h1, h1', h2, h3, upperOf, ih]
    · obtain ⟨h1, h2, h3⟩ := dig_facts hd
      rw [tail h1]
      have h1' : ¬ '_' = c := fun e => h1 e.symm
      simp [pggLoop, hd, h1, h1', h2, h3, ih]
    · have e1 : isLow '_' = false := by decide
      have e3 : isDig '_' = false := by decide
      cases hn : (t.head?.map isLow).getD false with
      | true =>
        have : UnderscoresFollowed ('_' :: t) ↔ UnderscoresFollowed t := by
          constructor
          · intro hu a b he
            exact hu ('_' :: a) b (by simp [he])
          · intro hu a b he
            cases a with
            | nil =>
              simp at he
              subst he
              cases t with
              | nil => simp at hn
              | cons x t => exact ⟨x, t, rfl, by simpa using hn⟩
            | cons x a =>
              simp at he
              exact hu a b he.2
        simp [pggLoop, e1, e3, hn, ih, this]
      | false =>
        have hne : ¬ UnderscoresFollowed ('_' :: t) := by
          intro hu
          obtain ⟨x, t', rfl, hx⟩ := hu [] t rfl
          simp [hx] at hn
        simp [pggLoop, e1, e3, hn, upperOf, hne]

theorem filter_ne_self {l : Ident} : l.filter (· ≠ '_') = l ↔ '_' ∉ l := by
  rw [List.filter_eq_self]
  constructor
  · intro h hm
    simpa using h _ hm
  · intro h a ha
    simp only [ne_eq, decide_not, Bool.not_eq_eq_eq_not, Bool.not_true, decide_eq_false_iff_not]
    rintro rfl
    exact h ha

/-- **C78, partial** The accessor the generated code calls on a field is the one protoc declares if, and only if, the
name of the field has no upper-case letters and is no word C++ reserves, other than `const` and `inline`. Missing: the
other words, see `C78_reserved`, and names with upper-case letters. -/
theorem C78_accessor_partial (keyword : Ident → Bool) (hc : keyword "const".toList = true)
    (hi : keyword "inline".toList = true) (s : Ident) :
    methodName s = protocField keyword s ↔
      s.map lowerOf = s ∧ (keyword s = true → s = "const".toList ∨ s = "inline".toList) :=
  method_iff keyword hc hi s

/-- **C78** The enumerator the generated code names for a oneof member is the one protoc declares if, and only if, the
name of the member does not start with an underscore. -/
theorem C78_member_iff (s : Ident) (hs : ProtoIdent s) :
    caseName s = protocCamel s ↔ ∀ t, s ≠ '_' :: t := by
  cases s with
  | nil => simp [caseName, upperCamel, protocCamel, protocCamelLoop]
  | cons c t =>
    by_cases hc : c = '_'
    · subst hc
      have h := pggLoop_filter t (fun x hx => hs.1 x (by simp [hx])) true
      constructor
      · intro he
        have := congrArg List.length he
        simp only [caseName, upperCamel, if_true, protocCamel, protocCamelLoop] at this
        rw [List.filter_cons_of_pos (by decide), h] at this
        simp [show isLow '_' = false by decide, show isUp '_' = false by decide, show isDig '_' = false by decide] at this
      · intro h; exact absurd rfl (h t)
    · have h := pggLoop_filter (c :: t) hs.1 true
      simp only [caseName, upperCamel, hc, if_false, protocCamel, h, true_iff]
      intro t' he
      cases he
      exact hc rfl

/-- **C78, partial** The enum of a oneof's cases is named as protoc names it if, and only if, the name of the oneof does
not start with an underscore and each underscore in it comes before a lower-case letter. Missing: other names, see
`C78_numbered_oneof`. -/
theorem C78_oneof_partial (s : Ident) (hs : ProtoIdent s) :
    caseType s = protocCamel s ↔ (∀ t, s ≠ '_' :: t) ∧ UnderscoresFollowed s := by
  cases s with
  | nil => simp [caseType, upperCamel, protocCamel, protocCamelLoop, UnderscoresFollowed]
  | cons c t =>
    by_cases hc : c = '_'
    · subst hc
      have h := pggLoop_filter t (fun x hx => hs.1 x (by simp [hx])) true
      constructor
      · intro he
        exfalso
        have := congrArg List.length he
        simp only [caseType, upperCamel, if_true, protocCamel, protocCamelLoop] at this
        simp only [show isLow '_' = false by decide, show isUp '_' = false by decide,
          show isDig '_' = false by decide, Bool.false_eq_true, if_false] at this
        have h2 := List.length_filter_le (· ≠ '_') (pggLoop true t)
        rw [h] at h2
        simp at this
        omega
      · rintro ⟨h, -⟩; exact absurd rfl (h t)
    · have h := pggLoop_filter (c :: t) hs.1 true
      simp only [caseType, upperCamel, hc, if_false, protocCamel]
      rw [← h, eq_comm, filter_ne_self, underscore_mem _ hs.1]
      constructor
      · intro hu
        refine ⟨?_, hu⟩
        intro t' he
        cases he
        exact hc rfl
      · exact And.right

/-- **C78** (negation) A field called like any other reserved word: the code calls a method that does not exist
(`m.class()`, where protoc declares `class_()`). -/
theorem C78_reserved (keyword : Ident → Bool) (s : Ident) (hk : keyword s = true) (hl : s.map lowerOf = s)
    (hne : s ≠ "const".toList ∧ s ≠ "inline".toList) :
    methodName s = s ∧ protocField keyword s = s ++ ['_'] := by
  refine ⟨by rw [methodName, if_neg hne.1, if_neg hne.2], ?_⟩
  unfold protocField
  rw [hl]
  exact if_pos hk

/-- **C78** (negation) A field with an upper-case letter in its name: `m.userId()` is called, `userid()` declared. -/
theorem C78_upper_case (keyword : Ident → Bool) (hk : keyword "userid".toList = false) :
    methodName "userId".toList = "userId".toList ∧ protocField keyword "userId".toList = "userid".toList := by
  refine ⟨by decide, ?_⟩
  have : ("userId".toList).map lowerOf = "userid".toList := by decide
  unfold protocField
  rw [this]
  show (if keyword "userid".toList = true then _ else _) = _
  rw [hk, if_neg Bool.false_ne_true]

/-- **C78** (negation) A oneof with a numbered name: the code names `Choice_2Case`, protoc declares `Choice2Case`. -/
theorem C78_numbered_oneof : ProtoIdent "choice_2".toList ∧ caseType "choice_2".toList = "Choice_2".toList ∧
    protocCamel "choice_2".toList = "Choice2".toList := by
  refine ⟨⟨by decide, ?_⟩, by decide, by decide⟩
  intro c t h
  have : c = 'c' := by simpa using (congrArg List.head? h).symm
  subst this
  decide

/-- **C78** (negation) Names with a leading underscore: `kXId` is named where protoc declares `kId`, `XChoiceCase` where it
declares `ChoiceCase`. -/
theorem C78_underscore : caseName "_id".toList = "XId".toList ∧ protocCamel "_id".toList = "Id".toList ∧
    caseType "_choice".toList = "XChoice".toList ∧ protocCamel "_choice".toList = "Choice".toList := by
  decide

/-- The hypotheses are met, and names of the usual kind are right. -/
example : ProtoIdent "ipv4_address".toList ∧ caseName "ipv4_address".toList = "Ipv4Address".toList ∧
    protocCamel "ipv4_address".toList = "Ipv4Address".toList ∧ UnderscoresFollowed "ipv4_address".toList ∧
    methodName "inline".toList = protocField (fun s => s = "const".toList ∨ s = "inline".toList) "inline".toList := by
  have hp : ProtoIdent "ipv4_address".toList := by
    refine ⟨by decide, ?_⟩
    intro c t h
    have : c = 'i' := by simpa using (congrArg List.head? h).symm
    subst this
    decide
  refine ⟨hp, by decide, by decide, ?_, by decide⟩
  exact ((C78_oneof_partial _ hp).1 (by decide)).2

end PGV.Props
