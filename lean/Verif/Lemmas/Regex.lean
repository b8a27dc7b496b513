import Verif.Core.Regex

/-!
The derivative matcher decides the language of an expression.
-/

namespace PGV.Re

theorem nullable_iff (e : Re) : e.nullable = true ↔ Matches e [] := by
  constructor
  · intro h
    induction e with
    | empty => simp [nullable] at h
    | eps => exact .eps
    | cls c => simp [nullable] at h
    | alt a b iha ihb =>
      simp [nullable] at h
      rcases h with h | h
      · exact .altL (iha h)
      · exact .altR (ihb h)
    | cat a b iha ihb =>
      simp [nullable] at h
      exact .cat (s := []) (t := []) (iha h.1) (ihb h.2)
    | star a => exact .starNil
  · intro h
    generalize hs : ([] : List Nat) = s at h
    induction h with
    | eps => rfl
    | cls => simp at hs
    | altL _ ih => simp [nullable, ih hs]
    | altR _ ih => simp [nullable, ih hs]
    | cat _ _ ih1 ih2 =>
      have := List.append_eq_nil_iff.1 hs.symm
      simp [nullable, ih1 this.1.symm, ih2 this.2.symm]
    | starNil => rfl
    | starCons => rfl

theorem star_cons {a : Re} {r : Nat} {s : List Nat} (h : Matches (.star a) (r :: s)) :
    ∃ s1 s2, s = s1 ++ s2 ∧ Matches a (r :: s1) ∧ Matches (.star a) s2 := by
  generalize he : Re.star a = e at h
  generalize hs : (r :: s) = l at h
  induction h with
  | starNil => simp at hs
  | @starCons a' s' t' h1 h2 ih1 ih2 =>
    cases he
    cases s' with
    | nil => exact ih2 rfl hs
    | cons r' s1 =>
      simp at hs
      obtain ⟨rfl, rfl⟩ := hs
      exact ⟨s1, t', rfl, h1, h2⟩
  | _ => cases he

theorem deriv_iff (r : Nat) (e : Re) : ∀ s, Matches (deriv r e) s ↔ Matches e (r :: s) := by
  induction e with
  | empty => intro s; constructor <;> (intro h; cases h)
  | eps => intro s; constructor <;> (intro h; cases h)
  | cls c =>
    intro s
    simp only [deriv]
    split
    · rename_i hc
      constructor
      · intro h; cases h; exact .cls hc
      · intro h; cases h; exact .eps
    · rename_i hc
      constructor
      · intro h; cases h
      · intro h; cases h with | cls h => exact absurd h hc
  | alt a b iha ihb =>
    intro s
    constructor
    · intro h
      cases h with
      | altL h => exact .altL ((iha s).1 h)
      | altR h => exact .altR ((ihb s).1 h)
    · intro h
      cases h with
      | altL h => exact .altL ((iha s).2 h)
      | altR h => exact .altR ((ihb s).2 h)
  | cat a b iha ihb =>
    intro s
    have key : Matches (.cat a b) (r :: s) ↔
        (∃ s1 s2, s = s1 ++ s2 ∧ Matches a (r :: s1) ∧ Matches b s2) ∨
        (Matches a [] ∧ Matches b (r :: s)) := by
      constructor
      · intro h
        generalize hl : r :: s = l at h
        cases h with
        | @cat _ _ s1 s2 h1 h2 =>
          cases s1 with
          | nil => right; exact ⟨h1, h2⟩
          | cons r' s1 =>
            simp at hl
            obtain ⟨rfl, rfl⟩ := hl
            left; exact ⟨s1, s2, rfl, h1, h2⟩
      · rintro (⟨s1, s2, rfl, h1, h2⟩ | ⟨h1, h2⟩)
        · exact .cat (s := r :: s1) h1 h2
        · exact .cat (s := []) h1 h2
    have key2 : ∀ s, Matches (.cat (deriv r a) b) s ↔
        ∃ s1 s2, s = s1 ++ s2 ∧ Matches a (r :: s1) ∧ Matches b s2 := by
      intro s
      constructor
      · intro h
        cases h with
        | @cat _ _ s1 s2 h1 h2 => exact ⟨s1, s2, rfl, (iha s1).1 h1, h2⟩
      · rintro ⟨s1, s2, rfl, h1, h2⟩
        exact .cat ((iha s1).2 h1) h2
    rw [key]
    simp only [deriv]
    split
    · rename_i hn
      rw [nullable_iff] at hn
      constructor
      · intro h
        cases h with
        | altL h => left; exact (key2 s).1 h
        | altR h => right; exact ⟨hn, (ihb s).1 h⟩
      · rintro (h | ⟨_, h⟩)
        · exact .altL ((key2 s).2 h)
        · exact .altR ((ihb s).2 h)
    · rename_i hn
      rw [nullable_iff] at hn
      rw [key2]
      constructor
      · intro h; left; exact h
      · rintro (h | ⟨h, _⟩)
        · exact h
        · exact absurd h hn
  | star a iha =>
    intro s
    constructor
    · intro h
      cases h with
      | @cat _ _ s1 s2 h1 h2 => exact .starCons (s := r :: s1) ((iha s1).1 h1) h2
    · intro h
      obtain ⟨s1, s2, rfl, h1, h2⟩ := star_cons h
      exact .cat ((iha s1).2 h1) h2

/-- The matcher decides the language. -/
theorem accepts_iff (e : Re) (s : List Nat) : e.accepts s = true ↔ Matches e s := by
  induction s generalizing e with
  | nil => exact nullable_iff e
  | cons r s ih => rw [accepts, ih, deriv_iff]

theorem matches_cls {c : CClass} {s : List Nat} :
    Matches (.cls c) s ↔ ∃ r, s = [r] ∧ c.has r = true := by
  constructor
  · intro h; cases h with | cls h => exact ⟨_, rfl, h⟩
  · rintro ⟨r, rfl, h⟩; exact .cls h

theorem matches_chr {k : Nat} {s : List Nat} : Matches (chr k) s ↔ s = [k] := by
  unfold chr
  rw [matches_cls]
  constructor
  · rintro ⟨r, rfl, h⟩
    simp [CClass.has] at h
    rw [show r = k by omega]
  · rintro rfl; exact ⟨k, rfl, by simp [CClass.has]⟩

theorem matches_eps {s : List Nat} : Matches .eps s ↔ s = [] := by
  constructor
  · intro h; cases h; rfl
  · rintro rfl; exact .eps

theorem matches_alt {a b : Re} {s : List Nat} :
    Matches (.alt a b) s ↔ Matches a s ∨ Matches b s := by
  constructor
  · intro h
    cases h with
    | altL h => exact .inl h
    | altR h => exact .inr h
  · rintro (h | h)
    · exact .altL h
    · exact .altR h

theorem matches_cat {a b : Re} {s : List Nat} :
    Matches (.cat a b) s ↔ ∃ s1 s2, s = s1 ++ s2 ∧ Matches a s1 ∧ Matches b s2 := by
  constructor
  · intro h
    cases h with
    | @cat _ _ s1 s2 h1 h2 => exact ⟨s1, s2, rfl, h1, h2⟩
  · rintro ⟨s1, s2, rfl, h1, h2⟩; exact .cat h1 h2

theorem matches_seq_cons {a : Re} {es : List Re} {s : List Nat} :
    Matches (seq (a :: es)) s ↔ ∃ s1 s2, s = s1 ++ s2 ∧ Matches a s1 ∧ Matches (seq es) s2 :=
  matches_cat

theorem matches_rep_cls {c : CClass} : ∀ {n : Nat} {s : List Nat},
    Matches (rep n (.cls c)) s ↔ s.length = n ∧ ∀ r ∈ s, c.has r = true := by
  intro n
  induction n with
  | zero =>
    intro s
    rw [rep, matches_eps]
    constructor
    · rintro rfl; simp
    · rintro ⟨h, _⟩; exact List.length_eq_zero_iff.1 h
  | succ n ih =>
    intro s
    rw [rep, matches_cat]
    constructor
    · rintro ⟨s1, s2, rfl, h1, h2⟩
      obtain ⟨r, rfl, hr⟩ := matches_cls.1 h1
      obtain ⟨h3, h4⟩ := ih.1 h2
      refine ⟨by simp [h3], ?_⟩
      intro x hx
      rcases List.mem_cons.1 hx with rfl | hx
      · exact hr
      · exact h4 x hx
    · rintro ⟨h1, h2⟩
      cases s with
      | nil => simp at h1
      | cons r s =>
        refine ⟨[r], s, rfl, .cls (h2 r (by simp)), ih.2 ⟨by simpa using h1, ?_⟩⟩
        intro x hx; exact h2 x (by simp [hx])

theorem matches_star_cls {c : CClass} {s : List Nat} :
    Matches (.star (.cls c)) s ↔ ∀ r ∈ s, c.has r = true := by
  induction s with
  | nil => exact ⟨fun _ => by simp, fun _ => .starNil⟩
  | cons r s ih =>
    constructor
    · intro h
      obtain ⟨s1, s2, rfl, h1, h2⟩ := star_cons h
      obtain ⟨x, hx, hc⟩ := matches_cls.1 h1
      simp at hx
      obtain ⟨rfl, rfl⟩ := hx
      intro y hy
      rcases List.mem_cons.1 hy with rfl | hy
      · exact hc
      · exact ih.1 h2 y hy
    · intro h
      exact .starCons (s := [r]) (.cls (h r (by simp))) (ih.2 fun x hx => h x (by simp [hx]))

theorem matches_plus_cls {c : CClass} {s : List Nat} :
    Matches (plus (.cls c)) s ↔ s ≠ [] ∧ ∀ r ∈ s, c.has r = true := by
  unfold plus
  rw [matches_cat]
  constructor
  · rintro ⟨s1, s2, rfl, h1, h2⟩
    obtain ⟨r, rfl, hr⟩ := matches_cls.1 h1
    rw [matches_star_cls] at h2
    refine ⟨by simp, ?_⟩
    intro x hx
    rcases List.mem_cons.1 hx with rfl | hx
    · exact hr
    · exact h2 x hx
  · rintro ⟨h1, h2⟩
    cases s with
    | nil => exact absurd rfl h1
    | cons r s =>
      exact ⟨[r], s, rfl, .cls (h2 r (by simp)), matches_star_cls.2 fun x hx => h2 x (by simp [hx])⟩

end PGV.Re
