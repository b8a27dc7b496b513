import Verif.Lemmas.StaticTables

/-!
What well-formed Go code says about the rules it is generated for: the converse of `Static` and `StaticField`.
-/

set_option linter.unusedSimpArgs false

namespace PGV.Props
open PGV PGV.Go PGV.Spec

/-- The constants that are printed in the code (not in the tables) can be written in Go. -/
def CodeConstants : TypeRules → Prop
  | .num _ r => ∀ x, (r.const = some x ∨ r.lt = some x ∨ r.lte = some x ∨ r.gt = some x ∨ r.gte = some x) →
    FiniteNum x
  | .string r => IntLimit r.len ∧ IntLimit r.minLen ∧ IntLimit r.maxLen ∧ IntLimit r.lenBytes ∧
    IntLimit r.minBytes ∧ IntLimit r.maxBytes
  | .bytes r => IntLimit r.len ∧ (r.len = none → IntLimit r.minLen ∧ IntLimit r.maxLen)
  | .duration r => ∀ x, DurBound r x → InInt64 (length x)
  | .timestamp r => ∀ x, r.within = some x → InInt64 (length x)
  | _ => True

/-- What the checks say about the bounds. -/
def BoundsChecked : TypeRules → Prop
  | .num _ r => (r.lt = none ∨ r.lte = none) ∧ (r.gt = none ∨ r.gte = none)
  | .string r => (r.len ≠ none → r.minLen = none ∧ r.maxLen = none) ∧
    (r.lenBytes ≠ none → r.minBytes = none ∧ r.maxBytes = none)
  | .duration r => Checker.checkDuration r = true
  | .timestamp r => Checker.checkTimestamp r = true
  | _ => True

theorem times_of_bounds {t : TypeRules} (h : BoundsChecked t) : TimesChecked t := by
  cases t <;> first | exact h | trivial

section
variable {ds : List Decl} {G : Scope} {c : SCtx} {T : Ty}

theorem seq_nec {a b : Code} (h : (a ;; b).ok ds G = true) : a.ok ds G = true ∧ b.ok ds G = true := by
  simpa [Code.ok] using h

theorem codeIf_nec {b : Bool} {x : Code} (h : (codeIf b x).ok ds G = true) (hb : b = true) : x.ok ds G = true := by
  simpa [codeIf, hb] using h

theorem cmpOpt_nec {α : Type} {o : Option α} {k : α → Code} (h : (cmpOpt o k).ok ds G = true) {a : α}
    (ha : o = some a) : (k a).ok ds G = true := by
  simpa [cmpOpt, ha] using h

theorem cmp_nec (h : CtxOk G c T) {l : Lit} (hl : (Code.cmp c.acc l).ok ds G = true) : l.fits T = true := by
  simpa [Code.ok, h.acc] using hl

theorem num_finite {k : NumKind} {x : Num} (h : (Lit.num x).fits (NumKind.goTy k) = true) : FiniteNum x := by
  cases x with
  | int i => trivial
  | f32 b => cases k <;> simp [NumKind.goTy, Lit.fits, finite32] at h; exact h
  | f64 b => cases k <;> simp [NumKind.goTy, Lit.fits, finite64] at h; exact h

theorem ltgt_nec (h : CtxOk G c T) {r : NumRules} (hu : r.lt = none ∨ r.lte = none) (hl : r.gt = none ∨ r.gte = none)
    (hok : (ltgtCode c r).ok ds G = true) {x : Num}
    (hx : r.lt = some x ∨ r.lte = some x ∨ r.gt = some x ∨ r.gte = some x) : (Lit.num x).fits T = true := by
  unfold ltgtCode at hok
  cases hlt : r.lt <;> cases hlte : r.lte <;> cases hgt : r.gt <;> cases hgte : r.gte <;>
    simp only [hlt, hlte, hgt, hgte, reduceCtorEq, or_self, or_false, false_or, Option.some.injEq] at hok hu hl hx <;>
    simp only [Code.ok, h.acc, Bool.and_eq_true] at hok <;>
    first
    | (subst hx; exact hok.1)
    | (rcases hx with rfl | rfl
       · exact hok.2.1
       · exact hok.1)

/-- Tables that are looked up are declared. -/
def Looked (ds : List Decl) : Prop := keyTy ds .inLookup ≠ none ∨ keyTy ds .notInLookup ≠ none

theorem inCode_nec {i n : Bool} {look : Var → Code} (hok : (inCode c i n look).ok ds G = true)
    (hl : ∀ v, (look v).ok ds G = true → keyTy ds v ≠ none) (hb : i = true ∨ n = true) : Looked ds := by
  unfold inCode at hok
  cases i with
  | true => exact .inl (hl _ (seq_nec hok).1)
  | false =>
    cases n with
    | true => exact .inr (hl _ (seq_nec hok).1)
    | false => simp at hb

theorem index_nec {o : Opnd} {v : Var} (h : (Code.index v o).ok ds G = true) : keyTy ds v ≠ none := by
  simp only [Code.ok] at h
  split at h
  · intro hk; simp [hk] at h
  · cases h

theorem indexBytes_nec {o : Opnd} {v : Var} (h : (Code.indexBytes v o).ok ds G = true) : keyTy ds v ≠ none := by
  simp only [Code.ok, Bool.and_eq_true] at h
  intro hk; simp [hk] at h

theorem typeUrl_nec {x : Local} {v : Var} (h : (Code.typeUrl v x).ok ds G = true) : keyTy ds v ≠ none := by
  simp only [Code.ok, Bool.and_eq_true] at h
  intro hk; simp [hk] at h

theorem lists_or {α : Type} {a b : List α} (h : a ≠ [] ∨ b ≠ []) : (!a.isEmpty) = true ∨ (!b.isEmpty) = true := by
  rcases h with h | h
  · exact .inl (notEmpty h)
  · exact .inr (notEmpty h)

theorem lenCode_nec {len min max : Option Nat} {cmp : Nat → Code}
    (hc : ∀ n, (cmp n).ok ds G = true → n < 2 ^ 63) (hok : (lenCode c len min max cmp).ok ds G = true) :
    IntLimit len ∧ (len = none → IntLimit min ∧ IntLimit max) := by
  have hc' : ∀ n, (cmp n ;; c.err).ok ds G = true → n < 2 ^ 63 := fun n h => hc n (seq_nec h).1
  have hc2 : ∀ m n, (cmp m ;; cmp n ;; c.err).ok ds G = true → m < 2 ^ 63 ∧ n < 2 ^ 63 :=
    fun m n h => ⟨hc m (seq_nec h).1, hc' n (seq_nec h).2⟩
  unfold lenCode at hok
  cases len with
  | some n =>
    have := hc' _ hok
    refine ⟨?_, by simp⟩
    intro k hk; cases hk; exact this
  | none =>
    refine ⟨by simp [IntLimit], fun _ => ?_⟩
    cases min with
    | none =>
      cases max with
      | none => simp [IntLimit]
      | some b =>
        have := hc' _ hok
        refine ⟨by simp [IntLimit], ?_⟩
        intro k hk; cases hk; exact this
    | some a =>
      cases max with
      | none =>
        have := hc' _ hok
        refine ⟨?_, by simp [IntLimit]⟩
        intro k hk; cases hk; exact this
      | some b =>
        by_cases hab : a = b
        · subst hab
          simp [optN] at hok
          have := hc' _ hok
          constructor <;> (intro k hk; cases hk; exact this)
        · simp [optN, hab] at hok
          have := hc2 _ _ hok
          constructor
          · intro k hk; cases hk; exact this.1
          · intro k hk; cases hk; exact this.2

theorem runes_nec {o : Opnd} {n : Nat} (h : (Code.runes o n).ok ds G = true) : n < 2 ^ 63 := by
  simp only [Code.ok, Bool.and_eq_true, Lit.fits, decide_eq_true_eq] at h
  exact h.2

theorem len_nec {o : Opnd} {n : Nat} (h : (Code.len o n).ok ds G = true) : n < 2 ^ 63 := by
  simp only [Code.ok, Bool.and_eq_true, Lit.fits, decide_eq_true_eq] at h
  exact h.2

theorem limits_all {len min max : Option Nat} (h : IntLimit len ∧ (len = none → IntLimit min ∧ IntLimit max))
    (hx : len ≠ none → min = none ∧ max = none) : IntLimit len ∧ IntLimit min ∧ IntLimit max := by
  refine ⟨h.1, ?_⟩
  cases len with
  | none => exact h.2 rfl
  | some n =>
    have := hx (by simp)
    rw [this.1, this.2]
    simp [IntLimit]

theorem bindOpt_nec {α : Type} {x : Local} {b : Option α} {k : α → Rhs} {body : Code}
    (h : (bindOpt x b k body).ok ds G = true) :
    (∀ a, b = some a → (k a).ty G ≠ none) ∧ ∃ G', body.ok ds G' = true := by
  cases b with
  | none => exact ⟨by simp, G, h⟩
  | some a =>
    simp only [bindOpt, Code.ok] at h
    split at h
    · rename_i t ht
      rw [Bool.and_eq_true] at h
      refine ⟨?_, _, h.2⟩
      intro a' ha'; cases ha'
      rw [ht]; simp
    · cases h

theorem durLit_nec {d : PDur} (h : (Rhs.durLit d).ty G ≠ none) : durLitFits d = true := by
  simp only [Rhs.ty] at h
  split at h
  · assumption
  · exact absurd rfl h

theorem durLitFits_length {d : PDur} (h : durLitFits d = true) : InInt64 (length d) := by
  unfold durLitFits intFits PDur.exact at h
  unfold InInt64 length
  simp only [Bool.and_eq_true, decide_eq_true_eq] at h
  omega

theorem bind_nec {x : Local} {r : Rhs} {body : Code} (h : (Code.bind x r body).ok ds G = true) :
    body.uses x = true ∧ ∃ G', body.ok ds G' = true := by
  simp only [Code.ok] at h
  split at h
  · rw [Bool.and_eq_true] at h
    exact ⟨h.1, _, h.2⟩
  · cases h

theorem duration_nec {r : DurationRules} (hok : (durationCode c r).ok ds G = true) :
    (∀ x, DurBound r x → InInt64 (length x)) ∧ (HasList (.duration r) → Looked ds) := by
  unfold durationCode at hok
  have hok := (seq_nec hok).2
  by_cases hb : (!r.ins.isEmpty || !r.notIns.isEmpty || r.lt.isSome || r.lte.isSome || r.gt.isSome ||
      r.gte.isSome || r.const.isSome) = true
  · have h1 := codeIf_nec hok hb
    obtain ⟨-, G1, h2⟩ := bind_nec h1
    obtain ⟨-, G2, h3⟩ := bind_nec (seq_nec h2).2
    have h4 := (seq_nec h3).2
    unfold durationcmpCode at h4
    obtain ⟨h5, h6⟩ := seq_nec h4
    obtain ⟨b1, G3, h7⟩ := bindOpt_nec h6
    obtain ⟨b2, G4, h8⟩ := bindOpt_nec h7
    obtain ⟨b3, G5, h9⟩ := bindOpt_nec h8
    obtain ⟨b4, G6, h10⟩ := bindOpt_nec h9
    constructor
    · rintro x (hx | hx | hx | hx | hx)
      · have := (seq_nec (cmpOpt_nec h5 hx)).1
        simp only [Code.ok, Bool.and_eq_true] at this
        exact durLitFits_length this.2
      · exact durLitFits_length (durLit_nec (b1 x hx))
      · exact durLitFits_length (durLit_nec (b2 x hx))
      · exact durLitFits_length (durLit_nec (b3 x hx))
      · exact durLitFits_length (durLit_nec (b4 x hx))
    · intro hl
      exact inCode_nec (seq_nec h10).2 (fun v => index_nec) (lists_or hl)
  · simp only [Bool.or_eq_true, Bool.not_eq_true', List.isEmpty_eq_false_iff, ne_eq, not_or, Classical.not_not] at hb
    obtain ⟨⟨⟨⟨⟨⟨h1, h2⟩, h3⟩, h4⟩, h5⟩, h6⟩, h7⟩ := hb
    constructor
    · rintro x (hx | hx | hx | hx | hx) <;> simp_all
    · rintro (h | h)
      · exact absurd h1 h
      · exact absurd h2 h

theorem timestamp_nec {r : TimestampRules} (hok : (timestampCode c r).ok ds G = true) :
    ∀ x, r.within = some x → InInt64 (length x) := by
  intro x hx
  unfold timestampCode at hok
  have h1 := codeIf_nec (seq_nec hok).2 (by simp [hx])
  obtain ⟨-, G1, h2⟩ := bind_nec h1
  obtain ⟨-, G2, h3⟩ := bind_nec (seq_nec h2).2
  have h4 := (seq_nec h3).2
  unfold timestampcmpCode at h4
  obtain ⟨-, h6⟩ := seq_nec h4
  obtain ⟨-, G3, h7⟩ := bindOpt_nec h6
  obtain ⟨-, G4, h8⟩ := bindOpt_nec h7
  obtain ⟨-, G5, h9⟩ := bindOpt_nec h8
  obtain ⟨-, G6, h10⟩ := bindOpt_nec h9
  obtain ⟨-, G7, h11⟩ := bindOpt_nec h10
  obtain ⟨b, -⟩ := bindOpt_nec h11
  exact durLitFits_length (durLit_nec (b x hx))

theorem pattern_nec {p : Option Bytes} {k : Code} (h : (codeIf p.isSome (k ;; c.err)).ok ds G = true)
    (hk : k.ok ds G = true → hasPattern ds = true) (hp : p ≠ none) : hasPattern ds = true :=
  hk (seq_nec (codeIf_nec h (Option.isSome_iff_ne_none.2 hp))).1

/-- Code that is well formed has constants Go can write, and the tables and patterns it looks up. -/
theorem plain_nec {t : TypeRules} (h : CtxOk G c (valTy t)) (hc : BoundsChecked t)
    (hok : (plainCode c t).ok ds G = true) :
    CodeConstants t ∧ (HasList t → Looked ds) ∧ (HasPattern t → hasPattern ds = true) := by
  cases t with
  | unset => exact ⟨trivial, fun h => h.elim, fun h => h.elim⟩
  | num k r =>
    obtain ⟨-, h1⟩ := seq_nec (a := codeIf _ _) hok
    obtain ⟨h2, h3⟩ := seq_nec h1
    obtain ⟨h4, h5⟩ := seq_nec h3
    refine ⟨?_, fun hl => inCode_nec h5 (fun v => index_nec) (lists_or hl), fun h => h.elim⟩
    rintro x (hx | hx)
    · exact num_finite (cmp_nec h (seq_nec (cmpOpt_nec h2 hx)).1)
    · exact num_finite (ltgt_nec h hc.1 hc.2 h4 hx)
  | bool r => exact ⟨trivial, fun h => h.elim, fun h => h.elim⟩
  | string r =>
    obtain ⟨-, h1⟩ := seq_nec (a := codeIf _ _) hok
    obtain ⟨-, h2⟩ := seq_nec h1
    obtain ⟨h3, h4⟩ := seq_nec h2
    obtain ⟨h5, h6⟩ := seq_nec h4
    obtain ⟨h7, h8⟩ := seq_nec h6
    obtain ⟨-, h9⟩ := seq_nec h8
    obtain ⟨-, h10⟩ := seq_nec h9
    have l1 := limits_all (lenCode_nec (fun n => runes_nec) h5) hc.1
    have l2 := limits_all (lenCode_nec (fun n => len_nec) h7) hc.2
    refine ⟨⟨l1.1, l1.2.1, l1.2.2, l2.1, l2.2.1, l2.2.2⟩,
      fun hl => inCode_nec h3 (fun v => index_nec) (lists_or hl), fun hp => pattern_nec h10 ?_ hp⟩
    intro hm
    simp only [Code.ok, Bool.and_eq_true] at hm
    exact hm.2
  | bytes r =>
    obtain ⟨-, h1⟩ := seq_nec (a := codeIf _ _) hok
    obtain ⟨h2, h3⟩ := seq_nec h1
    obtain ⟨-, h4⟩ := seq_nec h3
    obtain ⟨-, h5⟩ := seq_nec h4
    obtain ⟨-, h6⟩ := seq_nec h5
    obtain ⟨h7, h8⟩ := seq_nec h6
    obtain ⟨-, h9⟩ := seq_nec h8
    obtain ⟨-, h10⟩ := seq_nec h9
    refine ⟨lenCode_nec (fun n => len_nec) h2,
      fun hl => inCode_nec h7 (fun v => indexBytes_nec) (lists_or hl), fun hp => pattern_nec h10 ?_ hp⟩
    intro hm
    simp only [Code.ok, Bool.and_eq_true] at hm
    exact hm.2
  | enum r =>
    obtain ⟨-, h1⟩ := seq_nec (a := cmpOpt _ _) hok
    exact ⟨trivial, fun hl => inCode_nec (seq_nec h1).1 (fun v => index_nec) (lists_or hl), fun h => h.elim⟩
  | repeated r i => exact ⟨trivial, fun h => h.elim, fun h => h.elim⟩
  | map r k v => exact ⟨trivial, fun h => h.elim, fun h => h.elim⟩
  | any r =>
    obtain ⟨-, h1⟩ := seq_nec (a := requiredCode _ _) hok
    obtain ⟨-, G1, h2⟩ := bind_nec h1
    exact ⟨trivial, fun hl => inCode_nec (seq_nec h2).2 (fun v => typeUrl_nec) (lists_or hl), fun h => h.elim⟩
  | duration r =>
    have := duration_nec hok
    exact ⟨this.1, this.2, fun h => h.elim⟩
  | timestamp r => exact ⟨timestamp_nec hok, fun h => h.elim, fun h => h.elim⟩

/-- The same for a singular field or an element, wrapper or not. -/
theorem elem_nec {e : ElemT} {r : FieldRules} (h : CtxOk G c (elemTy e)) (hs : Suits (.one e) r.type)
    (hc : BoundsChecked r.type) (hok : (elemCode c e r).ok ds G = true) :
    CodeConstants r.type ∧ (HasList r.type → Looked ds) ∧ (HasPattern r.type → hasPattern ds = true) := by
  have wrap : ∀ (n : String) (w : WKT) (p : ProtoType), e = .embed n (some w) → w.wrapped = some p →
      protoTy p = some (valTy r.type) → (wrapperCode c r.type r.message).ok ds G = true →
      CodeConstants r.type ∧ (HasList r.type → Looked ds) ∧ (HasPattern r.type → hasPattern ds = true) := by
    intro n w p he hw hp hk
    subst he
    have hb : (Code.bind .wrapper (.opnd c.acc) (.isNil (.loc .wrapper) ;;
        plainCode { c with acc := .value .wrapper } r.type ;; codeIf (msgRequired r.message) c.err)).ok ds G = true := hk
    simp only [Code.ok, Rhs.ty, h.acc, elemTy, Bool.and_eq_true] at hb
    refine plain_nec (c := { c with acc := .value .wrapper }) ⟨?_, ?_⟩ hc hb.2.2.1
    · simp [Opnd.ty, set_same, hw, hp]
    · intro x hx; exact set_isSome (h.idx x hx)
  unfold elemCode resolve at hok
  cases hr : r.type with
  | unset => exact ⟨trivial, fun h => h.elim, fun h => h.elim⟩
  | num k n =>
    rw [hr] at hs hc wrap hok
    rcases hs with hs | ⟨m, w, hs, hw⟩
    · cases hs
      refine plain_nec (G := G) (c := c) h hc ?_
      cases k <;> simpa [ElemT.isEmbed] using hok
    · cases hs
      refine wrap m w _ rfl hw rfl ?_
      cases k <;> first
        | (cases w <;> simp [WKT.wrapped] at hw; done)
        | simpa [ElemT.isEmbed] using hok
  | bool b => exact ⟨trivial, fun h => h.elim, fun h => h.elim⟩
  | string b =>
    rw [hr] at hs hc wrap hok
    rcases hs with hs | ⟨m, hs⟩
    · cases hs; exact plain_nec (G := G) (c := c) h hc hok
    · cases hs; exact wrap m _ _ rfl rfl rfl hok
  | bytes b =>
    rw [hr] at hs hc wrap hok
    rcases hs with hs | ⟨m, hs⟩
    · cases hs; exact plain_nec (G := G) (c := c) h hc hok
    · cases hs; exact wrap m _ _ rfl rfl rfl hok
  | enum b =>
    rw [hr] at hs hc hok
    obtain ⟨vs, hs⟩ := hs
    cases hs; exact plain_nec (G := G) (c := c) h hc hok
  | repeated a b => exact ⟨trivial, fun h => h.elim, fun h => h.elim⟩
  | map a b d => exact ⟨trivial, fun h => h.elim, fun h => h.elim⟩
  | any b =>
    rw [hr] at hs hc hok
    obtain ⟨vs, hs⟩ := hs
    cases hs; exact plain_nec (G := G) (c := c) h hc hok
  | duration b =>
    rw [hr] at hs hc hok
    obtain ⟨vs, hs⟩ := hs
    cases hs; exact plain_nec (G := G) (c := c) h hc hok
  | timestamp b =>
    rw [hr] at hs hc hok
    obtain ⟨vs, hs⟩ := hs
    cases hs; exact plain_nec (G := G) (c := c) h hc hok

theorem count_nec {min max : Option Nat} (hok : (countCode c min max).ok ds G = true) :
    IntLimit min ∧ IntLimit max := by
  have zero : ∀ {o : Option Nat}, optN o = 0 → IntLimit o := by
    intro o ho k hk; subst hk; have : k = 0 := ho; omega
  have of : ∀ {o : Option Nat}, optN o < 2 ^ 63 → IntLimit o := by
    intro o ho k hk; subst hk; exact ho
  unfold countCode at hok
  by_cases h0 : optN min = 0
  · refine ⟨zero h0, ?_⟩
    cases hm : max with
    | none => simp [IntLimit]
    | some b =>
      simp only [h0, hm, bne_self_eq_false, Bool.false_eq_true, if_false, Option.isSome_some, if_true] at hok
      have := len_nec (seq_nec hok).1
      exact of this
  · simp only [bne_iff_ne, ne_eq, h0, not_false_eq_true, if_true] at hok
    by_cases h1 : optN min = optN max
    · simp only [h1, beq_self_eq_true, if_true] at hok
      have := len_nec (seq_nec hok).1
      exact ⟨of (by rw [h1]; exact this), of this⟩
    · simp only [beq_iff_eq, h1, if_false] at hok
      cases hm : max with
      | none =>
        simp only [hm, Option.isSome_none, Bool.false_eq_true, if_false] at hok
        exact ⟨of (len_nec (seq_nec hok).1), by simp [IntLimit]⟩
      | some b =>
        simp only [hm, Option.isSome_some, if_true] at hok
        exact ⟨of (len_nec (seq_nec hok).1), of (len_nec (seq_nec (seq_nec hok).2).1)⟩

end
end PGV.Props
