import Verif.Lemmas.StaticField

/-!
The tables of a field are well formed and have the types the code needs.
-/

set_option linter.unusedSimpArgs false

namespace PGV.Props
open PGV PGV.Go PGV.Spec

theorem isEmpty_map {α β : Type} (l : List α) (g : α → β) : (l.map g).isEmpty = l.isEmpty := by
  cases l <;> rfl

/-- Two tables and a pattern, in the order of a field's own rules. -/
theorem tabs_own {T : Ty} {a b : List Lit} {p : Option Bytes} {i n q : Bool} (hi : i = !a.isEmpty)
    (hn : n = !b.isEmpty) (hq : q = p.isSome) :
    TabsOk (tableIf .inLookup T a ++ tableIf .notInLookup T b ++ regexIf p) T i n q := by
  subst hi hn hq
  constructor <;> (cases a <;> cases b <;> cases p <;> simp [tableIf, regexIf, keyTy, hasPattern, Decl.var])

/-- The same, in the order of a list's items. -/
theorem tabs_items {T : Ty} {a b : List Lit} {p : Option Bytes} {i n q : Bool} (hi : i = !a.isEmpty)
    (hn : n = !b.isEmpty) (hq : q = p.isSome) :
    TabsOk (regexIf p ++ tableIf .inLookup T a ++ tableIf .notInLookup T b) T i n q := by
  subst hi hn hq
  constructor <;> (cases a <;> cases b <;> cases p <;> simp [tableIf, regexIf, keyTy, hasPattern, Decl.var])

theorem tabs_none {ds : List Decl} {T : Ty} : TabsOk ds T false false false :=
  ⟨by simp, by simp, by simp⟩

/-- Tables of a field's own rules have the keys the code looks up. -/
theorem ownDecls_tabs {e : ElemT} {t : TypeRules} (hs : Suits (.one e) t) (hg : GoConstants (.one e) t) :
    TabsOk (ownDecls (.one e) t) (tabTy t) (tables t).1 (tables t).2.1 (tables t).2.2 := by
  cases t with
  | num k r =>
    have hT : inTy (.one e) (NumKind.goTy k) = NumKind.goTy k := by
      rcases hs with hs | ⟨n, w, hs, -⟩ <;> cases hs <;> rfl
    have := tabs_own (T := NumKind.goTy k) (a := r.ins.map .num) (b := r.notIns.map .num) (p := none) rfl rfl rfl
    simpa [ownDecls, hT, tabTy, tables, regexIf, isEmpty_map] using this
  | string r =>
    have hT : inTy (.one e) .string = .string := by
      rcases hs with hs | ⟨n, hs⟩ <;> cases hs <;> rfl
    have := tabs_own (T := .string) (a := r.ins.map (byteKey (.one e))) (b := r.notIns.map (byteKey (.one e)))
      (p := r.pattern) rfl rfl rfl
    simpa [ownDecls, hT, tabTy, tables, isEmpty_map] using this
  | bytes r =>
    have hT : r.ins ≠ [] ∨ r.notIns ≠ [] → inTy (.one e) .bytes = .string := by
      intro h; cases hg.2.2.2.2.1 h; rfl
    have := tabs_own (T := inTy (.one e) .bytes) (a := r.ins.map (byteKey (.one e)))
      (b := r.notIns.map (byteKey (.one e))) (p := r.pattern) rfl rfl rfl
    simp only [isEmpty_map] at this
    constructor
    · intro h; rw [show tabTy (.bytes r) = .string from rfl, ← hT (.inl (by simpa [tables] using h))]
      exact this.ins h
    · intro h; rw [show tabTy (.bytes r) = .string from rfl, ← hT (.inr (by simpa [tables] using h))]
      exact this.notIns h
    · exact this.pat
  | enum r =>
    have hT : inTy (.one e) .enum = .enum := by
      obtain ⟨vs, hs⟩ := hs; cases hs; rfl
    have := tabs_own (T := .enum) (a := r.ins.map .int) (b := r.notIns.map .int) (p := none) rfl rfl rfl
    simpa [ownDecls, hT, tabTy, tables, regexIf, isEmpty_map] using this
  | any r =>
    have hT : inTy (.one e) .string = .string := by
      obtain ⟨vs, hs⟩ := hs; cases hs; rfl
    have := tabs_own (T := .string) (a := r.ins.map .str) (b := r.notIns.map .str) (p := none) rfl rfl rfl
    simpa [ownDecls, hT, tabTy, tables, regexIf, isEmpty_map] using this
  | duration r =>
    have hT : inTy (.one e) .duration = .duration := by
      obtain ⟨vs, hs⟩ := hs; cases hs; rfl
    have := tabs_own (T := .duration) (a := r.ins.map fun d => .nanos d.asDuration)
      (b := r.notIns.map fun d => .nanos d.asDuration) (p := none) rfl rfl rfl
    simpa [ownDecls, hT, tabTy, tables, regexIf, isEmpty_map] using this
  | _ => exact tabs_none

/-! ### Well-formed tables -/

theorem distinct_of {l : List Lit} (h : l.Pairwise fun a b => b.same a = false) : distinct l = true := by
  induction l with
  | nil => rfl
  | cons a l ih =>
    rw [List.pairwise_cons] at h
    simp only [distinct, ih h.2, Bool.and_true, Bool.not_eq_true', List.any_eq_false]
    intro b hb; rw [h.1 b hb]; simp

theorem tableIf_ok {v : Var} {T : Ty} {α : Type} {l : List α} {g : α → Lit} (hT : l ≠ [] → T.comparable = true)
    (hf : ∀ a ∈ l, (g a).fits T = true) (hd : l.Pairwise fun a b => (g b).same (g a) = false) :
    (tableIf v T (l.map g)).all Decl.ok = true := by
  unfold tableIf
  split
  · rfl
  · rename_i hl
    simp only [List.all_cons, List.all_nil, Bool.and_true, Decl.ok, Bool.and_eq_true, List.all_eq_true]
    refine ⟨⟨hT (by intro h; simp [h] at hl), ?_⟩, distinct_of ?_⟩
    · intro x hx
      obtain ⟨a, ha, rfl⟩ := List.mem_map.1 hx
      exact hf a ha
    · rw [List.pairwise_map]; exact hd

theorem regexIf_ok (p : Option Bytes) : (regexIf p).all Decl.ok = true := by
  cases p <;> rfl

theorem pairwise_nodup {α : Type} {l : List α} {g : α → Lit} (h : l.Nodup)
    (hg : ∀ a b, a ≠ b → (g b).same (g a) = false) : l.Pairwise fun a b => (g b).same (g a) = false :=
  h.imp fun hab => hg _ _ hab

theorem comparable_num (k : NumKind) : (NumKind.goTy k).comparable = true := by cases k <;> rfl

theorem sameNum_symm {a b : Num} (h : SameNum a b) : SameNum b a := by
  obtain ⟨x, h1, h2⟩ := h; exact ⟨x, h2, h1⟩

theorem num_pairwise {l : List Num} (h : NoRepeats SameNum l) :
    l.Pairwise fun a b => (Lit.num b).same (.num a) = false := by
  refine h.imp fun hab => ?_
  simp only [Lit.same]
  cases he : Num.eq _ _ with
  | false => rfl
  | true => exact absurd (sameNum_symm ((sameNum_iff _ _).2 he)) hab

theorem str_ne {a b : Bytes} (h : a ≠ b) : (Lit.str b).same (.str a) = false := by
  simp [Lit.same, Ne.symm h]

theorem esc_ne {a b : Bytes} (h : a ≠ b) : (Lit.esc b).same (.esc a) = false := by
  simp [Lit.same, Ne.symm h]

theorem int_ne {a b : Int} (h : a ≠ b) : (Lit.int b).same (.int a) = false := by
  simp [Lit.same, Ne.symm h]

theorem asDuration_held {d : PDur} (hv : ValidDuration d) : d.asDuration = heldLength d := by
  rw [asDuration_eq hv, show d.exact = length d from rfl]
  unfold heldLength minInt64 maxInt64
  split
  · omega
  · split <;> omega

theorem nanos_pairwise {l : List PDur} (hv : ∀ x ∈ l, ValidDuration x)
    (h : NoRepeats (fun a b => heldLength a = heldLength b) l) :
    l.Pairwise fun a b => (Lit.nanos b.asDuration).same (.nanos a.asDuration) = false := by
  refine List.Pairwise.imp_of_mem ?_ h
  intro a b ha hb hab
  rw [asDuration_held (hv a ha), asDuration_held (hv b hb)]
  simp only [Lit.same, beq_eq_false_iff_ne, ne_eq, Lit.nanos.injEq]
  exact fun h => hab h.symm

theorem nanos_fits {d : PDur} (hv : ValidDuration d) : (Lit.nanos d.asDuration).fits .duration = true := by
  rw [asDuration_held hv]
  unfold heldLength
  simp only [Lit.fits, intFits, decide_eq_true_eq]
  omega

theorem all_append {α : Type} {p : α → Bool} {a b : List α} (ha : a.all p = true) (hb : b.all p = true) :
    (a ++ b).all p = true := by simp [List.all_append, ha, hb]

theorem ownDecls_ok {e : ElemT} {t : TypeRules} (hs : Suits (.one e) t) (hg : GoConstants (.one e) t) :
    (ownDecls (.one e) t).all Decl.ok = true := by
  cases t with
  | num k r =>
    have hT : inTy (.one e) (NumKind.goTy k) = NumKind.goTy k := by
      rcases hs with hs | ⟨n, w, hs, -⟩ <;> cases hs <;> rfl
    obtain ⟨h1, h2, h3⟩ := hg
    simp only [ownDecls, hT]
    refine all_append (tableIf_ok (fun _ => comparable_num k) ?_ (num_pairwise h2))
      (tableIf_ok (fun _ => comparable_num k) ?_ (num_pairwise h3))
    · intro a ha
      have := h1 a (by simp [NumberIn, ha])
      exact num_fits this.1 this.2
    · intro a ha
      have := h1 a (by simp [NumberIn, ha])
      exact num_fits this.1 this.2
  | string r =>
    have hT : inTy (.one e) .string = .string := by
      rcases hs with hs | ⟨n, hs⟩ <;> cases hs <;> rfl
    have hk : byteKey (.one e) = Lit.str := by
      funext b; rcases hs with hs | ⟨n, hs⟩ <;> cases hs <;> rfl
    obtain ⟨-, -, -, -, -, -, h2, h3⟩ := hg
    simp only [ownDecls, hT, hk]
    exact all_append (all_append (tableIf_ok (fun _ => rfl) (fun _ _ => rfl) (pairwise_nodup h2 fun _ _ => str_ne))
      (tableIf_ok (fun _ => rfl) (fun _ _ => rfl) (pairwise_nodup h3 fun _ _ => str_ne))) (regexIf_ok _)
  | bytes r =>
    obtain ⟨-, -, h2, h3, h4, h5⟩ := hg
    simp only [ownDecls]
    by_cases hl : r.ins ≠ [] ∨ r.notIns ≠ []
    · cases h4 hl
      have hk : byteKey (.one .bytes) = Lit.esc := rfl
      have fit : ∀ b, b ∈ r.ins ∨ b ∈ r.notIns → (Lit.esc b).fits .string = true := by
        intro b hb
        simp only [Lit.fits, List.all_eq_true, decide_eq_true_eq]
        intro x hx
        exact UInt8.le_iff_toNat_le.1 (h5 b hb x hx)
      simp only [hk, show inTy (.one .bytes) .bytes = .string from rfl]
      exact all_append (all_append
        (tableIf_ok (fun _ => rfl) (fun a ha => fit a (.inl ha)) (pairwise_nodup h2 fun _ _ => esc_ne))
        (tableIf_ok (fun _ => rfl) (fun a ha => fit a (.inr ha)) (pairwise_nodup h3 fun _ _ => esc_ne))) (regexIf_ok _)
    · simp only [ne_eq, not_or, Classical.not_not] at hl
      simp only [hl.1, hl.2, List.map_nil, tableIf, List.isEmpty_nil, if_true, List.nil_append, regexIf_ok]
  | enum r =>
    obtain ⟨vs, hs⟩ := hs
    cases hs
    obtain ⟨h1, h2, h3⟩ := hg
    have fit : ∀ i, (r.const = some i ∨ i ∈ r.ins ∨ i ∈ r.notIns) → (Lit.int i).fits .enum = true := by
      intro i hi
      simp only [Lit.fits, intFits, decide_eq_true_eq]
      exact h1 i hi
    exact all_append
      (tableIf_ok (fun _ => rfl) (fun a ha => fit a (.inr (.inl ha))) (pairwise_nodup h2 fun _ _ => int_ne))
      (tableIf_ok (fun _ => rfl) (fun a ha => fit a (.inr (.inr ha))) (pairwise_nodup h3 fun _ _ => int_ne))
  | any r =>
    obtain ⟨vs, hs⟩ := hs
    cases hs
    exact all_append (tableIf_ok (fun _ => rfl) (fun _ _ => rfl) (pairwise_nodup hg.1 fun _ _ => str_ne))
      (tableIf_ok (fun _ => rfl) (fun _ _ => rfl) (pairwise_nodup hg.2 fun _ _ => str_ne))
  | duration r =>
    obtain ⟨vs, hs⟩ := hs
    cases hs
    obtain ⟨-, h1, h2, h3⟩ := hg
    exact all_append
      (tableIf_ok (fun _ => rfl) (fun a ha => nanos_fits (h1 a (.inl ha)))
        (nanos_pairwise (fun x hx => h1 x (.inl hx)) h2))
      (tableIf_ok (fun _ => rfl) (fun a ha => nanos_fits (h1 a (.inr ha)))
        (nanos_pairwise (fun x hx => h1 x (.inr hx)) h3))
  | _ => rfl

theorem tables_false {t : TypeRules} (hl : ¬ HasList t) (hp : ¬ HasPattern t) : tables t = (false, false, false) := by
  have h := tables_spec t
  have h1 : (tables t).1 = false := by
    cases hb : (tables t).1 with
    | false => rfl
    | true => exact absurd (h.1.1 (.inl hb)) hl
  have h2 : (tables t).2.1 = false := by
    cases hb : (tables t).2.1 with
    | false => rfl
    | true => exact absurd (h.1.1 (.inr hb)) hl
  have h3 : (tables t).2.2 = false := by
    cases hb : (tables t).2.2 with
    | false => rfl
    | true => exact absurd (h.2.1 hb) hp
  exact Prod.ext h1 (Prod.ext h2 h3)

/-- Tables of a list's item rules. -/
theorem repDecls {f : FieldDesc} {e : ElemT} {r : RepeatedRules} {items : FieldRules} (htyp : f.typ = .rep e)
    (hr : f.rules.type = .repeated r items) (hsup : TablesDeclared f) (hs : Suits (.one e) items.type)
    (hg : GoConstants (.one e) items.type) :
    TabsOk (fieldDecls f) (tabTy items.type) (tables items.type).1 (tables items.type).2.1 (tables items.type).2.2 := by
  unfold TablesDeclared at hsup
  rw [hr] at hsup
  simp only at hsup
  by_cases hu : HasList items.type ∨ HasPattern items.type
  · have hk := hsup hu
    cases ht : items.type with
    | string s =>
      have := tabs_items (T := .string) (a := s.ins.map (byteKey f.typ)) (b := s.notIns.map (byteKey f.typ))
        (p := s.pattern) rfl rfl rfl
      simpa [fieldDecls, hr, ht, tabTy, tables, isEmpty_map] using this
    | enum s =>
      rw [ht] at hs
      obtain ⟨vs, hs⟩ := hs
      cases hs
      have := tabs_own (T := .enum) (a := s.ins.map .int) (b := s.notIns.map .int) (p := none) rfl rfl rfl
      simpa [fieldDecls, hr, ht, htyp, inTy, tabTy, tables, regexIf, isEmpty_map] using this
    | _ => rw [ht] at hk; simp [IsString, IsEnum] at hk
  · simp only [not_or] at hu
    rw [tables_false hu.1 hu.2]
    exact tabs_none

theorem repDecls_ok {f : FieldDesc} {e : ElemT} {r : RepeatedRules} {items : FieldRules} (htyp : f.typ = .rep e)
    (hr : f.rules.type = .repeated r items) (hs : Suits (.one e) items.type) (hg : GoConstants (.one e) items.type) :
    (fieldDecls f).all Decl.ok = true := by
  unfold fieldDecls
  rw [hr]
  simp only
  cases ht : items.type with
  | string s =>
    rw [ht] at hs hg
    have hk : byteKey f.typ = Lit.str := by
      funext b; rw [htyp]; rcases hs with hs | ⟨n, hs⟩ <;> cases hs <;> rfl
    obtain ⟨-, -, -, -, -, -, h2, h3⟩ := hg
    simp only [hk]
    exact all_append (all_append (regexIf_ok _)
      (tableIf_ok (fun _ => rfl) (fun _ _ => rfl) (pairwise_nodup h2 fun _ _ => str_ne)))
      (tableIf_ok (fun _ => rfl) (fun _ _ => rfl) (pairwise_nodup h3 fun _ _ => str_ne))
  | enum s =>
    rw [ht] at hs hg
    obtain ⟨vs, hs⟩ := hs
    cases hs
    have := ownDecls_ok (e := .enum vs) (t := .enum s) ⟨vs, rfl⟩ hg
    simpa [ownDecls, inTy, htyp, elemTy] using this
  | _ => rfl

theorem mapDecls_ok {f : FieldDesc} {r : MapRules} {keys values : FieldRules}
    (hr : f.rules.type = .map r keys values) : (fieldDecls f).all Decl.ok = true := by
  unfold fieldDecls
  rw [hr]
  refine all_append ?_ ?_
  · cases keys.type <;> first | rfl | exact regexIf_ok _
  · cases values.type <;> first | rfl | exact regexIf_ok _

theorem mapDecls {f : FieldDesc} {r : MapRules} {keys values : FieldRules}
    (hr : f.rules.type = .map r keys values) (hsup : TablesDeclared f) :
    TabsOk (fieldDecls f) (tabTy keys.type) (tables keys.type).1 (tables keys.type).2.1 (tables keys.type).2.2 ∧
    TabsOk (fieldDecls f) (tabTy values.type) (tables values.type).1 (tables values.type).2.1
      (tables values.type).2.2 := by
  unfold TablesDeclared at hsup
  rw [hr] at hsup
  simp only at hsup
  obtain ⟨h1, h2, h3⟩ := hsup
  have noL : ∀ t : TypeRules, ¬ HasList t → (tables t).1 = false ∧ (tables t).2.1 = false := by
    intro t h
    constructor
    · cases hb : (tables t).1 with
      | false => rfl
      | true => exact absurd ((tables_spec t).1.1 (.inl hb)) h
    · cases hb : (tables t).2.1 with
      | false => rfl
      | true => exact absurd ((tables_spec t).1.1 (.inr hb)) h
  have str : ∀ t : TypeRules, (t = keys.type ∨ t = values.type) → IsString t → HasPattern t →
      hasPattern (fieldDecls f) = true := by
    intro t ht hst hp
    cases hs : t with
    | string s =>
      rw [hs] at hp
      have hsp : s.pattern.isSome = true := Option.isSome_iff_ne_none.2 hp
      have hre : regexIf s.pattern = [.regex] := by simp [regexIf, hsp]
      unfold fieldDecls hasPattern
      rw [hr]
      simp only [List.any_append, Bool.or_eq_true]
      rcases ht with ht | ht
      · left; rw [← ht, hs]; simp [hre, Decl.var]
      · right; rw [← ht, hs]; simp [hre, Decl.var]
    | _ => rw [hs] at hst; simp [IsString] at hst
  have pat : HasPattern keys.type ∨ HasPattern values.type → hasPattern (fieldDecls f) = true := by
    intro h
    rcases h3 h with h | h
    · exact str _ (.inl rfl) h.1 h.2
    · exact str _ (.inr rfl) h.1 h.2
  have a := noL _ h1
  have b := noL _ h2
  exact ⟨⟨by simp [a.1], by simp [a.2], fun h => pat (.inl ((tables_spec _).2.1 h))⟩,
    ⟨by simp [b.1], by simp [b.2], fun h => pat (.inr ((tables_spec _).2.1 h))⟩⟩

theorem declared_of_supported {f : FieldDesc} (h : TablesSupported f) : TablesDeclared f := by
  unfold TablesSupported at h
  unfold TablesDeclared
  split <;> rename_i hr <;> simp only [hr] at h
  · exact h
  · obtain ⟨h1, h2, h3, h4⟩ := h
    refine ⟨h1, h2, ?_⟩
    rintro (h | h)
    · exact .inl ⟨(h3 h).1, h⟩
    · exact .inr ⟨h4 h, h⟩
  · trivial

/-- The declared variables are those of the emission model. -/
theorem fieldDecls_var (f : FieldDesc) : (fieldDecls f).map Decl.var = decls f := by
  have tab : ∀ (v : Var) (T : Ty) {α : Type} (l : List α) (g : α → Lit),
      (tableIf v T (l.map g)).map Decl.var = declIf (!l.isEmpty) v := by
    intro v T α l g; cases l <;> rfl
  have reg : ∀ p : Option Bytes, (regexIf p).map Decl.var = declIf p.isSome .pattern := by
    intro p; cases p <;> rfl
  have own : ∀ t, (ownDecls f.typ t).map Decl.var =
      declIf (tables t).1 .inLookup ++ declIf (tables t).2.1 .notInLookup ++ declIf (tables t).2.2 .pattern := by
    intro t
    cases t <;> simp only [ownDecls, tables, tab, reg, List.map_append, List.map_nil] <;>
      simp [declIf]
  unfold fieldDecls decls
  cases ht : f.rules.type with
  | repeated r items =>
    simp only
    cases hi : items.type <;> simp only [tab, reg, List.map_append, List.map_nil]
  | map r keys values =>
    simp only
    cases hk : keys.type <;> cases hv : values.type <;> simp only [tab, reg, List.map_append, List.map_nil]
  | _ => exact own _

end PGV.Props
