import Verif.Lemmas.StaticNec

/-!
Which Go code mentions the key of a map, and which tables are declared: the converses.
-/

set_option linter.unusedSimpArgs false

namespace PGV.Props
open PGV PGV.Go PGV.Spec

/-! ### Tables -/

theorem distinct_nec {l : List Lit} (h : distinct l = true) : l.Pairwise fun a b => b.same a = false := by
  induction l with
  | nil => exact .nil
  | cons a l ih =>
    simp only [distinct, Bool.and_eq_true, Bool.not_eq_true', List.any_eq_false] at h
    refine List.pairwise_cons.2 ⟨fun b hb => ?_, ih h.2⟩
    have := h.1 b hb
    cases hs : Lit.same b a with
    | false => rfl
    | true => exact absurd hs this

theorem tableIf_nec {v : Var} {T : Ty} {α : Type} {l : List α} {g : α → Lit}
    (h : (tableIf v T (l.map g)).all Decl.ok = true) :
    (l ≠ [] → T.comparable = true) ∧ (∀ a ∈ l, (g a).fits T = true) ∧
      l.Pairwise fun a b => (g b).same (g a) = false := by
  cases l with
  | nil => exact ⟨fun h => absurd rfl h, by simp, .nil⟩
  | cons a l =>
    simp only [tableIf, List.map_cons, List.isEmpty_cons, Bool.false_eq_true, if_false, List.all_cons, List.all_nil,
      Bool.and_true, Decl.ok, Bool.and_eq_true] at h
    obtain ⟨⟨h1, h2⟩, h3⟩ := h
    refine ⟨fun _ => h1, ?_, ?_⟩
    · intro x hx
      rcases List.mem_cons.1 hx with rfl | hx
      · exact h2.1
      · exact List.all_eq_true.1 h2.2 _ (List.mem_map.2 ⟨x, hx, rfl⟩)
    · have := distinct_nec h3
      rwa [← List.map_cons, List.pairwise_map] at this

theorem nodup_nec {α : Type} {l : List α} {g : α → Lit} (h : l.Pairwise fun a b => (g b).same (g a) = false)
    (hg : ∀ a, (g a).same (g a) = true) : l.Nodup :=
  h.imp fun hab he => by rw [he, hg] at hab; cases hab

theorem num_nec {l : List Num} (h : l.Pairwise fun a b => (Lit.num b).same (.num a) = false) :
    NoRepeats SameNum l := by
  refine h.imp fun hab hs => ?_
  rw [show (Lit.num _).same (.num _) = Num.eq _ _ from rfl, (sameNum_iff _ _).1 (sameNum_symm hs)] at hab
  cases hab

theorem nanos_nec {l : List PDur} (hv : ∀ x ∈ l, ValidDuration x)
    (h : l.Pairwise fun a b => (Lit.nanos b.asDuration).same (.nanos a.asDuration) = false) :
    NoRepeats (fun a b => heldLength a = heldLength b) l := by
  refine List.Pairwise.imp_of_mem ?_ h
  intro a b ha hb hab he
  rw [asDuration_held (hv a ha), asDuration_held (hv b hb), he] at hab
  simp [Lit.same] at hab

theorem append_all {α : Type} {p : α → Bool} {a b : List α} (h : (a ++ b).all p = true) :
    a.all p = true ∧ b.all p = true := by simpa [List.all_append] using h

theorem durLists {r : DurationRules} (hc : Checker.checkDuration r = true) :
    ∀ x, x ∈ r.ins ∨ x ∈ r.notIns → ValidDuration x := by
  unfold Checker.checkDuration at hc
  simp only [Bool.and_eq_true, List.all_eq_true] at hc
  rintro x (hx | hx)
  · exact (valid_iff x).1 (hc.1.2 x hx)
  · exact (valid_iff x).1 (hc.2 x hx)

/-- The lists of the rules can be written in Go. -/
theorem ownDecls_nec {e : ElemT} {t : TypeRules} (hs : Suits (.one e) t) (hr : NumberRanges t) (hc : BoundsChecked t)
    (hcode : CodeConstants t) (h : (ownDecls (.one e) t).all Decl.ok = true) : GoConstants (.one e) t := by
  cases t with
  | num k r =>
    have hT : inTy (.one e) (NumKind.goTy k) = NumKind.goTy k := by
      rcases hs with hs | ⟨n, w, hs, -⟩ <;> cases hs <;> rfl
    simp only [ownDecls, hT] at h
    obtain ⟨h1, h2⟩ := append_all h
    obtain ⟨-, f1, d1⟩ := tableIf_nec h1
    obtain ⟨-, f2, d2⟩ := tableIf_nec h2
    refine ⟨fun x hx => ⟨hr x hx, ?_⟩, num_nec d1, num_nec d2⟩
    rcases hx with hx | hx | hx | hx | hx | hx | hx
    · exact hcode x (.inl hx)
    · exact hcode x (.inr (.inl hx))
    · exact hcode x (.inr (.inr (.inl hx)))
    · exact hcode x (.inr (.inr (.inr (.inl hx))))
    · exact hcode x (.inr (.inr (.inr (.inr hx))))
    · exact num_finite (f1 x hx)
    · exact num_finite (f2 x hx)
  | string r =>
    have hk : byteKey (.one e) = Lit.str := by
      funext b; rcases hs with hs | ⟨n, hs⟩ <;> cases hs <;> rfl
    simp only [ownDecls, hk] at h
    obtain ⟨h1, h2⟩ := append_all (append_all h).1
    obtain ⟨a1, a2, a3, a4, a5, a6⟩ := hcode
    exact ⟨a1, a2, a3, a4, a5, a6, nodup_nec (tableIf_nec h1).2.2 (fun a => by simp [Lit.same]),
      nodup_nec (tableIf_nec h2).2.2 (fun a => by simp [Lit.same])⟩
  | bytes r =>
    simp only [ownDecls] at h
    obtain ⟨h1, h2⟩ := append_all (append_all h).1
    obtain ⟨c1, f1, d1⟩ := tableIf_nec h1
    obtain ⟨c2, f2, d2⟩ := tableIf_nec h2
    have same : ∀ a, (byteKey (.one e) a).same (byteKey (.one e) a) = true := by
      intro a
      unfold byteKey
      split <;> simp [Lit.same]
    have he : r.ins ≠ [] ∨ r.notIns ≠ [] → FieldT.one e = .one .bytes := by
      intro hl
      have hcm : (inTy (.one e) .bytes).comparable = true := hl.elim c1 c2
      rcases hs with hs | ⟨n, hs⟩
      · exact hs
      · cases hs; cases hcm
    refine ⟨hcode.1, hcode.2, nodup_nec d1 same, nodup_nec d2 same, he, ?_⟩
    intro b hb x hx
    have hl : r.ins ≠ [] ∨ r.notIns ≠ [] := by
      rcases hb with hb | hb
      · exact .inl (List.ne_nil_of_mem hb)
      · exact .inr (List.ne_nil_of_mem hb)
    have he := he hl
    cases he
    have fit : (Lit.esc b).fits .string = true := by
      rcases hb with hb | hb
      · exact f1 b hb
      · exact f2 b hb
    simp only [Lit.fits, List.all_eq_true, decide_eq_true_eq] at fit
    exact UInt8.le_iff_toNat_le.2 (fit x hx)
  | enum r =>
    simp only [ownDecls] at h
    obtain ⟨h1, h2⟩ := append_all h
    exact ⟨hr, nodup_nec (tableIf_nec h1).2.2 (fun a => by simp [Lit.same]),
      nodup_nec (tableIf_nec h2).2.2 (fun a => by simp [Lit.same])⟩
  | any r =>
    simp only [ownDecls] at h
    obtain ⟨h1, h2⟩ := append_all h
    exact ⟨nodup_nec (tableIf_nec h1).2.2 (fun a => by simp [Lit.same]),
      nodup_nec (tableIf_nec h2).2.2 (fun a => by simp [Lit.same])⟩
  | duration r =>
    simp only [ownDecls] at h
    obtain ⟨h1, h2⟩ := append_all h
    have hv := durLists hc
    exact ⟨hcode, hv, nanos_nec (fun x hx => hv x (.inl hx)) (tableIf_nec h1).2.2,
      nanos_nec (fun x hx => hv x (.inr hx)) (tableIf_nec h2).2.2⟩
  | timestamp r => exact hcode
  | unset => trivial
  | bool r => trivial
  | repeated r i => obtain ⟨_, hs⟩ := hs; cases hs
  | map r k v => obtain ⟨_, _, hs⟩ := hs; cases hs

/-- Rules without lists have no lists to write. -/
theorem constants_noList {t : FieldT} {r : TypeRules} (hs : ∃ e, t = .one e ∧ Suits t r) (hr : NumberRanges r)
    (hc : BoundsChecked r) (hl : ¬ HasList r) (hcode : CodeConstants r) : GoConstants t r := by
  obtain ⟨e, rfl, hs⟩ := hs
  refine ownDecls_nec hs hr hc hcode ?_
  cases r with
  | repeated r i => obtain ⟨_, hs⟩ := hs; cases hs
  | map r k v => obtain ⟨_, _, hs⟩ := hs; cases hs
  | unset => rfl
  | bool r => rfl
  | timestamp r => rfl
  | _ =>
    simp only [HasList, ne_eq, not_or, Classical.not_not] at hl
    simp only [ownDecls, hl.1, hl.2, List.map_nil, tableIf, List.isEmpty_nil, if_true, List.nil_append]
    first | rfl | exact regexIf_ok _

/-! ### Keys of maps -/

theorem inCode_silent {c : SCtx} {look : Var → Code} : inCode c false false look = .skip := rfl

/-- Rules that restrict and ignore nothing do not mention the key. -/
theorem plain_silent {c : SCtx} {t : TypeRules} {x : Local} (hr : ¬ Restricts t)
    (hi : IgnoresEmpty t → c.acc.uses x = false) (ha : (∃ r, t = .any r) → c.acc.uses x = false) :
    (plainCode c t).uses x = false := by
  cases t with
  | unset => rfl
  | num k r =>
    simp only [Restricts, ne_eq, not_or, Classical.not_not] at hr
    obtain ⟨h1, h2, h3, h4, h5, h6, h7⟩ := hr
    simp only [plainCode, numCode, ltgtCode, h1, h2, h3, h4, h5, h6, h7, cmpOpt, inCode, List.isEmpty_nil, Code.uses,
      Bool.or_false, Bool.not_true, Bool.false_eq_true, if_false]
    cases hg : r.ignoreEmpty with
    | none => rfl
    | some b =>
      cases b with
      | false => rfl
      | true => exact hi hg
  | bool r =>
    simp only [Restricts, ne_eq, Classical.not_not] at hr
    simp [plainCode, boolCode, hr, cmpOpt, Code.uses]
  | string r =>
    simp only [Restricts, ne_eq, not_or, Classical.not_not] at hr
    obtain ⟨h1, h2, h3, h4, h5, h6, h7, h8, h9, h10, h11, h12, h13, h14, h15⟩ := hr
    have hk : (r.getIp || r.getIpv4 || r.getIpv6 || r.getEmail || r.getHostname || r.getAddress || r.getUri ||
        r.getUriRef || r.getUuid) = false := by
      simp only [List.mem_cons, List.not_mem_nil, or_false, not_or] at h15
      obtain ⟨a1, a2, a3, a4, a5, a6, a7, a8, a9⟩ := h15
      simp only [StringRules.getIp, StringRules.getIpv4, StringRules.getIpv6, StringRules.getEmail,
          StringRules.getHostname, StringRules.getAddress, StringRules.getUri, StringRules.getUriRef,
          StringRules.getUuid]
      cases hw : r.wellKnown with
      | none => rfl
      | some w =>
        rw [hw] at a1 a2 a3 a4 a5 a6 a7 a8 a9
        cases w <;> first | rfl | (rename_i b; cases b <;> first | rfl | exact absurd rfl ‹_›)
    simp only [plainCode, strCode, strAffixCode, strKnownCode, lenCode, h1, h2, h3, h4, h5, h6, h7, h8, h9, h10, h11,
      h12, h13, h14, hk, cmpOpt, inCode, List.isEmpty_nil, codeIf, Option.isSome_none, Code.uses, Bool.or_false,
      Bool.false_and, Bool.not_true, Bool.false_eq_true, if_false]
    cases hg : r.ignoreEmpty with
    | none => rfl
    | some b =>
      cases b with
      | false => rfl
      | true => exact hi hg
  | bytes r =>
    simp only [Restricts, ne_eq, not_or, Classical.not_not] at hr
    obtain ⟨h0, h2, h3, h4, h5, h6, h7, h8⟩ := hr
    have emp : ∀ o : Option Bytes, (∀ b, b ≠ [] → o ≠ some b) → (!(optS o).isEmpty) = false := by
      intro o ho
      cases o with
      | none => rfl
      | some b =>
        cases b with
        | nil => rfl
        | cons a l => exact absurd rfl (ho (a :: l) (by simp))
    have e1 := emp r.const fun b hb h => h0 ⟨b, hb, .inl h⟩
    have e2 := emp r.pfx fun b hb h => h0 ⟨b, hb, .inr (.inl h)⟩
    have e3 := emp r.sfx fun b hb h => h0 ⟨b, hb, .inr (.inr (.inl h))⟩
    have e4 := emp r.contains fun b hb h => h0 ⟨b, hb, .inr (.inr (.inr h))⟩
    have hk : (r.getIp || r.getIpv4 || r.getIpv6) = false := by
      simp only [List.mem_cons, List.not_mem_nil, or_false, not_or] at h8
      obtain ⟨a1, a2, a3⟩ := h8
      simp only [BytesRules.getIp, BytesRules.getIpv4, BytesRules.getIpv6]
      cases hw : r.wellKnown with
      | none => rfl
      | some w =>
        rw [hw] at a1 a2 a3
        cases w <;> first | rfl | (rename_i b; cases b <;> first | rfl | exact absurd rfl ‹_›)
    simp only [plainCode, bytesCode, lenCode, h2, h3, h4, h5, h6, h7, hk, e1, e2, e3, e4, inCode,
      List.isEmpty_nil, codeIf, Option.isSome_none, Code.uses, Bool.or_false, Bool.false_and, Bool.not_true,
      Bool.false_eq_true, if_false]
    cases hg : r.ignoreEmpty with
    | none => rfl
    | some b =>
      cases b with
      | false => rfl
      | true => exact hi hg
  | enum r =>
    simp only [Restricts, ne_eq, not_or, Classical.not_not] at hr
    obtain ⟨h1, h2, h3, h4⟩ := hr
    have : optB r.definedOnly = false := by
      cases hd : r.definedOnly with
      | none => rfl
      | some b => cases b with
        | false => rfl
        | true => exact absurd hd h4
    simp [plainCode, enumCode, h1, h2, h3, this, cmpOpt, inCode, codeIf, Code.uses]
  | repeated r i => rfl
  | map r k v => rfl
  | any r =>
    simp only [Restricts, ne_eq, not_or, Classical.not_not] at hr
    obtain ⟨h1, h2, h3⟩ := hr
    have : optB r.required = false := by
      cases hd : r.required with
      | none => rfl
      | some b => cases b with
        | false => rfl
        | true => exact absurd hd h1
    simp [plainCode, anyCode, requiredCode, h2, h3, this, inCode, codeIf, Code.uses, Rhs.uses, ha ⟨r, rfl⟩]
    simp [Opnd.uses]
  | duration r =>
    simp only [Restricts, ne_eq, not_or, Classical.not_not] at hr
    obtain ⟨h1, h2, h3, h4, h5, h6, h7, h8⟩ := hr
    have : optB r.required = false := by
      cases hd : r.required with
      | none => rfl
      | some b => cases b with
        | false => rfl
        | true => exact absurd hd h1
    simp [plainCode, durationCode, requiredCode, h2, h3, h4, h5, h6, h7, h8, this, codeIf, Code.uses]
  | timestamp r =>
    simp only [Restricts, ne_eq, not_or, Classical.not_not] at hr
    obtain ⟨h1, h2, h3, h4, h5, h6, h7, h8, h9⟩ := hr
    have : optB r.required = false := by
      cases hd : r.required with
      | none => rfl
      | some b => cases b with
        | false => rfl
        | true => exact absurd hd h1
    simp [plainCode, timestampCode, requiredCode, h2, h3, h4, h5, h6, h7, h8, h9, this, codeIf, Code.uses]

end PGV.Props
