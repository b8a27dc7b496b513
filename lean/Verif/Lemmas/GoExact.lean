import Verif.Lemmas.StaticUses
import Verif.Props.GoCompile

/-!
Fields whose generated Go code compiles, exactly.
-/

set_option linter.unusedSimpArgs false

namespace PGV.Props
open PGV PGV.Go PGV.Spec

/-! ### What the checks leave -/

theorem ite_some_inj {α : Type} {p : Prop} [Decidable p] {a b : α} (h : (if p then some a else none) = some b) :
    a = b := by
  split at h
  · exact Option.some.inj h
  · cases h

theorem ite_or {α : Type} {p : Prop} [Decidable p] {a b x : α} (h : (if p then a else b) = x) : a = x ∨ b = x := by
  split at h
  · exact .inl h
  · exact .inr h

theorem out_bounds {c : Bytes → Bool} {T : Checker.Ty} {t t' : TypeRules}
    (h : Checker.checkTypeRules c T t = some t') : BoundsChecked t' := by
  cases t with
  | num k r =>
    simp only [Checker.checkTypeRules] at h
    split at h <;> simp only [Option.some.injEq, reduceCtorEq] at h
    rename_i hc
    subst h
    simp only [Bool.and_eq_true, Checker.checkNum, checkNums_iff] at hc
    exact ⟨hc.2.2.2.2.1, hc.2.2.2.2.2.1⟩
  | string r =>
    simp only [Checker.checkTypeRules] at h
    split at h <;> simp only [Option.map_eq_some_iff, reduceCtorEq] at h
    obtain ⟨x, hx, rfl⟩ := h
    unfold Checker.checkString at hx
    split at hx
    · rename_i hc
      simp only [Bool.and_eq_true] at hc
      obtain ⟨⟨⟨⟨h1, h2⟩, -⟩, -⟩, -⟩ := hc
      split at hx
      · cases hx
      · rename_i r' hw
        have hx : r' = x := by
          exact ite_some_inj hx
        subst hx
        have hsame : r'.len = r.len ∧ r'.minLen = r.minLen ∧ r'.maxLen = r.maxLen ∧ r'.lenBytes = r.lenBytes ∧
            r'.minBytes = r.minBytes ∧ r'.maxBytes = r.maxBytes := by
          unfold Checker.checkWellKnownRegex at hw
          split at hw
          · cases hw; simp
          · split at hw
            · cases hw
            · rcases ite_or hw with hw | hw <;> (cases hw; simp)
        obtain ⟨e1, e2, e3, e4, e5, e6⟩ := hsame
        unfold Checker.checkLen at h1 h2
        simp only [BoundsChecked, e1, e2, e3, e4, e5, e6]
        constructor
        · intro hn
          cases hl : r.len with
          | none => exact absurd hl hn
          | some a => simpa [hl] using h1
        · intro hn
          cases hl : r.lenBytes with
          | none => exact absurd hl hn
          | some a => simpa [hl] using h2
    · cases hx
  | duration r =>
    have := (out_type h).1
    simp only [Checker.checkTypeRules] at h
    split at h <;> simp only [Option.some.injEq, reduceCtorEq] at h
    subst h; exact this
  | timestamp r =>
    have := (out_type h).1
    simp only [Checker.checkTypeRules] at h
    split at h <;> simp only [Option.some.injEq, reduceCtorEq] at h
    subst h; exact this
  | unset => simp only [Checker.checkTypeRules, Option.some.injEq] at h; subst h; trivial
  | bool r =>
    simp only [Checker.checkTypeRules] at h
    split at h <;> simp only [Option.some.injEq, reduceCtorEq] at h
    subst h; trivial
  | bytes r =>
    simp only [Checker.checkTypeRules] at h
    split at h <;> simp only [Option.some.injEq, reduceCtorEq] at h
    subst h; trivial
  | enum r =>
    simp only [Checker.checkTypeRules] at h
    split at h <;> simp only [Option.some.injEq, reduceCtorEq] at h
    subst h; trivial
  | any r =>
    simp only [Checker.checkTypeRules] at h
    split at h <;> simp only [Option.some.injEq, reduceCtorEq] at h
    subst h; trivial
  | repeated r i =>
    simp only [Checker.checkTypeRules] at h
    split at h
    · split at h
      · obtain ⟨x, -, rfl⟩ := Option.map_eq_some_iff.1 h; trivial
      · cases h
    · cases h
  | map r k v =>
    simp only [Checker.checkTypeRules] at h
    split at h
    · split at h
      · split at h
        · cases h
        · obtain ⟨x, -, rfl⟩ := Option.map_eq_some_iff.1 h; trivial
      · cases h
    · cases h

theorem bind_ty {ds : List Decl} {G : Scope} {x : Local} {r : Rhs} {body : Code} {t : Ty} (hr : r.ty G = some t)
    (h : (Code.bind x r body).ok ds G = true) : body.uses x = true ∧ body.ok ds (G.set x t) = true := by
  simpa [Code.ok, hr] using h

/-! ### Lists -/

theorem own_nothing : Looked [] → False := by
  rintro (h | h) <;> exact h rfl

theorem keyTy_regex {p : Option Bytes} {q : Option Bytes} : ¬ Looked (regexIf p ++ regexIf q) := by
  rintro (h | h) <;> (cases p <;> cases q <;> exact h rfl)

theorem rep_nec {f : FieldDesc} {e : ElemT} {r : RepeatedRules} {items : FieldRules} (htyp : f.typ = .rep e)
    (hr : f.rules.type = .repeated r items) (hs : Suits (.one e) items.type) (hn : NumberRanges items.type)
    (hb : BoundsChecked items.type) (hd : (fieldDecls f).all Decl.ok = true)
    (hok : (repCode ⟨.get (.rep e), none⟩ e r items).ok (fieldDecls f) Scope.empty = true) :
    IntLimit r.minItems ∧ IntLimit r.maxItems ∧ GoConstants (.one e) items.type ∧
      (HasList items.type ∨ HasPattern items.type → IsString items.type ∨ IsEnum items.type) := by
  obtain ⟨-, h1⟩ := seq_nec (a := codeIf _ _) hok
  obtain ⟨h2, h3⟩ := seq_nec h1
  obtain ⟨-, h4⟩ := seq_nec h3
  obtain ⟨c1, c2⟩ := count_nec h2
  refine ⟨c1, c2, ?_⟩
  by_cases hu : items.type = .unset
  · rw [hu]; exact ⟨trivial, fun h => by simp [HasList, HasPattern] at h⟩
  have hem : elemTypNotNone e items = true := by
    unfold elemTypNotNone resolve
    cases ht : items.type with
    | unset => exact absurd ht hu
    | num k n => cases k <;> cases e.isEmbed <;> rfl
    | bool n => cases e.isEmbed <;> rfl
    | string n => cases e.isEmbed <;> rfl
    | bytes n => cases e.isEmbed <;> rfl
    | _ => rfl
  have h5 := codeIf_nec h4 (by simp [hem])
  obtain ⟨-, h5⟩ := bind_ty (t := .int) rfl h5
  obtain ⟨-, h5⟩ := bind_ty (t := elemTy e) rfl h5
  have h6 := (seq_nec (seq_nec (seq_nec h5).2).2).2
  have ctx : CtxOk ((Scope.empty.set .idx .int).set .item (elemTy e)) ⟨.loc .item, some .idx⟩ (elemTy e) :=
    ⟨by simp [Opnd.ty, Scope.set], by intro x hx; cases hx; simp [Scope.set]⟩
  obtain ⟨n1, n2, n3⟩ := elem_nec ctx hs hb h6
  cases ht : items.type with
  | string s =>
    rw [ht] at hs hn hb n1
    refine ⟨?_, fun _ => .inl trivial⟩
    obtain ⟨a1, a2, a3, a4, a5, a6⟩ := n1
    unfold fieldDecls at hd
    have hk : byteKey f.typ = Lit.str := by
      funext b; rw [htyp]; rcases hs with hs | ⟨n, hs⟩ <;> cases hs <;> rfl
    simp only [hr, ht, hk] at hd
    obtain ⟨d1, d2⟩ := append_all hd
    obtain ⟨-, d1⟩ := append_all d1
    exact ⟨a1, a2, a3, a4, a5, a6, nodup_nec (tableIf_nec d1).2.2 (fun a => by simp [Lit.same]),
      nodup_nec (tableIf_nec d2).2.2 (fun a => by simp [Lit.same])⟩
  | enum s =>
    rw [ht] at hs hn hb n1
    refine ⟨?_, fun _ => .inr trivial⟩
    unfold fieldDecls at hd
    simp only [hr, ht] at hd
    obtain ⟨d1, d2⟩ := append_all hd
    exact ⟨hn, nodup_nec (tableIf_nec d1).2.2 (fun a => by simp [Lit.same]),
      nodup_nec (tableIf_nec d2).2.2 (fun a => by simp [Lit.same])⟩
  | _ =>
    have hnil : fieldDecls f = [] := by unfold fieldDecls; simp only [hr, ht]
    rw [hnil] at n2 n3
    have nl : ¬ HasList items.type := fun h => own_nothing (n2 h)
    have np : ¬ HasPattern items.type := fun h => by cases n3 h
    rw [ht] at hs hn hb n1 nl np
    exact ⟨constants_noList ⟨e, rfl, hs⟩ hn hb nl n1, fun h => h.elim (fun h => absurd h nl) (fun h => absurd h np)⟩

/-! ### Maps -/

theorem map_nec {f : FieldDesc} {k v : ElemT} {r : MapRules} {keys values : FieldRules}
    (hr : f.rules.type = .map r keys values) (hk : k.isEmbed = false) (hf : elemFails v values = false)
    (ks : Suits (.one k) keys.type) (kn : NumberRanges keys.type) (kb : BoundsChecked keys.type)
    (vs : Suits (.one v) values.type) (vn : NumberRanges values.type) (vb : BoundsChecked values.type)
    (hok : (mapCode ⟨.get (.map k v), none⟩ k v r keys values).ok (fieldDecls f) Scope.empty = true) :
    IntLimit r.minPairs ∧ IntLimit r.maxPairs ∧ GoConstants (.one k) keys.type ∧ GoConstants (.one v) values.type ∧
      (¬ HasList keys.type ∧ ¬ HasList values.type ∧
        (HasPattern keys.type ∨ HasPattern values.type →
          (IsString keys.type ∧ HasPattern keys.type) ∨ (IsString values.type ∧ HasPattern values.type))) ∧
      (r.noSparse = some true ∨ Restricts keys.type ∨ IgnoresEmpty keys.type ∨ Restricts values.type ∨
        (values.type = .unset ∧ v.isEmbed = true ∧
          (msgSkip values.message = false ∨ msgRequired values.message = true)) ∨
        (keys.type = .unset ∧ values.type = .unset ∧ v.isEmbed = false)) := by
  obtain ⟨-, h1⟩ := seq_nec (a := codeIf _ _) hok
  obtain ⟨h2, h3⟩ := seq_nec h1
  obtain ⟨c1, c2⟩ := count_nec h2
  refine ⟨c1, c2, ?_⟩
  have notNone : ∀ (e : ElemT) (q : FieldRules), q.type ≠ .unset ∨ e.isEmbed = true → elemTypNotNone e q = true := by
    intro e q h
    unfold elemTypNotNone resolve
    cases ht : q.type with
    | unset => simp [ht] at h; simp [h]
    | num k n => cases k <;> cases e.isEmbed <;> rfl
    | bool n => cases e.isEmbed <;> rfl
    | string n => cases e.isEmbed <;> rfl
    | bytes n => cases e.isEmbed <;> rfl
    | _ => rfl
  by_cases hb : (optB r.noSparse || elemTypNotNone v values || elemTypNotNone k keys) = true
  · have h4 := codeIf_nec h3 hb
    obtain ⟨huse, h4⟩ := bind_ty (t := elemTy k) rfl h4
    obtain ⟨-, h4⟩ := bind_ty (t := elemTy v) rfl h4
    obtain ⟨hkey, hval⟩ := seq_nec (seq_nec (seq_nec h4).2).2
    have kctx : keys.type ≠ .unset → CtxOk ((Scope.empty.set .key (elemTy k)).set .val (elemTy v))
        ⟨.loc .key, some .key⟩ (valTy keys.type) := by
      intro hu
      exact ⟨by simp [Opnd.ty, Scope.set, ← valTy_plain ks hk hu], by intro x hx; cases hx; simp [Scope.set]⟩
    have vctx : CtxOk ((Scope.empty.set .key (elemTy k)).set .val (elemTy v)) ⟨.loc .val, some .key⟩ (elemTy v) :=
      ⟨by simp [Opnd.ty, Scope.set], by intro x hx; cases hx; simp [Scope.set]⟩
    have kk : CodeConstants keys.type ∧ (HasList keys.type → Looked (fieldDecls f)) ∧
        (HasPattern keys.type → hasPattern (fieldDecls f) = true) := by
      by_cases hu : keys.type = .unset
      · rw [hu]; exact ⟨trivial, fun h => h.elim, fun h => h.elim⟩
      · exact plain_nec (kctx hu) kb hkey
    have vv := elem_nec vctx vs vb hval
    have hdecl : ¬ Looked (fieldDecls f) := by
      unfold fieldDecls
      simp only [hr]
      cases keys.type <;> cases values.type <;> simp only <;> first
        | exact keyTy_regex
        | exact keyTy_regex (q := none)
        | exact keyTy_regex (p := none)
        | exact keyTy_regex (p := none) (q := none)
    have kl : ¬ HasList keys.type := fun h => hdecl (kk.2.1 h)
    have vl : ¬ HasList values.type := fun h => hdecl (vv.2.1 h)
    have hpat : hasPattern (fieldDecls f) = true →
        (IsString keys.type ∧ HasPattern keys.type) ∨ (IsString values.type ∧ HasPattern values.type) := by
      intro h
      unfold fieldDecls hasPattern at h
      simp only [hr, List.any_append, Bool.or_eq_true] at h
      rcases h with h | h
      · left
        cases ht : keys.type with
        | string s =>
          refine ⟨trivial, ?_⟩
          intro hp
          simp [ht, hp, regexIf] at h
        | _ => simp [ht] at h
      · right
        cases ht : values.type with
        | string s =>
          refine ⟨trivial, ?_⟩
          intro hp
          simp [ht, hp, regexIf] at h
        | _ => simp [ht] at h
    refine ⟨constants_noList ⟨k, rfl, ks⟩ kn kb kl kk.1, constants_noList ⟨v, rfl, vs⟩ vn vb vl vv.1,
      ⟨kl, vl, fun h => hpat (h.elim kk.2.2 vv.2.2)⟩, ?_⟩
    simp only [Code.uses, Rhs.uses, Opnd.uses, Bool.false_or, Bool.or_eq_true, Bool.and_eq_true] at huse
    rcases huse.2 with h | h | h | h
    · simp at h
    · cases hs : optB r.noSparse with
      | true =>
        left
        cases hq : r.noSparse with
        | none => simp [hq, optB] at hs
        | some b => simp [hq, optB] at hs; rw [hs]
      | false => simp [codeIf, hs, Code.uses] at h
    · refine .inr ?_
      by_cases h1 : Restricts keys.type
      · exact .inl h1
      by_cases h2 : IgnoresEmpty keys.type
      · exact .inr (.inl h2)
      exfalso
      have := plain_silent (c := ⟨.loc .key, some .key⟩) (x := .key) h1 (fun h => absurd h h2) (by
        rintro ⟨a, ha⟩
        rw [ha] at ks
        obtain ⟨n, hn⟩ := ks
        cases hn; cases hk)
      rw [show keyCode keys = plainCode ⟨.loc .key, some .key⟩ keys.type from rfl, this] at h
      cases h
    · by_cases h1 : Restricts values.type
      · exact .inr (.inr (.inr (.inl h1)))
      have silent := plain_silent (c := ⟨.loc .val, some .key⟩) (x := .key) h1 (fun _ => rfl) (fun _ => rfl)
      revert hf h
      unfold elemCode elemFails resolve
      cases hvt : values.type with
      | unset =>
        intro _ h
        cases he : v.isEmbed with
        | false => simp [he, Code.uses] at h
        | true =>
          refine .inr (.inr (.inr (.inr (.inl ⟨rfl, rfl, ?_⟩))))
          simp only [he, if_true, messageCode, requiredCode] at h
          cases hm : msgSkip values.message with
          | false => exact .inl rfl
          | true =>
            cases hq : msgRequired values.message with
            | true => exact .inr rfl
            | false => simp [hm, hq, codeIf, Code.uses] at h
      | num n m =>
        rw [hvt] at silent
        intro hf h
        exfalso
        cases n <;> cases he : v.isEmbed <;> simp [he, silent] at hf h
      | bool m => rw [hvt] at silent; intro hf h; exfalso; cases he : v.isEmbed <;> simp [he, silent] at hf h
      | string m => rw [hvt] at silent; intro hf h; exfalso; cases he : v.isEmbed <;> simp [he, silent] at hf h
      | bytes m => rw [hvt] at silent; intro hf h; exfalso; cases he : v.isEmbed <;> simp [he, silent] at hf h
      | _ => rw [hvt] at silent; intro _ h; simp [silent] at h
  · simp only [Bool.or_eq_true, not_or] at hb
    have hku : keys.type = .unset := Classical.byContradiction fun h => hb.2 (notNone k keys (.inl h))
    have hvu : values.type = .unset := Classical.byContradiction fun h => hb.1.2 (notNone v values (.inl h))
    have hve : v.isEmbed = false := by
      cases he : v.isEmbed with
      | false => rfl
      | true => exact absurd (notNone v values (.inr he)) hb.1.2
    rw [hku, hvu]
    refine ⟨trivial, trivial, ⟨fun h => h, fun h => h, fun h => h.elim (fun h => h.elim) (fun h => h.elim)⟩, ?_⟩
    exact .inr (.inr (.inr (.inr (.inr ⟨rfl, rfl, hve⟩))))

end PGV.Props
