import Verif.Lemmas.Static
import Verif.Lemmas.Position
import Verif.Props.Emit

/-!
Well-formedness of the generated Go code of a field, with its tables.
-/

set_option linter.unusedSimpArgs false

namespace PGV.Props
open PGV PGV.Go PGV.Spec

/-- The Go type of the values that rules of this kind are for. -/
def valTy : TypeRules → Ty
  | .num k _ => NumKind.goTy k
  | .bool _ => .bool
  | .string _ => .string
  | .bytes _ => .bytes
  | .enum _ => .enum
  | .any _ => .ptr (some .any)
  | .duration _ => .ptr (some .duration)
  | .timestamp _ => .ptr (some .timestamp)
  | _ => .bool

/-- The key type of the tables for rules of this kind. -/
def tabTy : TypeRules → Ty
  | .num k _ => NumKind.goTy k
  | .enum _ => .enum
  | .duration _ => .duration
  | _ => .string

/-- Duration and timestamp rules have passed their checks. -/
def TimesChecked : TypeRules → Prop
  | .duration r => Checker.checkDuration r = true
  | .timestamp r => Checker.checkTimestamp r = true
  | _ => True

theorem plainCode_ok {ds : List Decl} {G : Scope} {c : SCtx} {t : FieldT} {r : TypeRules}
    (h : CtxOk G c (valTy r)) (hg : GoConstants t r) (hc : TimesChecked r)
    (ht : TabsOk ds (tabTy r) (tables r).1 (tables r).2.1 (tables r).2.2) : (plainCode c r).ok ds G = true := by
  cases r with
  | unset => rfl
  | num k r => exact numCode_ok h hg.1 ht
  | bool r => exact boolCode_ok h r
  | string r => exact strCode_ok h hg ht
  | bytes r => exact bytesCode_ok h hg ht
  | enum r => exact enumCode_ok h hg ht
  | repeated r i => rfl
  | map r k v => rfl
  | any r => exact anyCode_ok h ht
  | duration r => exact durationCode_ok h hc hg ht
  | timestamp r => exact timestampCode_ok h hc hg

/-- Rules for a scalar are for a value of its type. -/
theorem valTy_plain {e : ElemT} {r : TypeRules} (hs : Suits (.one e) r) (he : e.isEmbed = false) (hr : r ≠ .unset) :
    elemTy e = valTy r := by
  cases r <;> simp [Suits] at hs hr <;> cases e <;> simp [ElemT.isEmbed] at he hs <;>
    simp_all [elemTy, valTy]

theorem elemCode_ok {ds : List Decl} {G : Scope} {c : SCtx} {e : ElemT} {r : FieldRules}
    (h : CtxOk G c (elemTy e)) (hs : Suits (.one e) r.type) (hg : GoConstants (.one e) r.type)
    (hc : TimesChecked r.type)
    (ht : TabsOk ds (tabTy r.type) (tables r.type).1 (tables r.type).2.1 (tables r.type).2.2) :
    (elemCode c e r).ok ds G = true := by
  have wrap : ∀ (n : String) (w : WKT) (p : ProtoType), e = .embed n (some w) → w.wrapped = some p →
      protoTy p = some (valTy r.type) → (wrapperCode c r.type r.message).ok ds G = true := by
    intro n w p he hw hp
    subst he
    refine bind_ok (t := .ptr (some w)) h.acc ?_ (seq_ok ?_ (seq_ok (plainCode_ok ⟨?_, ?_⟩ hg hc ht)
      (codeIf_ok fun _ => err_ok_set h _ _)))
    · simp [Code.uses, Opnd.uses]
    · simp [Code.ok, Opnd.ty, set_same]
    · simp [Opnd.ty, set_same, hw, hp]
    · intro x hx; exact set_isSome (h.idx x hx)
  unfold elemCode resolve
  cases hr : r.type with
  | unset =>
    cases e with
    | embed n w =>
      simp only [ElemT.isEmbed, if_true]
      refine seq_ok (requiredCode_ok h _) (codeIf_ok fun _ => seq_ok ?_ (err_ok h))
      simp [Code.ok, h.acc]
    | _ => rfl
  | num k n =>
    rw [hr] at hs hg hc ht wrap
    rcases hs with hs | ⟨m, w, hs, hw⟩
    · cases hs
      have : (plainCode c (.num k n)).ok ds G = true := plainCode_ok h hg hc ht
      cases k <;> simpa [ElemT.isEmbed] using this
    · cases hs
      have := wrap m w _ rfl hw rfl
      cases k <;> first
        | (cases w <;> simp [WKT.wrapped] at hw; done)
        | simpa [ElemT.isEmbed] using this
  | bool b =>
    rw [hr] at hs hg hc ht wrap
    rcases hs with hs | ⟨m, hs⟩
    · cases hs; exact plainCode_ok (r := .bool b) h hg hc ht
    · cases hs; exact wrap m _ _ rfl rfl rfl
  | string b =>
    rw [hr] at hs hg hc ht wrap
    rcases hs with hs | ⟨m, hs⟩
    · cases hs; exact plainCode_ok (r := .string b) h hg hc ht
    · cases hs; exact wrap m _ _ rfl rfl rfl
  | bytes b =>
    rw [hr] at hs hg hc ht wrap
    rcases hs with hs | ⟨m, hs⟩
    · cases hs; exact plainCode_ok (r := .bytes b) h hg hc ht
    · cases hs; exact wrap m _ _ rfl rfl rfl
  | enum b =>
    rw [hr] at hs hg hc ht
    obtain ⟨vs, hs⟩ := hs
    cases hs; exact plainCode_ok (r := .enum b) h hg hc ht
  | repeated a b => rw [hr] at hs; obtain ⟨_, hs⟩ := hs; cases hs
  | map a b d => rw [hr] at hs; obtain ⟨_, _, hs⟩ := hs; cases hs
  | any b =>
    rw [hr] at hs hg hc ht
    obtain ⟨vs, hs⟩ := hs
    cases hs; exact plainCode_ok (r := .any b) h hg hc ht
  | duration b =>
    rw [hr] at hs hg hc ht
    obtain ⟨vs, hs⟩ := hs
    cases hs; exact plainCode_ok (r := .duration b) h hg hc ht
  | timestamp b =>
    rw [hr] at hs hg hc ht
    obtain ⟨vs, hs⟩ := hs
    cases hs; exact plainCode_ok (r := .timestamp b) h hg hc ht

/-! ### The loops -/

theorem len_ok {ds : List Decl} {G : Scope} {o : Opnd} {T : Ty} (h : o.ty G = some T)
    (hT : (∃ e, T = .list e) ∨ ∃ k v, T = .map k v) {n : Nat} (hn : n < 2 ^ 63) : (Code.len o n).ok ds G = true := by
  rcases hT with ⟨e, rfl⟩ | ⟨k, v, rfl⟩ <;>
    (simp only [Code.ok, h, Bool.true_and, Lit.fits, decide_eq_true_eq]; exact hn)

theorem countCode_ok {ds : List Decl} {G : Scope} {c : SCtx} {T : Ty} (h : CtxOk G c T)
    (hT : (∃ e, T = .list e) ∨ ∃ k v, T = .map k v) {min max : Option Nat} (h1 : IntLimit min) (h2 : IntLimit max) :
    (countCode c min max).ok ds G = true := by
  have e := err_ok (ds := ds) h
  have a1 := len_ok (ds := ds) h.acc hT (optN_lt h1)
  have a2 := len_ok (ds := ds) h.acc hT (optN_lt h2)
  unfold countCode
  repeat' split
  all_goals first
    | rfl
    | exact seq_ok a1 e
    | exact seq_ok a2 e
    | exact seq_ok a1 (seq_ok a2 e)

theorem get_ok (G : Scope) (t : FieldT) : CtxOk G ⟨.get t, none⟩ (fieldTy t) := ⟨rfl, by simp⟩

theorem repCode_ok {ds : List Decl} {e : ElemT} {r : RepeatedRules} {items : FieldRules}
    (h1 : IntLimit r.minItems) (h2 : IntLimit r.maxItems)
    (hu : ¬ (optB r.unique = true ∧ e.isEmbed = true)) (hs : Suits (.one e) items.type)
    (hg : GoConstants (.one e) items.type) (hc : TimesChecked items.type)
    (ht : TabsOk ds (tabTy items.type) (tables items.type).1 (tables items.type).2.1 (tables items.type).2.2) :
    (repCode ⟨.get (.rep e), none⟩ e r items).ok ds Scope.empty = true := by
  have h := get_ok Scope.empty (.rep e)
  have l0 := len_ok (ds := ds) (n := 0) h.acc (.inl ⟨e, rfl⟩) (by decide)
  unfold repCode
  refine seq_ok (codeIf_ok fun _ => l0) (seq_ok (countCode_ok h (.inl ⟨e, rfl⟩) h1 h2)
    (seq_ok (codeIf_ok fun hq => seq_ok ?_ l0) (codeIf_ok fun _ => ?_)))
  · cases e <;> simp_all [Code.ok, elemTy, Ty.comparable, ElemT.isEmbed]
    case scalar k => cases k <;> rfl
  refine bind_ok (t := .int) rfl ?_ (bind_ok (t := elemTy e) rfl ?_
    (seq_ok ?_ (seq_ok ?_ (seq_ok (codeIf_ok fun _ => ?_) (elemCode_ok ⟨?_, ?_⟩ hs hg hc ht)))))
  · simp [Code.uses]
  · simp [Code.uses]
  · simp [Code.ok, Scope.set]
  · simp [Code.ok, Scope.set]
  · simp [Code.ok, Scope.set]
  · simp [Opnd.ty, Scope.set]
  · intro x hx; cases hx; simp [Scope.set]

/-! ### Which code mentions the index -/

theorem err_uses {c : SCtx} {x : Local} (h : c.index = some x) : c.err.uses x = true := by
  simp [SCtx.err, Code.uses, h]

theorem codeIf_uses {b : Bool} {k : Code} {x : Local} (hb : b = true) (h : k.uses x = true) :
    (codeIf b k).uses x = true := by simp [codeIf, hb, h]

theorem uses_left {a b : Code} {x : Local} (h : a.uses x = true) : (a ;; b).uses x = true := by
  simp [Code.uses, h]

theorem uses_right {a b : Code} {x : Local} (h : b.uses x = true) : (a ;; b).uses x = true := by
  simp [Code.uses, h]

theorem inCode_err {c : SCtx} {i n : Bool} {look : Var → Code} {x : Local} (h : c.index = some x)
    (hb : i = true ∨ n = true) : (inCode c i n look).uses x = true := by
  unfold inCode
  cases i
  · cases n
    · simp at hb
    · exact uses_right (err_uses h)
  · exact uses_right (err_uses h)

theorem ltgt_uses {c : SCtx} {r : NumRules} {x : Local} (h : c.index = some x)
    (hr : r.lt ≠ none ∨ r.lte ≠ none ∨ r.gt ≠ none ∨ r.gte ≠ none) : (ltgtCode c r).uses x = true := by
  have he := err_uses h
  unfold ltgtCode
  cases h1 : r.lt <;> cases h2 : r.lte <;> cases h3 : r.gt <;> cases h4 : r.gte <;> simp [h1, h2, h3, h4] at hr <;>
    simp [Code.uses, he]

theorem lenCode_uses {c : SCtx} {len min max : Option Nat} {cmp : Nat → Code} {x : Local} (h : c.index = some x)
    (hr : len ≠ none ∨ min ≠ none ∨ max ≠ none) : (lenCode c len min max cmp).uses x = true := by
  have he := err_uses h
  unfold lenCode
  cases h1 : len <;> cases h2 : min <;> cases h3 : max <;> simp [h1, h2, h3] at hr <;>
    simp only [Option.isSome_none, Option.isSome_some, Bool.true_or, Bool.false_or, Bool.true_and, Bool.false_and,
      Bool.and_true, Bool.and_false, if_true, if_false, Bool.false_eq_true] <;>
    repeat' split
  all_goals simp [Code.uses, he]

theorem notEmpty {α : Type} {l : List α} (h : l ≠ []) : (!l.isEmpty) = true := by simpa using h

theorem plain_uses {c : SCtx} {t : TypeRules} {x : Local} (h : c.index = some x)
    (hx : x ≠ .a ∧ x ≠ .d ∧ x ≠ .dur ∧ x ≠ .t ∧ x ≠ .ts) (hr : Restricts t) :
    (plainCode c t).uses x = true := by
  have he := err_uses h
  cases t with
  | unset => exact hr.elim
  | num k r =>
    simp only [plainCode, numCode]
    rcases hr with hr | hr | hr | hr | hr | hr | hr
    · refine uses_right (uses_left ?_)
      cases hc : r.const with
      | none => exact absurd hc hr
      | some a => exact uses_right he
    · exact uses_right (uses_right (uses_left (ltgt_uses h (.inl hr))))
    · exact uses_right (uses_right (uses_left (ltgt_uses h (.inr (.inl hr)))))
    · exact uses_right (uses_right (uses_left (ltgt_uses h (.inr (.inr (.inl hr))))))
    · exact uses_right (uses_right (uses_left (ltgt_uses h (.inr (.inr (.inr hr))))))
    · exact uses_right (uses_right (uses_right (inCode_err h (.inl (notEmpty hr)))))
    · exact uses_right (uses_right (uses_right (inCode_err h (.inr (notEmpty hr)))))
  | bool r =>
    simp only [plainCode, boolCode]
    cases hc : r.const with
    | none => exact absurd hc hr
    | some a => exact uses_right he
  | string r =>
    have some_of : ∀ {α : Type} {o : Option α}, o ≠ none → o.isSome = true := by
      intro α o ho; cases o with
      | none => exact absurd rfl ho
      | some _ => rfl
    simp only [plainCode, strCode, strAffixCode, strKnownCode]
    rcases hr with hr | hr | hr | hr | hr | hr | hr | hr | hr | hr | hr | hr | hr | hr | hr
    · refine uses_right (uses_left ?_)
      cases hc : r.const with
      | none => exact absurd hc hr
      | some a => exact uses_right he
    · exact uses_right (uses_right (uses_right (uses_left (lenCode_uses h (.inl hr)))))
    · exact uses_right (uses_right (uses_right (uses_left (lenCode_uses h (.inr (.inl hr))))))
    · exact uses_right (uses_right (uses_right (uses_left (lenCode_uses h (.inr (.inr hr))))))
    · exact uses_right (uses_right (uses_right (uses_right (uses_left (lenCode_uses h (.inl hr))))))
    · exact uses_right (uses_right (uses_right (uses_right (uses_left (lenCode_uses h (.inr (.inl hr)))))))
    · exact uses_right (uses_right (uses_right (uses_right (uses_left (lenCode_uses h (.inr (.inr hr)))))))
    · exact uses_right (uses_right (uses_right (uses_right (uses_right (uses_right (uses_right
        (codeIf_uses (some_of hr) (uses_right he))))))))
    · exact uses_right (uses_right (uses_right (uses_right (uses_right (uses_left (uses_left
        (codeIf_uses (some_of hr) (uses_right he))))))))
    · exact uses_right (uses_right (uses_right (uses_right (uses_right (uses_left (uses_right (uses_left
        (codeIf_uses (some_of hr) (uses_right he)))))))))
    · exact uses_right (uses_right (uses_right (uses_right (uses_right (uses_left (uses_right (uses_right (uses_left
        (codeIf_uses (some_of hr) (uses_right he))))))))))
    · exact uses_right (uses_right (uses_right (uses_right (uses_right (uses_left (uses_right (uses_right (uses_right
        (codeIf_uses (some_of hr) (uses_right he))))))))))
    · exact uses_right (uses_right (uses_left (inCode_err h (.inl (notEmpty hr)))))
    · exact uses_right (uses_right (uses_left (inCode_err h (.inr (notEmpty hr)))))
    · refine uses_right (uses_right (uses_right (uses_right (uses_right (uses_right (uses_left
        (codeIf_uses ?_ (uses_right he))))))))
      simp only [List.mem_cons, List.not_mem_nil, or_false] at hr
      rcases hr with hr | hr | hr | hr | hr | hr | hr | hr | hr <;>
        simp [StringRules.getIp, StringRules.getIpv4, StringRules.getIpv6, StringRules.getEmail,
          StringRules.getHostname, StringRules.getAddress, StringRules.getUri, StringRules.getUriRef,
          StringRules.getUuid, hr]
  | bytes r =>
    have some_of : ∀ {α : Type} {o : Option α}, o ≠ none → o.isSome = true := by
      intro α o ho; cases o with
      | none => exact absurd rfl ho
      | some _ => rfl
    simp only [plainCode, bytesCode]
    rcases hr with ⟨b, hb, hr⟩ | hr | hr | hr | hr | hr | hr | hr
    · have ne : ∀ o : Option Bytes, o = some b → (!(optS o).isEmpty) = true := by
        intro o ho; subst ho; simpa [optS] using hb
      rcases hr with hr | hr | hr | hr
      · exact uses_right (uses_right (uses_right (uses_right (uses_right (uses_right (uses_left
          (codeIf_uses (ne _ hr) (uses_right he))))))))
      · exact uses_right (uses_right (uses_left (codeIf_uses (ne _ hr) (uses_right he))))
      · exact uses_right (uses_right (uses_right (uses_left (codeIf_uses (ne _ hr) (uses_right he)))))
      · exact uses_right (uses_right (uses_right (uses_right (uses_left (codeIf_uses (ne _ hr) (uses_right he))))))
    · exact uses_right (uses_left (lenCode_uses h (.inl hr)))
    · exact uses_right (uses_left (lenCode_uses h (.inr (.inl hr))))
    · exact uses_right (uses_left (lenCode_uses h (.inr (.inr hr))))
    · exact uses_right (uses_right (uses_right (uses_right (uses_right (uses_right (uses_right (uses_right
        (codeIf_uses (some_of hr) (uses_right he)))))))))
    · exact uses_right (uses_right (uses_right (uses_right (uses_right (uses_left
        (inCode_err h (.inl (notEmpty hr))))))))
    · exact uses_right (uses_right (uses_right (uses_right (uses_right (uses_left
        (inCode_err h (.inr (notEmpty hr))))))))
    · refine uses_right (uses_right (uses_right (uses_right (uses_right (uses_right (uses_right (uses_left
        (codeIf_uses ?_ (uses_right he)))))))))
      simp only [List.mem_cons, List.not_mem_nil, or_false] at hr
      rcases hr with hr | hr | hr <;> simp [BytesRules.getIp, BytesRules.getIpv4, BytesRules.getIpv6, hr]
  | enum r =>
    simp only [plainCode, enumCode]
    rcases hr with hr | hr | hr | hr
    · refine uses_left ?_
      cases hc : r.const with
      | none => exact absurd hc hr
      | some a => exact uses_right he
    · exact uses_right (uses_left (inCode_err h (.inl (notEmpty hr))))
    · exact uses_right (uses_left (inCode_err h (.inr (notEmpty hr))))
    · exact uses_right (uses_right (codeIf_uses (by simp [hr, optB]) (uses_right he)))
  | repeated r i => exact hr.elim
  | map r k v => exact hr.elim
  | any r =>
    simp only [plainCode, anyCode]
    rcases hr with hr | hr | hr
    · exact uses_left (codeIf_uses (by simp [hr, optB]) (uses_right he))
    · refine uses_right ?_
      simp only [Code.uses]
      simp [Ne.symm hx.1, inCode_err h (.inl (notEmpty hr))]
    · refine uses_right ?_
      simp only [Code.uses]
      simp [Ne.symm hx.1, inCode_err h (.inr (notEmpty hr))]
  | duration r =>
    simp only [plainCode, durationCode]
    rcases hr with hr | hr
    · exact uses_left (codeIf_uses (by simp [hr, optB]) (uses_right he))
    · refine uses_right (codeIf_uses ?_ ?_)
      · cases h1 : r.const <;> cases h2 : r.lt <;> cases h3 : r.lte <;> cases h4 : r.gt <;> cases h5 : r.gte <;>
          simp [h1, h2, h3, h4, h5] at hr <;> simp [hr]
      · simp [Code.uses, he, Ne.symm hx.2.1, Ne.symm hx.2.2.1]
  | timestamp r =>
    simp only [plainCode, timestampCode]
    rcases hr with hr | hr
    · exact uses_left (codeIf_uses (by simp [hr, optB]) (uses_right he))
    · refine uses_right (codeIf_uses ?_ ?_)
      · rcases hr with hr | hr | hr | hr | hr | hr | hr | hr <;>
          simp [Option.isSome_iff_ne_none.2 hr]
      · simp [Code.uses, he, Ne.symm hx.2.2.2.1, Ne.symm hx.2.2.2.2]

theorem plain_ignore {c : SCtx} {t : TypeRules} {x : Local} (h : c.acc = .loc x) (hr : IgnoresEmpty t) :
    (plainCode c t).uses x = true := by
  cases t <;> simp only [IgnoresEmpty] at hr <;>
    simp [plainCode, numCode, strCode, bytesCode, Code.uses, codeIf, hr, optB, h, Opnd.uses]

theorem mapCode_ok {ds : List Decl} {k v : ElemT} {r : MapRules} {keys values : FieldRules}
    (h1 : IntLimit r.minPairs) (h2 : IntLimit r.maxPairs) (hk : k.isEmbed = false)
    (hf : elemFails v values = false)
    (hsp : optB r.noSparse = true → v.isEmbed = true)
    (hm : r.noSparse = some true ∨ Restricts keys.type ∨ IgnoresEmpty keys.type ∨ Restricts values.type ∨
      (values.type = .unset ∧ v.isEmbed = true ∧
        (msgSkip values.message = false ∨ msgRequired values.message = true)) ∨
      (keys.type = .unset ∧ values.type = .unset ∧ v.isEmbed = false))
    (ks : Suits (.one k) keys.type) (kg : GoConstants (.one k) keys.type) (kc : TimesChecked keys.type)
    (kt : TabsOk ds (tabTy keys.type) (tables keys.type).1 (tables keys.type).2.1 (tables keys.type).2.2)
    (hs : Suits (.one v) values.type) (hg : GoConstants (.one v) values.type) (hc : TimesChecked values.type)
    (ht : TabsOk ds (tabTy values.type) (tables values.type).1 (tables values.type).2.1 (tables values.type).2.2) :
    (mapCode ⟨.get (.map k v), none⟩ k v r keys values).ok ds Scope.empty = true := by
  have h := get_ok Scope.empty (.map k v)
  have l0 := len_ok (ds := ds) (n := 0) h.acc (.inr ⟨k, v, rfl⟩) (by decide)
  unfold mapCode
  refine seq_ok (codeIf_ok fun _ => l0) (seq_ok (countCode_ok h (.inr ⟨k, v, rfl⟩) h1 h2) (codeIf_ok fun hb => ?_))
  refine bind_ok (t := elemTy k) rfl ?_ (bind_ok (t := elemTy v) rfl ?_
    (seq_ok ?_ (seq_ok (codeIf_ok fun hq => seq_ok ?_ ?_) (seq_ok ?_ (elemCode_ok ⟨?_, ?_⟩ hs hg hc ht)))))
  · suffices hu : (codeIf (optB r.noSparse) (Code.isNil (.loc .val) ;; .report (some .key)) ;;
        keyCode keys ;; elemCode ⟨.loc .val, some .key⟩ v values).uses .key = true by
      have hu' := uses_right (a := Code.blank .val) hu
      rw [Code.uses, hu']; simp
    have valRestr : Restricts values.type → (elemCode ⟨.loc .val, some .key⟩ v values).uses .key = true := by
      intro hr
      have := plain_uses (c := ⟨.loc .val, some .key⟩) (x := .key) rfl (by decide) hr
      revert hf
      unfold elemCode elemFails resolve
      cases hvt : values.type with
      | unset => rw [hvt] at hr; exact hr.elim
      | num n m =>
        rw [hvt] at this
        cases n <;> cases v.isEmbed <;> simp [this]
      | bool m => rw [hvt] at this; cases v.isEmbed <;> simp [this]
      | string m => rw [hvt] at this; cases v.isEmbed <;> simp [this]
      | bytes m => rw [hvt] at this; cases v.isEmbed <;> simp [this]
      | _ => rw [hvt] at this; exact fun _ => this
    rcases hm with hm | hm | hm | hm | ⟨hm1, hm2, hm3⟩ | ⟨hm1, hm2, hm3⟩
    · exact uses_left (codeIf_uses (by simp [hm, optB]) (uses_right (by simp [Code.uses])))
    · exact uses_right (uses_left (plain_uses rfl (by decide) hm))
    · exact uses_right (uses_left (plain_ignore rfl hm))
    · exact uses_right (uses_right (valRestr hm))
    · refine uses_right (uses_right ?_)
      simp only [elemCode, resolve, hm1, hm2, if_true, messageCode]
      rcases hm3 with hm3 | hm3
      · exact uses_right (codeIf_uses (by simp [hm3]) (uses_right (err_uses rfl)))
      · exact uses_left (codeIf_uses hm3 (uses_right (err_uses rfl)))
    · simp only [elemTypNotNone, resolve, hm1, hm2, hm3, hk, Bool.false_eq_true, if_false, Bool.or_false] at hb
      exact uses_left (codeIf_uses hb (uses_right (by simp [Code.uses])))
  · simp [Code.uses]
  · simp [Code.ok, Scope.set]
  · have := hsp hq
    cases v <;> simp [ElemT.isEmbed] at this
    simp [Code.ok, Opnd.ty, Scope.set, elemTy]
  · simp [Code.ok, Scope.set]
  · by_cases hu : keys.type = .unset
    · simp [keyCode, hu, plainCode, Code.ok]
    · refine plainCode_ok ⟨?_, ?_⟩ kg kc kt
      · simp [Opnd.ty, Scope.set, ← valTy_plain ks hk hu]
      · intro x hx; cases hx; simp [Scope.set]
  · simp [Opnd.ty, Scope.set]
  · intro x hx; cases hx; simp [Scope.set]

end PGV.Props
