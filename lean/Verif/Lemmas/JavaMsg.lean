import Verif.Lemmas.JavaTpl
import Verif.Lemmas.Single

/-!
Generated Java code for elements, lists, maps, fields and messages.
-/

set_option linter.unusedSimpArgs false
set_option autoImplicit false

namespace PGV.Java
open PGV PGV.Spec PGV.Checker
open PGV.Go (Env resolve elemTypNotNone depth)

theorem boolTpl_ok (f : String) (r : BoolRules) (b : Bool) :
    boolTpl f r b = .ok () ↔ ∀ k, r.const = some k → b = k := by
  simp [boolTpl, constant]

theorem scalarTpl_ok {C : Common} {E : Env} {J : JEnv} (hL : TextLibs C E J)
    (f : String) (e : ElemT) (t : TypeRules) (s : Scalar) (hp : PortType C e t)
    (hf : FitsScalar t s) : scalarTpl J f e t s = .ok () ↔ ScalarOk E e t s := by
  cases t with
  | num k r =>
    cases s with
    | num n => exact numTpl_ok f k r n hp.1 hp.2 hf
    | _ => simp [scalarTpl, ScalarOk]
  | bool r =>
    cases s with
    | bool b => exact boolTpl_ok f r b
    | _ => simp [scalarTpl, ScalarOk]
  | string r =>
    cases s with
    | str s => exact stringTpl_ok hL f r s hf hp.1 hp.2.1 hp.2.2.1 hp.2.2.2
    | _ => simp [scalarTpl, ScalarOk]
  | bytes r =>
    cases s with
    | bytes s => exact bytesTpl_ok E J f r s hp.1 hp.2
    | _ => simp [scalarTpl, ScalarOk]
  | enum r =>
    cases s with
    | enum i =>
      cases e with
      | enum declared =>
        have hc : checkIns r.ins.length r.notIns.length = true := by
          have := hp.1
          simp only [checkEnum, Bool.and_eq_true] at this
          simp [this]
        exact enumTpl_ok f declared r i hc hp.2
      | _ => simp [scalarTpl, ScalarOk]
    | _ => simp [scalarTpl, ScalarOk]
  | _ => cases s <;> simp [scalarTpl, ScalarOk]

theorem isNull_iff (v : Val) : isNull v = true ↔ v = .null := by cases v <;> simp [isNull]

theorem messageTpl_ok {E : Env} {S : Schema} (rec : Val → Run) (ok : Val → Prop) (f : String)
    (m : Option MessageRules) (v : Val) (hm : PortMessage m)
    (hrec : v ≠ .null → (rec v = .ok () ↔ EmbeddedOk E S ok v)) :
    messageTpl rec f m v = .ok () ↔
      ((msgRequired m = true → v ≠ .null) ∧ (msgSkip m = false → EmbeddedOk E S ok v)) := by
  unfold messageTpl
  by_cases hn : v = .null
  · subst hn
    cases hs : msgSkip m with
    | true =>
      have : ¬ msgRequired m = true := fun h => hm ⟨hs, h⟩
      simp [this]
    | false => simp [required, isNull, EmbeddedOk]
  · have hn' : isNull v = false := by
      rw [← Bool.not_eq_true, isNull_iff]; exact hn
    cases hs : msgSkip m with
    | true => simp [hn]
    | false => simp [required, hn', hn, hrec hn]

theorem wrapperTpl_ok {C : Common} {E : Env} {J : JEnv} (hL : TextLibs C E J)
    (f : String) (e : ElemT) (t : TypeRules) (m : Option MessageRules) (v : Val)
    (hp : PortType C e t) (hf : FitsVal t v) :
    wrapperTpl J f e t m v = .ok () ↔
      (match (generalizing := false) v with
       | .wrapper s => ScalarOk E e t s
       | .null => msgRequired m = false
       | _ => True) := by
  cases v with
  | wrapper s =>
    have : FitsScalar t s := by cases t <;> simpa [FitsVal] using hf
    exact scalarTpl_ok hL f e t s hp this
  | null => simp [wrapperTpl]
  | _ => simp [wrapperTpl]

theorem elemTpl_ok {C : Common} {E : Env} {J : JEnv} {S : Schema} (hL : LibsAgree C E J S)
    (rec : Val → Run) (ok : Val → Prop) (f : String) (e : ElemT) (rules : FieldRules) (v : Val)
    (hrec : v ≠ .null → e.isEmbed = true → (rec v = .ok () ↔ EmbeddedOk E S ok v))
    (hp : PortElem C e rules) (hf : FitsVal rules.type v) :
    elemTpl J rec f e rules v = .ok () ↔ ValueOk E S ok e rules v := by
  obtain ⟨hp, hm⟩ := hp
  have plain : ∀ t, PortType C e t → FitsVal t v →
      (∀ r, t ≠ .any r) → (∀ r, t ≠ .duration r) → (∀ r, t ≠ .timestamp r) →
      ((match (generalizing := false) t, v with
        | .any r, .any url _ => anyTpl f r (some url)
        | .any r, .null => anyTpl f r none
        | .duration r, .dur d => durationTpl f r (some d)
        | .duration r, .null => durationTpl f r none
        | .timestamp r, .ts t => timestampTpl J f r (some t)
        | .timestamp r, .null => timestampTpl J f r none
        | t, .sc s => scalarTpl J f e t s
        | _, _ => .ok ()) = Except.ok () ↔
      (match (generalizing := false) v with
       | .sc s => ScalarOk E e t s
       | _ => True)) := by
    intro t ht hf h1 h2 h3
    cases v with
    | sc s =>
      have hs : FitsScalar t s := by cases t <;> simpa [FitsVal] using hf
      have := scalarTpl_ok hL.toTextLibs f e t s ht hs
      cases t <;> first | exact this | exact absurd rfl (h1 _) | exact absurd rfl (h2 _) |
        exact absurd rfl (h3 _)
    | _ =>
      cases t <;> first | exact absurd rfl (h1 _) | exact absurd rfl (h2 _) |
        exact absurd rfl (h3 _) | simp
  have W := fun t ht hf => wrapperTpl_ok hL.toTextLibs f e t rules.message v ht hf
  unfold elemTpl resolve ValueOk
  cases ht : rules.type with
  | unset =>
    cases he : e.isEmbed with
    | true =>
      have := messageTpl_ok rec ok f rules.message v hm (fun h => hrec h he)
      simpa using this
    | false => simp
  | any r =>
    rw [ht] at hp hf
    cases v with
    | any url val => exact anyTpl_ok f r (some url) (by rintro _ ⟨⟩; exact hf) hp.1 hp.2
    | null => exact anyTpl_ok f r none (by simp) hp.1 hp.2
    | sc s => cases s <;> simp [scalarTpl]
    | _ => simp
  | duration r =>
    rw [ht] at hp hf
    cases v with
    | dur d => exact durationTpl_ok f r (some d) (by rintro _ ⟨⟩; exact hf) hp.1 hp.2
    | null => exact durationTpl_ok f r none (by simp) hp.1 hp.2
    | sc s => cases s <;> simp [scalarTpl]
    | _ => simp
  | timestamp r =>
    rw [ht] at hp hf
    cases v with
    | ts d => exact timestampTpl_ok hL f r (some d) (by rintro _ ⟨⟩; exact hf) hp.1 hp.2
    | null => exact timestampTpl_ok hL f r none (by simp) hp.1 hp.2
    | sc s => cases s <;> simp [scalarTpl]
    | _ => simp
  | enum r =>
    rw [ht] at hp hf
    refine (plain (.enum r) hp hf (by simp) (by simp) (by simp)).trans ?_
    cases v <;> simp [WrapperKind]
  | repeated r i =>
    rw [ht] at hp hf
    refine (plain (.repeated r i) hp hf (by simp) (by simp) (by simp)).trans ?_
    cases v <;> simp [WrapperKind]
  | map r i j =>
    rw [ht] at hp hf
    refine (plain (.map r i j) hp hf (by simp) (by simp) (by simp)).trans ?_
    cases v <;> simp [WrapperKind]
  | bool r =>
    rw [ht] at hp hf
    cases he : e.isEmbed with
    | true => refine (W (.bool r) hp hf).trans ?_; cases v <;> simp [WrapperKind]
    | false =>
      refine (plain (.bool r) hp hf (by simp) (by simp) (by simp)).trans ?_
      cases v <;> simp
  | string r =>
    rw [ht] at hp hf
    cases he : e.isEmbed with
    | true => refine (W (.string r) hp hf).trans ?_; cases v <;> simp [WrapperKind]
    | false =>
      refine (plain (.string r) hp hf (by simp) (by simp) (by simp)).trans ?_
      cases v <;> simp
  | bytes r =>
    rw [ht] at hp hf
    cases he : e.isEmbed with
    | true => refine (W (.bytes r) hp hf).trans ?_; cases v <;> simp [WrapperKind]
    | false =>
      refine (plain (.bytes r) hp hf (by simp) (by simp) (by simp)).trans ?_
      cases v <;> simp
  | num k r =>
    rw [ht] at hp hf
    have P := plain (.num k r) hp hf (by simp) (by simp) (by simp)
    have W := W (.num k r) hp hf
    cases he : e.isEmbed with
    | true =>
      cases k <;> first
        | exact W.trans (by cases v <;> simp [WrapperKind])
        | exact P.trans (by cases v <;> simp [WrapperKind])
    | false => cases k <;> exact P.trans (by cases v <;> simp)

/-! ### Lists -/

theorem unique_ok {α : Type} (f : String) (eq : α → α → Bool) (vs seen : List α) :
    unique f eq vs seen = .ok () ↔
      (∀ v ∈ vs, ∀ w ∈ seen, eq v w = false) ∧ vs.Pairwise (fun a b => eq b a = false) := by
  induction vs generalizing seen with
  | nil => simp [unique]
  | cons v vs ih =>
    unfold unique
    by_cases h : (seen.any fun w => eq v w) = true
    · rw [if_pos h]
      simp only [reduceCtorEq, false_iff, not_and]
      intro h'
      rw [List.any_eq_true] at h
      obtain ⟨w, hw, e⟩ := h
      have := h' v (by simp) w hw
      simp [e] at this
    · rw [if_neg h, ih]
      have h0 : ∀ w ∈ seen, eq v w = false := by
        simpa using h
      simp only [List.mem_cons, forall_eq_or_imp, List.pairwise_cons]
      constructor
      · rintro ⟨h1, h2⟩
        exact ⟨⟨h0, fun a ha w hw => (h1 a ha).2 w hw⟩, fun a ha => (h1 a ha).1, h2⟩
      · rintro ⟨⟨-, h1⟩, h2, h3⟩
        exact ⟨fun a ha => ⟨h2 a ha, h1 a ha⟩, h3⟩

theorem numSame_symm {a b : Num} : numSame a b ↔ numSame b a := by
  unfold numSame
  exact ⟨fun ⟨x, h1, h2⟩ => ⟨x, h2, h1⟩, fun ⟨x, h1, h2⟩ => ⟨x, h2, h1⟩⟩

theorem itemEq_iff {e : ElemT} {a b : Val} (ha : FitsItem e a) (hb : FitsItem e b) :
    itemEq e b a = false ↔ ¬ SameItem a b := by
  rw [← Bool.not_eq_true]
  refine not_congr ?_
  unfold FitsItem at ha hb
  split at ha
  · rename_i k n
    rcases b with ⟨⟨b⟩⟩ | _ <;> try exact hb.elim
    simp only [itemEq, SameItem]
    rw [repr_eq (repr_of_plain hb) (repr_of_plain ha), numSame_symm]
  · rcases b with ⟨⟨b⟩⟩ | _ <;> try exact hb.elim
    simp only [itemEq, SameItem, beq_iff_eq]
    exact eq_comm
  · rcases b with ⟨⟨b⟩⟩ | _ <;> try exact hb.elim
    simp only [itemEq, SameItem, beq_iff_eq, jstr_inj hb ha]
    exact eq_comm
  · rcases b with ⟨⟨b⟩⟩ | _ <;> try exact hb.elim
    simp only [itemEq, SameItem, beq_iff_eq]
    exact eq_comm
  · rcases b with ⟨⟨b⟩⟩ | _ <;> try exact hb.elim
    simp only [itemEq, SameItem, beq_iff_eq, jenum_eq ha]
    exact eq_comm
  · exact ha.elim

theorem pairwise_congr {α : Type} {R T : α → α → Prop} {l : List α}
    (h : ∀ a ∈ l, ∀ b ∈ l, R a b ↔ T a b) : l.Pairwise R ↔ l.Pairwise T := by
  induction l with
  | nil => simp
  | cons a l ih =>
    rw [List.pairwise_cons, List.pairwise_cons,
      ih fun x hx y hy => h x (by simp [hx]) y (by simp [hy])]
    refine and_congr ⟨fun g b hb => ?_, fun g b hb => ?_⟩ Iff.rfl
    · exact (h a (by simp) b (by simp [hb])).1 (g b hb)
    · exact (h a (by simp) b (by simp [hb])).2 (g b hb)

theorem minCount_ok (m : Option Nat) (n : Nat) (P : Nat → Prop) (hP : ∀ k, P k ↔ k ≤ n) :
    ((optN m != 0) = true → P (optN m)) ↔ ∀ k, m = some k → k ≤ n := by
  cases m with
  | none => simp [optN]
  | some k =>
    cases k with
    | zero => simp [optN]
    | succ k => simp [optN, hP]

theorem maxCount_ok (m : Option Nat) (hm : m ≠ some 0) (n : Nat) (P : Nat → Prop)
    (hP : ∀ k, P k ↔ n ≤ k) :
    ((optN m != 0) = true → P (optN m)) ↔ ∀ k, m = some k → n ≤ k := by
  cases m with
  | none => simp [optN]
  | some k =>
    cases k with
    | zero => exact absurd rfl hm
    | succ k => simp [optN, hP]

theorem minItems_ok (f : String) (n k : Nat) : minItems f n k = .ok () ↔ k ≤ n := by
  simp [minItems]

theorem maxItems_ok (f : String) (n k : Nat) : maxItems f n k = .ok () ↔ n ≤ k := by
  simp [maxItems]

theorem minPairs_ok (f : String) (n k : Nat) : minPairs f n k = .ok () ↔ k ≤ n := by
  simp only [minPairs, check_ok, beq_iff_eq]; omega

theorem maxPairs_ok (f : String) (n k : Nat) : maxPairs f n k = .ok () ↔ n ≤ k := by
  simp only [maxPairs, check_ok, beq_iff_eq]; omega

theorem ignore_ok (b : Option Bool) (empty : Bool) (body : Run) (P Q : Prop) (hb : body = .ok () ↔ P)
    (hq : empty = true ↔ Q) :
    (if optB b then when (!empty) body else body) = .ok () ↔ (b = some true ∧ Q) ∨ P := by
  cases h : optB b with
  | true =>
    rw [optB_iff] at h
    simp only [if_true, when_ok, hb, h, ← hq, true_and]
    cases empty <;> simp
  | false =>
    rw [optB_false_iff] at h
    simp [hb, h]

theorem repeatedTpl_of {E : Env} {J : JEnv} {S : Schema}
    (rec : Val → Run) (ok : Val → Prop) (f : String) (e : ElemT) (r : RepeatedRules)
    (items : FieldRules) (vs : List Val)
    (hel : ∀ v ∈ vs, (elemTpl J rec f e items v = .ok () ↔ ValueOk E S ok e items v))
    (hmax : r.maxItems ≠ some 0) (hu : r.unique = some true → ∀ v ∈ vs, FitsItem e v) :
    repeatedTpl J rec f e r items vs = .ok () ↔ RepeatedOk E S ok e r items vs := by
  unfold repeatedTpl RepeatedOk
  refine ignore_ok r.ignoreEmpty vs.isEmpty _ _ _ ?_ (by simp)
  simp only [seq_ok, when_ok, forEach_ok]
  rw [minCount_ok r.minItems vs.length _ (minItems_ok f vs.length),
    maxCount_ok r.maxItems hmax vs.length _ (maxItems_ok f vs.length)]
  unfold CountOk
  rw [and_assoc]
  refine and_congr_right fun _ => and_congr_right fun _ => and_congr ?_ ?_
  · rw [optB_iff]
    refine imp_congr_right fun h => ?_
    rw [unique_ok]
    simp only [List.not_mem_nil, false_implies, implies_true, true_and]
    exact pairwise_congr fun a ha b hb => itemEq_iff (hu h a ha) (hu h b hb)
  · exact forall_congr' fun v => imp_congr_right fun hv => hel v hv

theorem repeatedTpl_ok {C : Common} {E : Env} {J : JEnv} {S : Schema} (hL : LibsAgree C E J S)
    (rec : Val → Run) (ok : Val → Prop) (f : String) (e : ElemT) (r : RepeatedRules)
    (items : FieldRules) (vs : List Val)
    (hrec : ∀ v ∈ vs, v ≠ .null → e.isEmbed = true → (rec v = .ok () ↔ EmbeddedOk E S ok v))
    (hmax : r.maxItems ≠ some 0) (hp : PortElem C e items) (hf : ∀ v ∈ vs, FitsVal items.type v)
    (hu : r.unique = some true → ∀ v ∈ vs, FitsItem e v) :
    repeatedTpl J rec f e r items vs = .ok () ↔ RepeatedOk E S ok e r items vs :=
  repeatedTpl_of rec ok f e r items vs
    (fun v hv => elemTpl_ok hL rec ok f e items v (hrec v hv) hp (hf v hv)) hmax hu

theorem keyTpl_ok {C : Common} {E : Env} {J : JEnv} (hL : TextLibs C E J)
    (f : String) (e : ElemT) (rules : FieldRules) (k : Scalar) (hp : PortType C e rules.type)
    (hf : FitsScalar rules.type k) : keyTpl J f e rules k = .ok () ↔ ScalarOk E e rules.type k := by
  have h := scalarTpl_ok hL f e rules.type k hp hf
  unfold keyTpl
  split
  · rename_i ht; simp [ht, ScalarOk]
  · exact h

theorem mapTpl_of {E : Env} {J : JEnv} {S : Schema}
    (rec : Val → Run) (ok : Val → Prop) (f : String) (kt vt : ElemT) (r : MapRules)
    (keys values : FieldRules) (kvs : List (Scalar × Val))
    (hkey : ∀ kv ∈ kvs, (keyTpl J f kt keys kv.1 = .ok () ↔ ScalarOk E kt keys.type kv.1))
    (hval : ∀ kv ∈ kvs, (elemTpl J rec f vt values kv.2 = .ok () ↔ ValueOk E S ok vt values kv.2))
    (hmax : r.maxPairs ≠ some 0) (hs : r.noSparse ≠ some true) :
    mapTpl J rec f kt vt r keys values kvs = .ok () ↔ MapOk E S ok kt vt r keys values kvs := by
  unfold mapTpl MapOk
  refine ignore_ok r.ignoreEmpty kvs.isEmpty _ _ _ ?_ (by simp)
  simp only [seq_ok, when_ok, forEach_ok]
  rw [minCount_ok r.minPairs kvs.length _ (minPairs_ok f kvs.length),
    maxCount_ok r.maxPairs hmax kvs.length _ (maxPairs_ok f kvs.length)]
  unfold CountOk
  rw [and_assoc]
  refine and_congr_right fun _ => and_congr_right fun _ => ?_
  have hs' : optB r.noSparse = false := by rw [optB_false_iff]; exact hs
  simp only [hs', Bool.false_eq_true, false_implies, true_and, hs]
  have hall : ((∀ x ∈ J.order kvs, keyTpl J f kt keys x.1 = .ok ()) ∧
      ∀ x ∈ J.order kvs, elemTpl J rec f vt values x.2 = .ok ()) ↔
      ∀ kv ∈ kvs, ScalarOk E kt keys.type kv.1 ∧ ValueOk E S ok vt values kv.2 := by
    simp only [(J.order_perm kvs).mem_iff]
    constructor
    · rintro ⟨h1, h2⟩ kv hkv
      exact ⟨(hkey kv hkv).1 (h1 kv hkv), (hval kv hkv).1 (h2 kv hkv)⟩
    · intro h
      exact ⟨fun kv hkv => (hkey kv hkv).2 (h kv hkv).1, fun kv hkv => (hval kv hkv).2 (h kv hkv).2⟩
  rw [hall]
  by_cases hc : (elemTypNotNone vt values || elemTypNotNone kt keys) = true
  · simp [hc]
  · simp only [hc, false_implies, true_iff, Bool.false_eq_true]
    simp only [Bool.or_eq_true, not_or, Bool.not_eq_true] at hc
    obtain ⟨h2, h3⟩ := hc
    obtain ⟨ht, he⟩ := Go.elemTypNotNone_false h2
    obtain ⟨ht', he'⟩ := Go.elemTypNotNone_false h3
    simp [ValueOk, ht, he, ht', ScalarOk]

theorem mapTpl_ok {C : Common} {E : Env} {J : JEnv} {S : Schema} (hL : LibsAgree C E J S)
    (rec : Val → Run) (ok : Val → Prop) (f : String) (kt vt : ElemT) (r : MapRules)
    (keys values : FieldRules) (kvs : List (Scalar × Val))
    (hrec : ∀ kv ∈ kvs, kv.2 ≠ .null → vt.isEmbed = true →
      (rec kv.2 = .ok () ↔ EmbeddedOk E S ok kv.2))
    (hmax : r.maxPairs ≠ some 0) (hs : r.noSparse ≠ some true) (hk : PortType C kt keys.type)
    (hp : PortElem C vt values)
    (hf : ∀ kv ∈ kvs, FitsScalar keys.type kv.1 ∧ FitsVal values.type kv.2) :
    mapTpl J rec f kt vt r keys values kvs = .ok () ↔ MapOk E S ok kt vt r keys values kvs :=
  mapTpl_of rec ok f kt vt r keys values kvs
    (fun kv hkv => keyTpl_ok hL.toTextLibs f kt keys kv.1 hk (hf kv hkv).1)
    (fun kv hkv => elemTpl_ok hL rec ok f vt values kv.2 (hrec kv hkv) hp (hf kv hkv).2) hmax hs

/-! ### Fields, oneofs and messages -/

theorem fits_unset (v : Val) : FitsVal .unset v := by
  cases v <;> simp [FitsVal, FitsScalar]

theorem port_absent (C : Common) (e : ElemT) : PortElem C e .absent := by
  refine ⟨trivial, ?_⟩
  simp [PortMessage, msgSkip, FieldRules.absent, FieldRules.message]

open PGV.Go (Inside) in
theorem renderField_ok {C : Common} {E : Env} {J : JEnv} {S : Schema} (hL : LibsAgree C E J S)
    (rec : Val → Run) (ok : Val → Prop) (typ : String) (f : FieldDesc) (v : Val)
    (hrec : ∀ w, Inside w v → w ≠ .null → (rec w = .ok () ↔ EmbeddedOk E S ok w))
    (hp : PortField C f v) : renderField J rec typ f v = .ok () ↔ FieldOk E S ok f v := by
  obtain ⟨name, ft, rules⟩ := f
  have hu : FieldRules.absent.type = .unset := rfl
  have hm1 : msgRequired FieldRules.absent.message = false := rfl
  have hm2 : msgSkip FieldRules.absent.message = false := rfl
  cases ft with
  | one e => exact elemTpl_ok hL rec ok _ e rules v (fun h _ => hrec v (.self v) h) hp.1 hp.2
  | rep e =>
    cases v with
    | list vs =>
      unfold PortField at hp
      unfold renderField FieldOk
      have hr : ∀ v ∈ vs, v ≠ .null → e.isEmbed = true → (rec v = .ok () ↔ EmbeddedOk E S ok v) :=
        fun v hv h _ => hrec v (.list hv) h
      cases ht : rules.type with
      | repeated r items =>
        simp only [ht] at hp
        exact repeatedTpl_ok hL rec ok _ e r items vs hr hp.1 hp.2.1 hp.2.2.2.1 hp.2.2.2.2
      | unset =>
        refine (repeatedTpl_ok hL rec ok _ e {} .absent vs hr (by simp) (port_absent C e)
          (fun v _ => fits_unset v) (by simp)).trans ?_
        simp [RepeatedOk, CountOk, ValueOk, hu, hm1, hm2]
      | _ => simp
    | _ => simp [renderField, FieldOk]
  | map kt vt =>
    cases v with
    | map kvs =>
      unfold PortField at hp
      unfold renderField FieldOk
      have hr : ∀ kv ∈ kvs, kv.2 ≠ .null → vt.isEmbed = true →
          (rec kv.2 = .ok () ↔ EmbeddedOk E S ok kv.2) := fun v hv h _ => hrec v.2 (.map hv) h
      cases ht : rules.type with
      | map r keys values =>
        simp only [ht] at hp
        exact mapTpl_ok hL rec ok _ kt vt r keys values kvs hr hp.1 hp.2.1 hp.2.2.1 hp.2.2.2.1
          hp.2.2.2.2.2
      | unset =>
        cases he : vt.isEmbed with
        | true =>
          simp only [he, if_true]
          refine (mapTpl_ok hL rec ok _ kt vt {} .absent .absent kvs hr (by simp) (by simp) trivial
            (port_absent C vt) (fun kv _ => ⟨by simp [FitsScalar, hu], fits_unset kv.2⟩)).trans ?_
          simp [MapOk, CountOk, ValueOk, hu, hm1, hm2, he, ScalarOk]
        | false => simp [he]
      | _ => simp
    | _ => simp [renderField, FieldOk]

theorem fuel_nonmsg {C : Common} {E : Env} {J : JEnv} {S : Schema} (hL : LibsAgree C E J S) (n : Nat)
    (v : Val) (h : ∀ t fs os, v ≠ .msg t fs os) : assertFuel J S n v = .ok () := by
  cases n with
  | zero => rfl
  | succ n =>
    have hO : Outside S v := fun t fs os d e => absurd e (h t fs os)
    have e : assertFuel J S (n + 1) v = J.other v := by
      unfold assertFuel assertStep
      cases v <;> first | rfl | exact absurd rfl (h _ _ _)
    rw [e, hL.other v hO]
    cases v <;> first | trivial | exact absurd rfl (h _ _ _)

theorem part_inside {C : Common} {S : Schema} {u w v : Val} (hi : Go.Inside w u)
    (h : ∀ x, Part x u → Part x v) (hP : Portable C S v) : Portable C S w := by
  intro typ fs os d hp
  refine hP typ fs os d (h _ ?_)
  cases hi with
  | self => exact hp
  | list hm => exact .item hm hp
  | map hm => exact .entry hm hp

theorem mem_of_lookup {β : Type} {n : String} {v : β} {l : List (String × β)} (h : l.lookup n = some v) :
    (n, v) ∈ l := by
  induction l with
  | nil => simp at h
  | cons w l ih =>
    obtain ⟨k, w⟩ := w
    rw [List.lookup_cons] at h
    split at h
    · rename_i e
      cases h
      have : n = k := by simpa using e
      simp [this]
    · exact List.mem_cons_of_mem _ (ih h)

/-- Enough fuel gives exactly the declarative meaning. -/
theorem fuel_ok {C : Common} {E : Env} {J : JEnv} {S : Schema} (hL : LibsAgree C E J S) (n : Nat) :
    ∀ v, depth v ≤ n → Portable C S v →
      (assertFuel J S n v = .ok () ↔ EmbeddedOk E S (fun w => Go.validate E S false w = none) v) := by
  induction n with
  | zero => intro v hv; have := Go.depth_pos v; omega
  | succ n ih =>
    intro v hv hP
    by_cases hm : ∀ t fs os, v ≠ .msg t fs os
    · rw [fuel_nonmsg hL (n + 1) v hm]
      cases v <;> first | exact absurd rfl (hm _ _ _) | simp [EmbeddedOk]
    · simp only [Classical.not_forall, ne_eq, Decidable.not_not] at hm
      obtain ⟨typ, fs, os, rfl⟩ : ∃ t fs os, v = .msg t fs os := by
        obtain ⟨t, fs, os, h⟩ := hm
        exact ⟨t, fs, os, Classical.not_not.1 h⟩
      have hout : Outside S (.msg typ fs os) → (J.other (.msg typ fs os) = .ok () ↔
          EmbeddedOk E S (fun w => Go.validate E S false w = none) (.msg typ fs os)) := by
        intro hO
        rw [hL.other _ hO]
        unfold EmbeddedOk
        cases hS : S typ with
        | generated d =>
          have := hO typ fs os d rfl hS
          simp [hS, this]
        | _ => simp [hS]
      have hrec : ∀ u, (∀ x, Part x u → Part x (.msg typ fs os)) → depth u ≤ n →
          ∀ w, Go.Inside w u → w ≠ .null → (assertFuel J S n w = .ok () ↔
            EmbeddedOk E S (fun w => Go.validate E S false w = none) w) := by
        intro u hu hd w hw _
        refine ih w ?_ (part_inside hw hu hP)
        have := hw.depth_le
        omega
      unfold assertFuel assertStep
      cases hS : S typ with
      | generated d =>
        simp only [hS]
        cases hig : d.ignored with
        | true =>
          simp only [if_true]
          refine hout ?_
          intro t fs' os' d' e hS'
          cases e
          rw [hS] at hS'
          cases hS'
          exact hig
        | false =>
          simp only [Bool.false_eq_true, if_false, EmbeddedOk, hS, hig, true_implies]
          rw [Go.validate_spec]
          simp only [MessageOk, hS]
          cases hdis : d.disabled with
          | true => simp
          | false =>
            obtain ⟨hF, hO⟩ := hP typ fs os d .self hS hdis
            simp only [Bool.false_eq_true, if_false, true_implies, seq_ok, forEach_ok]
            refine and_congr ?_ ?_
            · refine forall_congr' fun f => imp_congr_right fun hf => ?_
              refine renderField_ok hL _ _ typ f _ ?_ (hF f hf)
              intro w hw hnn
              unfold getField at hw
              cases hl : fs.lookup f.name with
              | some u =>
                rw [hl] at hw
                refine hrec u (fun x hx => .field (mem_of_lookup hl) hx) ?_ w hw hnn
                have := Go.depthFields_lookup hl
                simp only [depth] at hv
                omega
              | none =>
                rw [hl] at hw
                have hw' := Go.zero_not_msg hw
                rw [fuel_nonmsg hL n w hw']
                cases w <;> first | exact absurd rfl (hw' _ _ _) | simp [EmbeddedOk]
            · refine forall_congr' fun o => imp_congr_right fun ho => ?_
              unfold oneofTpl OneofOk
              cases hl : os.lookup o.name with
              | none => simp [required]
              | some mu =>
                obtain ⟨m, u⟩ := mu
                simp only
                cases hfind : o.fields.find? (fun f => f.name == m) with
                | none => simp
                | some f =>
                  simp only [Option.some.injEq, forall_eq']
                  refine renderField_ok hL _ _ typ f u ?_ (hO o ho m u f hl hfind)
                  refine hrec u (fun x hx => .member (mem_of_lookup hl) hx) ?_
                  have := Go.depthOneofs_lookup hl
                  simp only [depth] at hv
                  omega
      | _ =>
        simp only [hS]
        refine hout ?_
        intro t fs' os' d' e hS'
        cases e
        rw [hS] at hS'
        cases hS'

/-! ### The recursion equation -/

theorem forEach_congr {α : Type} {f g : α → Run} (xs : List α) (h : ∀ x ∈ xs, f x = g x) :
    forEach xs f = forEach xs g := by
  induction xs with
  | nil => rfl
  | cons x xs ih =>
    unfold forEach
    rw [h x (by simp), ih (fun y hy => h y (by simp [hy]))]

/-- The messages of a field that its code hands to their validators. -/
inductive Called : FieldT → Val → Val → Prop
  | one {e v} : e.isEmbed = true → v ≠ .null → Called (.one e) v v
  | item {e v vs} : v ∈ vs → v ≠ .null → Called (.rep e) v (.list vs)
  | entry {k e} {kv : Scalar × Val} {kvs} : kv ∈ kvs → kv.2 ≠ .null → Called (.map k e) kv.2 (.map kvs)

theorem Called.depth_le {typ : FieldT} {w v : Val} (h : Called typ w v) : depth w ≤ depth v := by
  cases h with
  | one => exact Nat.le_refl _
  | item h => have := Go.depthList_mem h; simp only [depth]; omega
  | entry h => have := Go.depthMap_mem h; simp only [depth]; omega

theorem Called.zero {typ : FieldT} {w : Val} (h : Called typ w typ.zero) : False := by
  generalize hz : typ.zero = z at h
  cases h with
  | one he hn =>
    rename_i e
    cases e <;> simp [ElemT.isEmbed] at he
    exact hn hz.symm
  | item h => cases hz; simp at h
  | entry h => cases hz; simp at h

theorem elemTpl_congr {J : JEnv} {rec rec' : Val → Run} {f : String} {e : ElemT} {rules : FieldRules}
    {v : Val} (h : e.isEmbed = true → v ≠ .null → rec v = rec' v) :
    elemTpl J rec f e rules v = elemTpl J rec' f e rules v := by
  unfold elemTpl
  cases hr : resolve e rules with
  | message m =>
    have he : e.isEmbed = true := by
      unfold resolve at hr
      cases ht : rules.type with
      | unset => cases he : e.isEmbed <;> simp_all
      | num k r => cases he : e.isEmbed <;> cases k <;> simp_all
      | _ => cases he : e.isEmbed <;> simp_all
    unfold messageTpl
    by_cases hn : v = .null
    · subst hn; rfl
    · simp only [h he hn]
  | _ => rfl

theorem repeatedTpl_congr {J : JEnv} {rec rec' : Val → Run} {f : String} {e : ElemT}
    {r : RepeatedRules} {items : FieldRules} {vs : List Val}
    (h : ∀ v ∈ vs, v ≠ .null → rec v = rec' v) :
    repeatedTpl J rec f e r items vs = repeatedTpl J rec' f e r items vs := by
  unfold repeatedTpl
  rw [forEach_congr (g := fun v => elemTpl J rec' f e items v) vs
    fun v hv => elemTpl_congr fun _ => h v hv]

theorem mapTpl_congr {J : JEnv} {rec rec' : Val → Run} {f : String} {kt vt : ElemT}
    {r : MapRules} {keys values : FieldRules} {kvs : List (Scalar × Val)}
    (h : ∀ kv ∈ kvs, kv.2 ≠ .null → rec kv.2 = rec' kv.2) :
    mapTpl J rec f kt vt r keys values kvs = mapTpl J rec' f kt vt r keys values kvs := by
  unfold mapTpl
  rw [forEach_congr (g := fun kv => elemTpl J rec' f vt values kv.2) (J.order kvs)
    fun kv hkv => elemTpl_congr fun _ => h kv ((J.order_perm kvs).mem_iff.1 hkv)]

theorem renderField_congr {J : JEnv} {rec rec' : Val → Run} {typ : String} {f : FieldDesc} {v : Val}
    (h : ∀ w, Called f.typ w v → rec w = rec' w) : renderField J rec typ f v = renderField J rec' typ f v := by
  obtain ⟨name, ft, rules⟩ := f
  cases ft with
  | one e => exact elemTpl_congr fun he hn => h v (.one he hn)
  | rep e =>
    cases v with
    | list vs =>
      have : ∀ v ∈ vs, v ≠ .null → rec v = rec' v := fun v hv hn => h v (.item hv hn)
      unfold renderField
      simp only [repeatedTpl_congr this]
    | _ => rfl
  | map kt vt =>
    cases v with
    | map kvs =>
      have : ∀ kv ∈ kvs, kv.2 ≠ .null → rec kv.2 = rec' kv.2 :=
        fun kv hv hn => h kv.2 (.entry hv hn)
      unfold renderField
      simp only [mapTpl_congr this]
    | _ => rfl

theorem assertStep_congr {J : JEnv} {S : Schema} {rec rec' : Val → Run} {v : Val}
    (h : ∀ w, depth w < depth v → rec w = rec' w) :
    assertStep J S rec v = assertStep J S rec' v := by
  cases v with
  | msg typ fs os =>
    unfold assertStep
    cases hS : S typ with
    | generated d =>
      have h1 : forEach d.fields (fun f => renderField J rec typ f (getField fs f)) =
          forEach d.fields (fun f => renderField J rec' typ f (getField fs f)) := by
        refine forEach_congr _ fun f _ => renderField_congr fun w hw => ?_
        unfold getField at hw
        cases hf : fs.lookup f.name with
        | some v =>
          rw [hf] at hw
          have h1 := hw.depth_le
          have h2 := Go.depthFields_lookup hf
          refine h w ?_
          simp only [Option.getD_some] at h1
          simp only [depth]; omega
        | none =>
          rw [hf] at hw
          exact hw.zero.elim
      have h2 : forEach d.oneofs (fun o => oneofTpl J rec typ o (os.lookup o.name)) =
          forEach d.oneofs (fun o => oneofTpl J rec' typ o (os.lookup o.name)) := by
        refine forEach_congr _ fun o _ => ?_
        cases ho : os.lookup o.name with
        | none => rfl
        | some mv =>
          obtain ⟨m, v⟩ := mv
          unfold oneofTpl
          have hd := Go.depthOneofs_lookup ho
          have : ∀ f, renderField J rec typ f v = renderField J rec' typ f v := by
            intro f
            refine renderField_congr fun w hw => h w ?_
            have := hw.depth_le
            simp only [depth]; omega
          simp only [this]
      simp only [hS, h1, h2]
    | _ => simp only [hS]
  | _ => rfl

theorem fuel_enough (J : JEnv) (S : Schema) (n m : Nat) (v : Val) (hn : depth v ≤ n)
    (hm : depth v ≤ m) : assertFuel J S n v = assertFuel J S m v := by
  induction n generalizing m v with
  | zero => have := Go.depth_pos v; omega
  | succ n ih =>
    cases m with
    | zero => have := Go.depth_pos v; omega
    | succ m => exact assertStep_congr fun w hw => ih m w (by omega) (by omega)

/-- The recursion equation of the generated validators. -/
theorem assertValid_eq (J : JEnv) (S : Schema) (v : Val) :
    assertValid J S v = assertStep J S (assertValid J S) v := by
  unfold assertValid
  have hp := Go.depth_pos v
  obtain ⟨n, hn⟩ : ∃ n, depth v = n + 1 := ⟨depth v - 1, by omega⟩
  rw [hn]
  exact assertStep_congr fun w hw => fuel_enough J S n (depth w) w (by omega) (Nat.le_refl _)

/-- A one-field message. -/
theorem javaAccepts_iff {J : JEnv} {S : Schema} {typ : String} {f : FieldDesc} (h : OnlyField S typ f)
    (hi : NotIgnored S typ) (v : Val) :
    JavaAccepts J S typ f v ↔ renderField J (assertValid J S) typ f v = .ok () := by
  obtain ⟨d, hS, hd, hf, ho⟩ := h
  unfold JavaAccepts
  rw [assertValid_eq]
  simp [assertStep, hS, hd, hf, ho, hi d hS, Go.getField_single, forEach]

/-- A one-field message with a scalar value. -/
theorem javaAccepts_scalar {J : JEnv} {S : Schema} {typ : String} {f : FieldDesc}
    (h : OnlyField S typ f) (hi : NotIgnored S typ) {e : ElemT} (hT : f.typ = .one e)
    (he : e.isEmbed = false) (s : Scalar) (ht : f.rules.type ≠ .unset) :
    JavaAccepts J S typ f (.sc s) ↔ scalarTpl J (fullyQualified typ f.name) e f.rules.type s = .ok () := by
  rw [javaAccepts_iff h hi]
  simp only [renderField, hT, elemTpl, resolve]
  cases hty : f.rules.type with
  | unset => exact absurd hty ht
  | num k r => cases k <;> simp [he]
  | _ => simp [he, scalarTpl]

end PGV.Java
