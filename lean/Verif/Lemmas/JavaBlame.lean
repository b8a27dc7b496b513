import Verif.Lemmas.JavaMsg
import Verif.Spec.JavaBlame

/-!
Where the exceptions of generated Java code come from.
-/

set_option linter.unusedSimpArgs false
set_option autoImplicit false

namespace PGV.Java
open PGV PGV.Spec
open PGV.Go (resolve Resolved elemTypNotNone depth)

/-- Exceptions name `f`, if any field. -/
def Says (f : String) (e : JErr) : Prop := ∀ n, e.field = some n → n = f

/-- Every exception of the statement names `f`, if any field. -/
def Names (f : String) (r : Run) : Prop := ∀ e, r = .error e → Says f e

namespace Names
variable {f : String} {a b : Run}

protected theorem ok : Names f (.ok ()) := by intro e h; cases h

protected theorem validation {w : Reason} : Names f (.error (.validation f w)) := by
  intro e h
  cases h
  simp [Says, JErr.field]

protected theorem unimplemented : Names f (.error (.unimplemented f)) := by
  intro e h
  cases h
  simp [Says, JErr.field]

protected theorem runtime {w : String} : Names f (.error (.runtime w)) := by
  intro e h
  cases h
  simp [Says, JErr.field]

protected theorem check {c : Bool} {w : Reason} : Names f (check c f w) := by
  unfold check
  split
  · exact .ok
  · exact .validation

protected theorem seq (ha : Names f a) (hb : Names f b) : Names f (a ⊳ b) := by
  unfold seq
  cases a with
  | ok u => exact hb
  | error e => exact ha

protected theorem when {c : Bool} (ha : Names f a) : Names f (when c a) := by
  unfold when
  split
  · exact ha
  · exact .ok

protected theorem withOpt {α : Type} {o : Option α} {k : α → Run} (h : ∀ x, Names f (k x)) :
    Names f (withOpt o k) := by
  unfold withOpt
  cases o with
  | some x => exact h x
  | none => exact .ok

protected theorem ite {c : Prop} [Decidable c] (ha : Names f a) (hb : Names f b) :
    Names f (if c then a else b) := by split <;> assumption

protected theorem withCmp {x : Except JErr Int} {k : Int → Run} (hx : ∀ e, x = .error e → e.field = none)
    (h : ∀ n, Names f (k n)) : Names f (withCmp x k) := by
  unfold withCmp
  cases x with
  | ok n => exact h n
  | error e =>
    intro e' h'
    cases h'
    intro n hn
    rw [hx e rfl] at hn
    cases hn

/-- A comparator whose exceptions name no field. -/
def Quiet {α : Type} (c : Cmp α) : Prop := ∀ a b e, c a b = .error e → e.field = none

theorem ltgt {α : Type} [Shown α] {lt lte gt gte : Option α} {c : Cmp α} {v : α} (hc : Quiet c) :
    Names f (ltgt f lt lte gt gte c v) := by
  unfold Java.ltgt
  refine .ite ?_ (.seq ?_ (.seq ?_ (.seq ?_ ?_)))
  · unfold Java.range
    split
    · refine .withCmp (hc _ _) fun n => .ite ?_ ?_
      all_goals
        unfold between
        exact .withCmp (hc _ _) fun n => .ite (.withCmp (hc _ _) fun n => .check) .check
    · exact .runtime
  all_goals
    split
    · exact .withCmp (hc _ _) fun n => .check
    · exact .ok

theorem quiet_num : Quiet numCmp := by intro a b e h; cases h

theorem quiet_dur : Quiet durCmp := by
  intro a b e h
  unfold durCmp at h
  split at h
  · cases h; rfl
  · cases h

theorem quiet_ts : Quiet tsCmp := by
  intro a b e h
  unfold tsCmp at h
  split at h
  · cases h; rfl
  · cases h

theorem unique {α : Type} {eq : α → α → Bool} (vs seen : List α) : Names f (unique f eq vs seen) := by
  induction vs generalizing seen with
  | nil => exact .ok
  | cons v vs ih =>
    unfold Java.unique
    exact .ite .validation (ih _)

theorem num {k : NumKind} {r : NumRules} {n : Num} : Names f (numTpl f k r n) := by
  unfold numTpl
  have : ∀ v : JNum, Names f (withOpt r.const (fun c => constant f v (jnum k c) jeq) ⊳
    Java.ltgt f (r.lt.map (jnum k)) (r.lte.map (jnum k)) (r.gt.map (jnum k)) (r.gte.map (jnum k)) numCmp v ⊳
    Java.when (!r.ins.isEmpty) (isIn f v (r.ins.map (jnum k)) jeq) ⊳
    Java.when (!r.notIns.isEmpty) (notIn f v (r.notIns.map (jnum k)) jeq)) := fun v =>
    .seq (.withOpt fun _ => .check) (.seq (ltgt quiet_num) (.seq (.when .check) (.when .check)))
  exact .ite (.when (this _)) (this _)

theorem string {J : JEnv} {r : StringRules} {s : Bytes} : Names f (stringTpl J f r s) := by
  unfold stringTpl
  have len : ∀ s, Names f (strLen f r s) := fun s =>
    .seq (.withOpt fun _ => .check) (.seq (.withOpt fun _ => .check) (.seq (.withOpt fun _ => .check)
      (.seq (.withOpt fun _ => .check) (.seq (.withOpt fun _ => .check) (.withOpt fun _ => .check)))))
  have aff : ∀ s, Names f (strAffix J f r s) := fun s =>
    .seq (.withOpt fun _ => .check) (.seq (.withOpt fun _ => .check) (.seq (.withOpt fun _ => .check)
      (.seq (.withOpt fun _ => .check) (.withOpt fun _ => .check))))
  have wk : ∀ s, Names f (strWellKnown J f r s) := fun s =>
    .seq (.when .check) (.seq (.when .check) (.seq (.when (.seq .check .check)) (.seq (.when .check) (.seq (.when .check)
      (.seq (.when .check) (.seq (.when .check) (.seq (.when .check) (.when .check))))))))
  refine .ite (.when ?_) ?_
  all_goals
    exact .seq (.withOpt fun c => .check) (.seq (.when .check) (.seq (.when .check)
      (.seq (len _) (.seq (aff _) (wk _)))))

theorem bytes {J : JEnv} {r : BytesRules} {s : Bytes} : Names f (bytesTpl J f r s) := by
  unfold bytesTpl
  refine .ite (.when ?_) ?_
  all_goals
    exact .seq (.ite .ok .check) (.seq (.withOpt fun _ => .check) (.seq (.withOpt fun _ => .check)
      (.seq (.withOpt fun _ => .check) (.seq (.withOpt fun _ => .check) (.seq (.ite .ok .check)
      (.seq (.ite .ok .check) (.seq (.ite .ok .check) (.seq (.when .check) (.seq (.when .check)
      (.seq (.when .check) (.seq (.when .check) (.when .check))))))))))))

theorem enum {declared : List Int} {r : EnumRules} {n : Int} : Names f (enumTpl f declared r n) := by
  unfold enumTpl
  refine .seq (.withOpt fun c => ?_) (.seq (.when .check) (.seq (.when .check) (.when .check)))
  unfold enumConstant
  refine .ite .ok ?_
  split
  · exact .validation
  · exact .runtime

theorem any {r : AnyRules} {u : Option Bytes} : Names f (anyTpl f r u) := by
  unfold anyTpl
  refine .seq (.when .check) ?_
  split
  · exact .ok
  · exact .seq (.when .check) (.when .check)

theorem duration {r : DurationRules} {d : Option PDur} : Names f (durationTpl f r d) := by
  unfold durationTpl
  refine .seq (.when .check) ?_
  split
  · exact .ok
  · exact .seq (.withOpt fun _ => .check) (.seq (ltgt quiet_dur) (.seq (.when .check) (.when .check)))

theorem toNanos_quiet {d : PDur} {e : JErr} (h : toNanos d = .error e) : e.field = none := by
  unfold toNanos at h
  simp only at h
  split at h
  · cases h; rfl
  · split at h
    · cases h; rfl
    · split at h
      · cases h; rfl
      · cases h

theorem within {v : PTime} {d : PDur} {t : PTime} : Names f (within f v d t) := by
  unfold Java.within
  cases h : tsBetween t v with
  | error e =>
    intro e' he
    cases he
    intro n hn
    have : e.field = none := by
      unfold tsBetween at h
      simp only at h
      split at h
      · cases h; rfl
      · split at h
        · cases h
        · split at h <;> cases h
    rw [this] at hn
    cases hn
  | ok b =>
    exact .withCmp (fun _ => toNanos_quiet) fun _ => .withCmp (fun _ => toNanos_quiet) fun _ => .check

theorem timestamp {J : JEnv} {r : TimestampRules} {t : Option PTime} : Names f (timestampTpl J f r t) := by
  unfold timestampTpl
  refine .seq (.when .check) ?_
  split
  · exact .ok
  · exact .seq (.withOpt fun _ => .check) (.seq (ltgt quiet_ts)
      (.seq (.when (.withCmp (quiet_ts _ _) fun _ => .check))
        (.seq (.when (.withCmp (quiet_ts _ _) fun _ => .check)) (.withOpt fun _ => within))))

theorem scalar {J : JEnv} {e : ElemT} {t : TypeRules} {v : Scalar} : Names f (scalarTpl J f e t v) := by
  unfold scalarTpl
  split
  · exact num
  · exact .withOpt fun _ => .check
  · exact string
  · exact bytes
  · split
    · exact enum
    · exact .ok
  · exact .ok

theorem key {J : JEnv} {e : ElemT} {rules : FieldRules} {v : Scalar} : Names f (keyTpl J f e rules v) := by
  unfold keyTpl
  split
  · exact .ok
  · exact scalar

end Names

/-! ### Splitting a field's exceptions from those of nested messages -/

/-- `b` behaves as `a`, except for exceptions of `a` that satisfy `P`; the others satisfy `N`. -/
structure Splits (N P : JErr → Prop) (a b : Run) : Prop where
  ok : a = .ok () → b = .ok ()
  err : ∀ e, a = .error e → (b = .error e ∧ N e) ∨ P e

namespace Splits
variable {N P Q : JErr → Prop} {a b c d : Run}

theorem refl (h : ∀ e, a = .error e → N e) : Splits N P a a := ⟨id, fun e he => .inl ⟨he, h e he⟩⟩

theorem mono (h : Splits N P a b) (hP : ∀ e, P e → Q e) : Splits N Q a b :=
  ⟨h.ok, fun e he => (h.err e he).imp_right (hP e)⟩

theorem seq (h1 : Splits N P a b) (h2 : Splits N P c d) : Splits N P (a ⊳ c) (b ⊳ d) := by
  cases a with
  | ok u =>
    have := h1.ok rfl
    subst this
    exact h2
  | error e =>
    refine ⟨(by intro h; cases h), ?_⟩
    intro e' he
    cases he
    rcases h1.err e rfl with ⟨h, hN⟩ | h
    · subst h
      exact .inl ⟨rfl, hN⟩
    · exact .inr h

theorem when {x : Bool} (h : Splits N P a b) : Splits N P (when x a) (when x b) := by
  cases x
  · exact refl (by intro e h; cases h)
  · exact h

theorem forEach {α : Type} {f g : α → Run} (xs : List α) (h : ∀ x ∈ xs, Splits N P (f x) (g x)) :
    Splits N P (Java.forEach xs f) (Java.forEach xs g) := by
  induction xs with
  | nil => exact refl (by intro e h; cases h)
  | cons x xs ih => exact seq (h x (by simp)) (ih fun y hy => h y (by simp [hy]))

theorem ite {x : Prop} [Decidable x] (h1 : Splits N P a b) (h2 : Splits N P c d) :
    Splits N P (if x then a else c) (if x then b else d) := by split <;> assumption

end Splits

theorem scalarTpl_lenient (J : JEnv) : scalarTpl (lenient J) = scalarTpl J := by
  funext f e t v
  unfold scalarTpl stringTpl bytesTpl strAffix strWellKnown patternText lenient
  rfl

theorem keyTpl_lenient (J : JEnv) : keyTpl (lenient J) = keyTpl J := by
  funext f e t v
  simp only [keyTpl, scalarTpl_lenient]

theorem wrapperTpl_lenient (J : JEnv) : wrapperTpl (lenient J) = wrapperTpl J := by
  funext f e t m v
  simp only [wrapperTpl, scalarTpl_lenient]
  rfl

theorem timestampTpl_lenient (J : JEnv) : timestampTpl (lenient J) = timestampTpl J := by
  funext f r t
  simp only [timestampTpl, lenient]

theorem resolve_message {e : ElemT} {rules : FieldRules} {m : Option MessageRules}
    (hr : resolve e rules = .message m) :
    e.isEmbed = true ∧ rules.type = .unset ∧ rules.message = m := by
  unfold resolve at hr
  cases ht : rules.type with
  | unset => cases he : e.isEmbed <;> simp_all
  | num k r => cases he : e.isEmbed <;> cases k <;> simp_all
  | _ => cases he : e.isEmbed <;> simp_all

theorem resolve_wrapper {e : ElemT} {rules : FieldRules} {t : TypeRules} {m : Option MessageRules}
    (hr : resolve e rules = .wrapper t m) (hm : msgRequired m = true) : RequiresWrapper e rules := by
  unfold resolve at hr
  unfold RequiresWrapper
  cases ht : rules.type with
  | unset => cases he : e.isEmbed <;> simp_all
  | num k r => cases he : e.isEmbed <;> cases k <;> simp_all
  | _ => cases he : e.isEmbed <;> simp_all

theorem elemTpl_splits {J : JEnv} {rec rec' : Val → Run} {f : String} {e : ElemT} {rules : FieldRules}
    {v : Val} (hrec : rec v = .ok () → rec' v = .ok ()) (hw : ¬ RequiresWrapper e rules) :
    Splits (Says f) (fun x => e.isEmbed = true ∧ rules.type = .unset ∧ msgSkip rules.message = false ∧
        rec v = .error x)
      (elemTpl J rec f e rules v) (elemTpl (lenient J) rec' f e rules v) := by
  unfold elemTpl
  cases hr : resolve e rules with
  | none => exact .refl Names.ok
  | message m =>
    obtain ⟨he, ht, rfl⟩ := resolve_message hr
    simp only [messageTpl]
    cases hs : msgSkip rules.message with
    | true => exact .refl Names.ok
    | false =>
      refine .seq (.refl (Names.when .check)) (.when ⟨hrec, fun x hx => .inr ?_⟩)
      exact ⟨he, ht, rfl, hx⟩
  | wrapper t m =>
    simp only [wrapperTpl_lenient]
    refine .refl (?_ : Names f _)
    unfold wrapperTpl
    split
    · exact .scalar
    · cases hm : msgRequired m with
      | true => exact absurd (resolve_wrapper hr hm) hw
      | false => exact .ok
    · exact .ok
  | plain t =>
    simp only [scalarTpl_lenient, timestampTpl_lenient]
    refine .refl (?_ : Names f _)
    split
    · exact .any
    · exact .any
    · exact .duration
    · exact .duration
    · exact .timestamp
    · exact .timestamp
    · exact .scalar
    · exact .ok

theorem renderField_splits {J : JEnv} {rec rec' : Val → Run} {typ : String} {f : FieldDesc} {v : Val}
    (hrec : ∀ w, rec w = .ok () → rec' w = .ok ()) (hw : ∀ e r, HasElem f e r → ¬ RequiresWrapper e r) :
    Splits (Says (fullName typ f.name)) (fun x => ∃ i rules w, HeldBy f v i rules w ∧ rules.type = .unset ∧
        msgSkip rules.message = false ∧ rec w = .error x)
      (renderField J rec typ f v) (renderField (lenient J) rec' typ f v) := by
  obtain ⟨name, ft, rules⟩ := f
  have emb : ∀ {e : ElemT}, e.isEmbed = true → ∃ t k, e = .embed t k := by
    intro e he
    cases e <;> simp [ElemT.isEmbed] at he
    exact ⟨_, _, rfl⟩
  unfold renderField
  cases ft with
  | one e =>
    refine (elemTpl_splits (hrec v) (hw e rules (.inl ⟨rfl, rfl⟩))).mono ?_
    rintro x ⟨he, ht, hs, hx⟩
    obtain ⟨t, k, rfl⟩ := emb he
    exact ⟨none, rules, v, .field rfl, ht, hs, hx⟩
  | rep e =>
    have body : ∀ (r : RepeatedRules) (items : FieldRules) (vs : List Val), itemRules rules = some items →
        Splits (Says (fullName typ name)) (fun x => ∃ i rules' w,
            HeldBy ⟨name, .rep e, rules⟩ (.list vs) i rules' w ∧ rules'.type = .unset ∧
            msgSkip rules'.message = false ∧ rec w = .error x)
          (repeatedTpl J rec (fullyQualified typ name) e r items vs)
          (repeatedTpl (lenient J) rec' (fullyQualified typ name) e r items vs) := by
      intro r items vs hi
      unfold repeatedTpl
      have : Splits (Says (fullName typ name)) (fun x => ∃ i rules' w,
            HeldBy ⟨name, .rep e, rules⟩ (.list vs) i rules' w ∧ rules'.type = .unset ∧
            msgSkip rules'.message = false ∧ rec w = .error x)
          (Java.forEach vs fun v => elemTpl J rec (fullyQualified typ name) e items v)
          (Java.forEach vs fun v => elemTpl (lenient J) rec' (fullyQualified typ name) e items v) := by
        refine .forEach vs fun v hv => (elemTpl_splits (hrec v) (hw e items (.inr (.inl ⟨rfl, hi⟩)))).mono ?_
        rintro x ⟨he, ht, hs, hx⟩
        obtain ⟨t, k, rfl⟩ := emb he
        obtain ⟨n, hn⟩ := List.getElem?_of_mem hv
        exact ⟨some (.pos n), items, v, .item rfl hi hn, ht, hs, hx⟩
      refine .ite (.when ?_) ?_
      all_goals
        exact .seq (.refl (Names.when .check)) (.seq (.refl (Names.when .check))
          (.seq (.refl (Names.when (.unique _ _))) this))
    cases v with
    | list vs =>
      cases ht : rules.type with
      | repeated r items => simp only [ht]; exact body r items vs (by simp [itemRules, ht])
      | unset => simp only [ht]; exact body {} .absent vs (by simp [itemRules, ht])
      | _ => simp only [ht]; exact .refl Names.ok
    | _ => exact .refl Names.ok
  | map kt vt =>
    have body : ∀ (r : MapRules) (keys values : FieldRules) (kvs : List (Scalar × Val)),
        valueRules rules = some values →
        Splits (Says (fullName typ name)) (fun x => ∃ i rules' w,
            HeldBy ⟨name, .map kt vt, rules⟩ (.map kvs) i rules' w ∧ rules'.type = .unset ∧
            msgSkip rules'.message = false ∧ rec w = .error x)
          (mapTpl J rec (fullyQualified typ name) kt vt r keys values kvs)
          (mapTpl (lenient J) rec' (fullyQualified typ name) kt vt r keys values kvs) := by
      intro r keys values kvs hi
      unfold mapTpl
      have : Splits (Says (fullName typ name)) (fun x => ∃ i rules' w,
            HeldBy ⟨name, .map kt vt, rules⟩ (.map kvs) i rules' w ∧ rules'.type = .unset ∧
            msgSkip rules'.message = false ∧ rec w = .error x)
          (Java.forEach (J.order kvs) fun kv => elemTpl J rec (fullyQualified typ name) vt values kv.2)
          (Java.forEach (J.order kvs) fun kv =>
            elemTpl (lenient J) rec' (fullyQualified typ name) vt values kv.2) := by
        refine .forEach _ fun kv hv =>
          (elemTpl_splits (hrec kv.2) (hw vt values (.inr (.inr ⟨kt, rfl, hi⟩)))).mono ?_
        rintro x ⟨he, ht, hs, hx⟩
        obtain ⟨t, k, rfl⟩ := emb he
        exact ⟨some (.key kv.1), values, kv.2, .value rfl hi ((J.order_perm kvs).mem_iff.1 hv), ht, hs, hx⟩
      have keysOk : Splits (Says (fullName typ name)) (fun x => ∃ i rules' w,
            HeldBy ⟨name, .map kt vt, rules⟩ (.map kvs) i rules' w ∧ rules'.type = .unset ∧
            msgSkip rules'.message = false ∧ rec w = .error x)
          (Java.forEach (J.order kvs) fun kv => keyTpl J (fullyQualified typ name) kt keys kv.1)
          (Java.forEach (J.order kvs) fun kv => keyTpl (lenient J) (fullyQualified typ name) kt keys kv.1) := by
        rw [keyTpl_lenient]
        exact .forEach _ fun kv _ => .refl Names.key
      refine .ite (.when ?_) ?_
      all_goals
        exact .seq (.refl (Names.when .check)) (.seq (.refl (Names.when .check))
          (.seq (.refl (Names.when .unimplemented)) (.when (.seq keysOk this))))
    cases v with
    | map kvs =>
      cases ht : rules.type with
      | map r keys values => simp only [ht]; exact body r keys values kvs (by simp [valueRules, ht])
      | unset =>
        simp only [ht]
        refine .ite ?_ (.refl Names.ok)
        exact body {} .absent .absent kvs (by simp [valueRules, ht])
      | _ => simp only [ht]; exact .refl Names.ok
    | _ => exact .refl Names.ok

/-! ### Messages -/

/-- `S'` keeps some of the fields of `S`. -/
def Weaker (S S' : Schema) : Prop :=
  ∀ t, (∀ d', S' t ≠ .generated d') ∨ ∃ d d', S t = .generated d ∧ d.ignored = false ∧ d.disabled = false ∧
    S' t = .generated d' ∧ (∀ f ∈ d'.fields, f ∈ d.fields) ∧
    ∀ o' ∈ d'.oneofs, ∃ o ∈ d.oneofs, o.name = o'.name ∧ o'.required = false ∧
      ∀ m f, o'.fields.find? (fun f => f.name == m) = some f → o.fields.find? (fun f => f.name == m) = some f

theorem fuel_weaker {J : JEnv} {S S' : Schema} (hS : NoRequiredWrappers S) (hw : Weaker S S') (n : Nat) :
    ∀ v, assertFuel J S n v = .ok () → assertFuel (lenient J) S' n v = .ok () := by
  induction n with
  | zero => intro v _; rfl
  | succ n ih =>
    intro v h
    unfold assertFuel assertStep at h ⊢
    cases v with
    | msg typ fs os =>
      rcases hw typ with hn | ⟨d, d', h1, hi, hd, h2, hf, ho⟩
      · cases h' : S' typ with
        | generated d' => exact absurd h' (hn d')
        | _ => simp only [h']; rfl
      · simp only [h1, h2, hi, hd, Bool.false_eq_true, if_false, seq_ok, forEach_ok] at h ⊢
        split
        · rfl
        · split
          · rfl
          · rw [seq_ok, forEach_ok, forEach_ok]
            refine ⟨fun f hf' => ?_, fun o' ho' => ?_⟩
            · exact (renderField_splits ih fun e r he => hS typ d f e r h1 (.inl (hf f hf')) he).ok
                (h.1 f (hf f hf'))
            · obtain ⟨o, hom, hnm, hreq, hfind⟩ := ho o' ho'
              have hoo := h.2 o hom
              unfold oneofTpl at hoo ⊢
              rw [hnm] at hoo
              cases hl : os.lookup o'.name with
              | none => simp [hreq]
              | some mu =>
                obtain ⟨m, u⟩ := mu
                simp only [hl] at hoo ⊢
                cases hf2 : o'.fields.find? (fun f => f.name == m) with
                | none => rfl
                | some f =>
                  simp only [hfind m f hf2] at hoo
                  refine (renderField_splits ih fun e r he => hS typ d f e r h1 (.inr ⟨o, hom, ?_⟩) he).ok hoo
                  exact List.mem_of_find?_eq_some (hfind m f hf2)
    | _ => rfl

theorem valid_weaker {J : JEnv} {S S' : Schema} (hS : NoRequiredWrappers S) (hw : Weaker S S') (v : Val)
    (h : assertValid J S v = .ok ()) : assertValid (lenient J) S' v = .ok () :=
  fuel_weaker hS hw _ v h

theorem soleField_weaker {S : Schema} {typ : String} {d : MsgDesc} {f : FieldDesc} (hS : S typ = .generated d)
    (hi : d.ignored = false) (hd : d.disabled = false) (hf : f ∈ d.fields) : Weaker S (soleField typ f) := by
  intro t
  unfold soleField
  by_cases ht : t = typ
  · subst ht
    refine .inr ⟨d, _, hS, hi, hd, if_pos rfl, ?_, ?_⟩
    · simpa using hf
    · simp
  · refine .inl fun d' => ?_
    simp [ht]

theorem soleMember_weaker {S : Schema} {typ : String} {d : MsgDesc} {o : OneofDesc} {f : FieldDesc}
    (hS : S typ = .generated d) (hi : d.ignored = false) (hd : d.disabled = false) (ho : o ∈ d.oneofs)
    (hf : o.fields.find? (fun g => g.name == f.name) = some f) : Weaker S (soleMember typ o f) := by
  intro t
  unfold soleMember
  by_cases ht : t = typ
  · subst ht
    refine .inr ⟨d, _, hS, hi, hd, if_pos rfl, ?_, ?_⟩
    · simp
    · intro o' ho'
      simp only [List.mem_singleton] at ho'
      subst ho'
      refine ⟨o, ho, rfl, rfl, ?_⟩
      intro m g hg
      simp only [List.find?_cons, List.find?_nil] at hg
      split at hg
      · rename_i hm
        have hgf := Option.some.inj hg
        have : f.name = m := by simpa using hm
        rw [← this, ← hgf]
        exact hf
      · cases hg
  · refine .inl fun d' => ?_
    simp [ht]

theorem fieldAlone_eq (J : JEnv) (typ : String) (f : FieldDesc) (v : Val) :
    fieldAlone J typ f v = renderField (lenient J) (assertValid (lenient J) (soleField typ f)) typ f v := by
  unfold fieldAlone
  rw [assertValid_eq]
  have hS : soleField typ f typ = .generated { name := typ, fields := [f] } := if_pos rfl
  simp only [assertStep, hS, Bool.false_eq_true, if_false, forEach, Go.getField_single]
  cases renderField (lenient J) (assertValid (lenient J) (soleField typ f)) typ f v <;> rfl

theorem memberAlone_eq (J : JEnv) (typ : String) (o : OneofDesc) (f : FieldDesc) (v : Val) :
    memberAlone J typ o f v =
      renderField (lenient J) (assertValid (lenient J) (soleMember typ o f)) typ f v := by
  unfold memberAlone
  rw [assertValid_eq]
  have hS : soleMember typ o f typ = .generated
      { name := typ, oneofs := [{ name := o.name, required := false, fields := [f] }] } := if_pos rfl
  simp only [assertStep, hS, Bool.false_eq_true, if_false, forEach, oneofTpl, List.lookup_cons, beq_self_eq_true,
    List.find?_cons]
  cases renderField (lenient J) (assertValid (lenient J) (soleMember typ o f)) typ f v <;> rfl

theorem forEach_error {α : Type} {f : α → Run} {xs : List α} {e : JErr} (h : forEach xs f = .error e) :
    ∃ pre x post, xs = pre ++ x :: post ∧ (∀ y ∈ pre, f y = .ok ()) ∧ f x = .error e := by
  induction xs with
  | nil => cases h
  | cons x xs ih =>
    unfold forEach seq at h
    cases hx : f x with
    | error e' =>
      rw [hx] at h
      cases h
      exact ⟨[], x, xs, rfl, by simp, hx⟩
    | ok u =>
      rw [hx] at h
      obtain ⟨pre, y, post, rfl, h1, h2⟩ := ih h
      refine ⟨x :: pre, y, post, rfl, ?_, h2⟩
      intro z hz
      rcases List.mem_cons.1 hz with rfl | hz
      · exact hx
      · exact h1 z hz

theorem seq_error {a b : Run} {e : JErr} (h : a ⊳ b = .error e) :
    a = .error e ∨ (a = .ok () ∧ b = .error e) := by
  unfold seq at h
  cases a with
  | ok u => exact .inr ⟨rfl, h⟩
  | error e' => exact .inl h

theorem not_validated {J : JEnv} {S : Schema} {v : Val} (h : ¬ Validated S v) : assertValid J S v = J.other v := by
  rw [assertValid_eq]
  unfold assertStep
  cases v with
  | msg typ fs os =>
    cases hT : S typ with
    | generated d =>
      cases hi : d.ignored with
      | false => exact absurd ⟨typ, fs, os, d, rfl, hT, hi⟩ h
      | true => simp [hT, hi]
    | _ => simp [hT]
  | _ => rfl

theorem HeldBy.depth_le {f : FieldDesc} {u w : Val} {i : Option Go.Idx} {r : FieldRules} (h : HeldBy f u i r w) :
    depth w ≤ depth u := by
  cases h with
  | field => exact Nat.le_refl _
  | item _ _ hm =>
    have := Go.depthList_mem (List.mem_of_getElem? hm)
    simp only [depth]
    omega
  | value _ _ hm =>
    have := Go.depthMap_mem hm
    simp only at this
    simp only [depth]
    omega

theorem held_depth {S : Schema} {typ : String} {fs : List (String × Val)} {os : List (String × String × Val)}
    {d : MsgDesc} {f : FieldDesc} {u w : Val} {i : Option Go.Idx} {r : FieldRules} (ha : Active d fs os f u)
    (hh : HeldBy f u i r w) (hv : Validated S w) : depth w < depth (.msg typ fs os) := by
  have h1 := HeldBy.depth_le hh
  cases ha with
  | field =>
    unfold getField at hh h1
    cases hl : fs.lookup f.name with
    | some u =>
      have := Go.depthFields_lookup hl
      rw [hl] at h1
      simp only [Option.getD_some] at h1
      simp only [depth]
      omega
    | none =>
      obtain ⟨t, fs', os', d', rfl, -, -⟩ := hv
      rw [hl] at hh
      simp only [Option.getD_none] at hh
      generalize hz : f.typ.zero = z at hh
      cases hh with
      | field hf => rw [hf] at hz; cases hz
      | item hf _ hm => rw [hf] at hz; cases hz; simp at hm
      | value hf _ hm => rw [hf] at hz; cases hz; simp at hm
  | member _ hl _ =>
    have := Go.depthOneofs_lookup hl
    simp only [depth]
    omega

/-- Where exceptions come from. -/
theorem error_source {J : JEnv} {S : Schema} (hS : NoRequiredWrappers S) {e : JErr} (n : Nat) :
    ∀ v, depth v ≤ n → assertValid J S v = .error e →
      (∃ u, Nested S v u ∧ Blames J S u e) ∨ ∃ w, ¬ Validated S w ∧ J.other w = .error e := by
  induction n with
  | zero => intro v hv; have := Go.depth_pos v; omega
  | succ n ih =>
    intro v hv h
    by_cases hval : Validated S v
    · rw [assertValid_eq] at h
      obtain ⟨typ, fs, os, d, rfl, hT, hi⟩ := hval
      unfold assertStep at h
      simp only [hT, hi, Bool.false_eq_true, if_false] at h
      cases hd : d.disabled with
      | true => simp [hd] at h
      | false =>
        simp only [hd, Bool.false_eq_true, if_false] at h
        have inner : ∀ f u, Active d fs os f u →
            (∃ i rules w, HeldBy f u i rules w ∧ rules.type = .unset ∧ msgSkip rules.message = false ∧
              assertValid J S w = .error e) →
            (∃ u, Nested S (.msg typ fs os) u ∧ Blames J S u e) ∨
              ∃ w, ¬ Validated S w ∧ J.other w = .error e := by
          rintro f u ha ⟨i, rules, w, hh, ht, hs, he⟩
          by_cases hvw : Validated S w
          · have := held_depth (typ := typ) ha hh hvw
            rcases ih w (by omega) he with ⟨x, hx, hb⟩ | hother
            · exact .inl ⟨x, .inner (.mk hT hd ha hh ht hs hvw) hx, hb⟩
            · exact .inr hother
          · exact .inr ⟨w, hvw, by rw [← not_validated hvw]; exact he⟩
        have splitF : ∀ f ∈ d.fields, Splits (Says (fullName typ f.name)) (fun x => ∃ i rules w,
              HeldBy f (getField fs f) i rules w ∧ rules.type = .unset ∧
              msgSkip rules.message = false ∧ assertValid J S w = .error x)
            (renderField J (assertValid J S) typ f (getField fs f)) (fieldAlone J typ f (getField fs f)) := by
          intro f hf
          rw [fieldAlone_eq]
          exact renderField_splits (valid_weaker hS (soleField_weaker hT hi hd hf))
            fun e r he => hS typ d f e r hT (.inl hf) he
        have splitO : ∀ o ∈ d.oneofs, ∀ m u f, os.lookup o.name = some (m, u) →
            o.fields.find? (fun f => f.name == m) = some f →
            Splits (Says (fullName typ f.name)) (fun x => ∃ i rules w,
              HeldBy f u i rules w ∧ rules.type = .unset ∧
              msgSkip rules.message = false ∧ assertValid J S w = .error x)
            (renderField J (assertValid J S) typ f u) (memberAlone J typ o f u) := by
          intro o ho m u f hl hf
          rw [memberAlone_eq]
          have hnm : f.name = m := by simpa using List.find?_some hf
          exact renderField_splits (valid_weaker hS (soleMember_weaker hT hi hd ho (by rw [hnm]; exact hf)))
            fun e r he => hS typ d f e r hT (.inr ⟨o, ho, List.mem_of_find?_eq_some hf⟩) he
        have fine : ∀ o ∈ d.oneofs, oneofTpl J (assertValid J S) typ o (os.lookup o.name) = .ok () →
            OneofFine J typ os o := by
          intro o ho hok
          unfold oneofTpl at hok
          refine ⟨?_, ?_⟩
          · intro hl
            simpa [hl, required] using hok
          · intro f u hset
            unfold setMember at hset
            cases hl : os.lookup o.name with
            | none => simp [hl] at hset
            | some mu =>
              obtain ⟨m, u'⟩ := mu
              simp only [hl, Option.map_eq_some_iff, Prod.mk.injEq] at hset hok
              obtain ⟨g, hg, rfl, rfl⟩ := hset
              simp only [hg] at hok
              exact (splitO o ho m u' g hl hg).ok hok
        rcases seq_error h with h | ⟨hok, h⟩
        · obtain ⟨pre, f, post, hsplit, hpre, hf⟩ := forEach_error h
          have hmem : f ∈ d.fields := by rw [hsplit]; simp
          rcases (splitF f hmem).err e hf with ⟨hb, hn⟩ | hP
          · refine .inl ⟨_, .self _, .field hT hd hsplit (fun g hg => ?_) hb hn⟩
            exact (splitF g (by rw [hsplit]; simp [hg])).ok (hpre g hg)
          · exact inner f _ (.field hmem) hP
        · have hfs : ∀ g ∈ d.fields, fieldAlone J typ g (getField fs g) = .ok () := by
            intro g hg
            rw [forEach_ok] at hok
            exact (splitF g hg).ok (hok g hg)
          obtain ⟨pre, o, post, hsplit, hpre, ho⟩ := forEach_error h
          have hmem : o ∈ d.oneofs := by rw [hsplit]; simp
          have hfine : ∀ p ∈ pre, OneofFine J typ os p := fun p hp =>
            fine p (by rw [hsplit]; simp [hp]) (hpre p hp)
          unfold oneofTpl at ho
          cases hl : os.lookup o.name with
          | none =>
            simp only [hl] at ho
            cases hr : o.required with
            | false => simp [hr, when] at ho
            | true =>
              simp only [hr, when, if_true, required, check, Bool.false_eq_true, if_false,
                Except.error.injEq] at ho
              subst ho
              exact .inl ⟨_, .self _, .oneof hT hd hfs hsplit hfine hl hr⟩
          | some mu =>
            obtain ⟨m, u⟩ := mu
            simp only [hl] at ho
            cases hf : o.fields.find? (fun f => f.name == m) with
            | none => simp [hf] at ho
            | some f =>
              simp only [hf] at ho
              rcases (splitO o hmem m u f hl hf).err e ho with ⟨hb, hn⟩ | hP
              · refine .inl ⟨_, .self _, .member hT hd hfs hsplit hfine (f := f) (v := u) ?_ hb hn⟩
                simp [setMember, hl, hf]
              · exact inner f u (.member hmem hl hf) hP
    · exact .inr ⟨v, hval, by rw [← not_validated hval]; exact h⟩

end PGV.Java
