import Verif.Lemmas.Tpl

/-!
Embedded messages, wrappers, elements, repeated and map fields, oneofs and whole methods against
the declarative meaning of their rules.
-/

set_option linter.unusedSimpArgs false

namespace PGV.Go
open PGV Exec PGV.Spec

/-- `Validate` and `ValidateAll` of an embedded message agree. -/
def RecOk (rec : Rec) : Prop :=
  ∀ v, match rec false v, rec true v with
    | none, none => True
    | some e, some (.multi _ (e' :: _)) => FirstOf e e'
    | _, _ => False

/-- An error raised at the field, with any index, and not marked as a key error. -/
def AtField (msg field : String) (e : Err) : Prop :=
  ∃ i reason cause, e = .viol msg ⟨field, i⟩ reason cause false

theorem From.atField {c : Ctx} (hk : c.onKey = false) {e : Err} (h : From c e) :
    AtField c.msg c.field e := by
  obtain ⟨r, x, rfl⟩ := h
  exact ⟨_, r, x, by rw [hk]⟩

theorem isNull_iff (v : Val) : Val.isNull v = true ↔ v = .null := by
  cases v <;> simp [Val.isNull]

theorem isNull_false_iff (v : Val) : Val.isNull v = false ↔ v ≠ .null := by
  cases v <;> simp [Val.isNull]

theorem message_ok (E : Env) (S : Schema) (rec : Rec) (hr : RecOk rec) (c : Ctx)
    (m : Option MessageRules) (v : Val) :
    Ok (From c) (fun all => messageTpl E S all rec c m v)
      ((msgRequired m = true → v ≠ .null) ∧
       (msgSkip m = false → EmbeddedOk E S (fun v => rec false v = none) v)) := by
  refine Ok.seq ((required_ok c (msgRequired m) (Val.isNull v)).iff (by rw [isNull_false_iff])) ?_
  cases msgSkip m with
  | true => exact Ok.skip.iff (by simp)
  | false =>
    simp only [forall_const, Bool.false_eq_true, if_false]
    cases v with
    | msg typ fs os =>
      cases hS : S typ with
      | generated d =>
        cases hi : d.ignored with
        | true =>
          refine (Ok.skip.congr ?_).iff (by simp [EmbeddedOk, hS, hi])
          intro a acc; cases a <;> simp [methods, hS, hi]
        | false =>
          have h := hr (.msg typ fs os)
          cases hf : rec false (.msg typ fs os) with
          | none =>
            cases ht : rec true (.msg typ fs os) with
            | none =>
              refine (Ok.skip.congr ?_).iff (by simp [EmbeddedOk, hS, hi, hf])
              intro a acc; cases a <;> simp [methods, hS, hi, hf, ht]
            | some e => simp [hf, ht] at h
          | some e =>
            cases ht : rec true (.msg typ fs os) with
            | none => simp [hf, ht] at h
            | some e' =>
              cases e' with
              | multi n es =>
                cases es with
                | nil => simp [hf, ht] at h
                | cons e' es =>
                  simp only [hf, ht] at h
                  refine (Ok.mk' (some (errCause c e [.s "embedded message failed validation"]))
                    [errCause c (.multi n (e' :: es)) [.s "embedded message failed validation"]]
                    ?_ ?_ ?_ ?_ ?_).1
                  · intro acc; simp [methods, hS, hi, ht, append]
                  · intro acc; simp [methods, hS, hi, hf, ret]
                  · exact FirstOf.nested h
                  · simp [EmbeddedOk, hS, hi, hf]
                  · simp [from_errCause]
              | viol => simp [hf, ht] at h
              | lib => simp [hf, ht] at h
      | legacy =>
        cases hl : E.legacy (.msg typ fs os) with
        | none =>
          refine (Ok.skip.congr ?_).iff (by simp [EmbeddedOk, hS, hl])
          intro a acc; cases a <;> simp [methods, hS, hl]
        | some e =>
          refine ((Ok.report (from_errCause c e
            [.s "embedded message failed validation"])).congr ?_).iff (by simp [EmbeddedOk, hS, hl])
          intro a acc
          cases a <;> simp [methods, hS, hl, report, ret, append]
      | foreign =>
        refine (Ok.skip.congr ?_).iff (by simp [EmbeddedOk, hS])
        intro a acc; cases a <;> simp [methods, hS]
    | _ =>
      refine (Ok.skip.congr ?_).iff (by simp [EmbeddedOk])
      intro a acc; cases a <;> rfl

theorem scalar_ok (E : Env) (c : Ctx) (e : ElemT) (t : TypeRules) (v : Scalar) :
    Ok (From c) (fun all => scalarTpl E all c e t v) (ScalarOk E e t v) := by
  cases t <;> cases v <;> first
    | exact num_ok c _ _
    | exact bool_ok c _ _
    | exact str_ok E c _ _
    | exact bytes_ok E c _ _
    | (cases e <;> first
        | exact enum_ok c _ _ _
        | exact Ok.skip)

/-- Where an element's errors are raised: at the element's context, or, for the value inside a
wrapper message, at the same field without index. -/
def Near (c : Ctx) (e : Err) : Prop := From c e ∨ From { c with index := none, onKey := false } e

theorem Near.atField {c : Ctx} (hk : c.onKey = false) {e : Err} (h : Near c e) :
    AtField c.msg c.field e := by
  rcases h with h | h
  · exact h.atField hk
  · exact From.atField (c := { c with index := none, onKey := false }) rfl h

theorem wrapper_ok (E : Env) (c : Ctx) (e : ElemT) (t : TypeRules) (m : Option MessageRules)
    (v : Val) :
    Ok (Near c) (fun all => wrapperTpl E all c e t m v)
      (match v with
       | .wrapper s => ScalarOk E e t s
       | .null => msgRequired m = false
       | _ => True) := by
  unfold wrapperTpl
  split
  · exact (scalar_ok E _ e t _).mono (fun _ h => Or.inr h)
  · refine (Ok.check (from_err c _)).mono (fun _ h => Or.inl h)
  · split <;> simp_all
    exact Ok.skip

theorem elem_ok (E : Env) (S : Schema) (rec : Rec) (hr : RecOk rec) (c : Ctx) (e : ElemT)
    (rules : FieldRules) (v : Val) :
    Ok (Near c) (fun all => elemTpl E S all rec c e rules v)
      (ValueOk E S (fun v => rec false v = none) e rules v) := by
  have near : ∀ e, From c e → Near c e := fun _ h => Or.inl h
  have plain : ∀ t, (∀ r, t ≠ .any r) → (∀ r, t ≠ .duration r) → (∀ r, t ≠ .timestamp r) →
      Ok (Near c) (fun all => match t, v with
        | .any r, .any url _ => anyTpl all c r (some url)
        | .any r, .null => anyTpl all c r none
        | .duration r, .dur d => durationTpl all c r (some d)
        | .duration r, .null => durationTpl all c r none
        | .timestamp r, .ts t => timestampTpl E.now all c r (some t)
        | .timestamp r, .null => timestampTpl E.now all c r none
        | t, .sc s => scalarTpl E all c e t s
        | _, _ => skip)
      (match (generalizing := false) v with
       | .sc s => ScalarOk E e t s
       | _ => True) := by
    intro t h1 h2 h3
    cases v with
    | sc s =>
      refine ((scalar_ok E c e t s).mono near).congr ?_
      intro a acc
      cases t <;> first | rfl | exact absurd rfl (h1 _) | exact absurd rfl (h2 _) |
        exact absurd rfl (h3 _)
    | _ =>
      refine Ok.skip.congr ?_
      intro a acc
      cases t <;> first | rfl | exact absurd rfl (h1 _) | exact absurd rfl (h2 _) |
        exact absurd rfl (h3 _)
  unfold elemTpl resolve ValueOk
  cases ht : rules.type with
  | unset =>
    cases he : e.isEmbed with
    | true => exact ((message_ok E S rec hr c rules.message v).mono near).iff (by simp)
    | false => exact Ok.skip.iff (by simp)
  | any r =>
    cases v with
    | any url val => exact (any_ok c r (some url)).mono near
    | null => exact (any_ok c r none).mono near
    | sc s => exact (Ok.skip.congr (y := fun all => _) (fun a acc => by cases s <;> rfl))
    | _ => exact Ok.skip
  | duration r =>
    cases v with
    | dur d => exact (duration_ok c r (some d)).mono near
    | null => exact (duration_ok c r none).mono near
    | sc s => exact (Ok.skip.congr (y := fun all => _) (fun a acc => by cases s <;> rfl))
    | _ => exact Ok.skip
  | timestamp r =>
    cases v with
    | ts d => exact (timestamp_ok E.now c r (some d)).mono near
    | null => exact (timestamp_ok E.now c r none).mono near
    | sc s => exact (Ok.skip.congr (y := fun all => _) (fun a acc => by cases s <;> rfl))
    | _ => exact Ok.skip
  | enum r =>
    exact (plain (.enum r) (by simp) (by simp) (by simp)).iff (by cases v <;> simp [WrapperKind])
  | repeated r i =>
    exact (plain (.repeated r i) (by simp) (by simp) (by simp)).iff (by cases v <;> simp [WrapperKind])
  | map r i j =>
    exact (plain (.map r i j) (by simp) (by simp) (by simp)).iff (by cases v <;> simp [WrapperKind])
  | bool r =>
    cases he : e.isEmbed with
    | true => exact (wrapper_ok E c e (.bool r) rules.message v).iff (by cases v <;> simp [WrapperKind])
    | false => exact (plain (.bool r) (by simp) (by simp) (by simp)).iff (by cases v <;> simp)
  | string r =>
    cases he : e.isEmbed with
    | true => exact (wrapper_ok E c e (.string r) rules.message v).iff (by cases v <;> simp [WrapperKind])
    | false => exact (plain (.string r) (by simp) (by simp) (by simp)).iff (by cases v <;> simp)
  | bytes r =>
    cases he : e.isEmbed with
    | true => exact (wrapper_ok E c e (.bytes r) rules.message v).iff (by cases v <;> simp [WrapperKind])
    | false => exact (plain (.bytes r) (by simp) (by simp) (by simp)).iff (by cases v <;> simp)
  | num k r =>
    have P := plain (.num k r) (by simp) (by simp) (by simp)
    have W := wrapper_ok E c e (.num k r) rules.message v
    cases he : e.isEmbed with
    | true =>
      cases k <;> first
        | exact W.iff (by cases v <;> simp [WrapperKind])
        | exact P.iff (by cases v <;> simp [WrapperKind])
    | false => cases k <;> exact P.iff (by cases v <;> simp)

theorem elemTypNotNone_false {e : ElemT} {rules : FieldRules} (h : elemTypNotNone e rules = false) :
    rules.type = .unset ∧ e.isEmbed = false := by
  unfold elemTypNotNone resolve at h
  cases ht : rules.type with
  | unset => cases he : e.isEmbed <;> simp_all
  | num k r => cases he : e.isEmbed <;> cases k <;> simp_all
  | _ => cases he : e.isEmbed <;> simp_all

/-- The shape shared by the count rules of lists and maps. -/
theorem count_ok {W : Err → Prop} (min max : Option Nat) (n : Nat) (e1 e2 e3 e4 : Err)
    (h1 : W e1) (h2 : W e2) (h3 : W e3) (h4 : W e4) :
    Ok W (fun all =>
      if optN min != 0 then
        if optN min == optN max then Exec.when (n != optN min) (report all e1)
        else if max.isSome then
          Exec.when (decide (n < optN min) || decide (n > optN max)) (report all e2)
        else Exec.when (decide (n < optN min)) (report all e3)
      else if max.isSome then Exec.when (decide (n > optN max)) (report all e4)
      else skip) (CountOk min max n) := by
  refine (Ok.ite (Ok.ite (Ok.check h1) (Ok.ite (Ok.check h2) (Ok.check h3)))
    (Ok.ite (Ok.check h4) Ok.skip)).iff ?_
  simp only [bne_iff_ne, beq_iff_eq, bne_eq_false_iff_eq, Bool.or_eq_false_iff,
    decide_eq_false_iff_not]
  unfold CountOk
  cases min <;> cases max <;> simp [optN] <;> omega

theorem repLoop_ok {W : Err → Prop} (unique : Bool) (c : Ctx) (item : Nat → Val → Bool → Exec)
    (P : Val → Prop) (hd : ∀ i, W (errIdx c (.pos i) [.s "repeated value must contain unique items"]))
    (vs : List Val) (hi : ∀ i, ∀ v ∈ vs, Ok W (item i v) (P v)) (idx : Nat) (seen : List Val) :
    Ok W (fun all => repLoop all unique c (fun i v => item i v all) idx seen vs)
      ((unique = true → (∀ v ∈ vs, ∀ w ∈ seen, keyEq w v = false) ∧
          vs.Pairwise (fun a b => keyEq a b = false)) ∧ ∀ v ∈ vs, P v) := by
  induction vs generalizing idx seen with
  | nil => exact Ok.skip.iff (by simp)
  | cons v vs ih =>
    have h := Ok.seq (Ok.check (W := W) (b := unique && seen.any (fun w => keyEq w v)) (hd idx))
      (Ok.seq (hi idx v (by simp)) (ih (fun i w hw => hi i w (by simp [hw])) (idx + 1)
        (if unique && !(unique && seen.any (fun w => keyEq w v)) then v :: seen else seen)))
    refine (h.congr (fun _ _ => rfl)).iff ?_
    cases unique with
    | false => simp
    | true =>
      simp only [Bool.true_and, forall_const]
      cases hdup : seen.any (fun w => keyEq w v) with
      | true =>
        simp only [Bool.true_eq_false, false_and, false_iff]
        intro ⟨⟨h1, _⟩, _⟩
        obtain ⟨w, hw, hk⟩ := List.any_eq_true.1 hdup
        have := h1 v (by simp) w hw
        simp_all
      | false =>
        simp only [Bool.not_false, if_true, true_and]
        have hs : ∀ w ∈ seen, keyEq w v = false := by
          intro w hw
          cases hk : keyEq w v with
          | false => rfl
          | true =>
            have : seen.any (fun w => keyEq w v) = true := List.any_eq_true.2 ⟨w, hw, hk⟩
            simp_all
        simp only [List.mem_cons, List.pairwise_cons, forall_eq_or_imp]
        constructor
        · rintro ⟨a, ⟨b, d⟩, f⟩
          exact ⟨⟨⟨hs, fun v hv w hw => (b v hv).2 w hw⟩, fun w hw => (b w hw).1, d⟩, a, f⟩
        · rintro ⟨⟨⟨_, b⟩, d, g⟩, a, f⟩
          exact ⟨a, ⟨fun w hw => ⟨d w hw, fun u hu => b w hw u hu⟩, g⟩, f⟩

theorem keyEq_iff (a b : Val) : keyEq a b = true ↔ SameItem a b := by
  unfold keyEq SameItem
  split <;> simp_all [Num.eq_iff]

theorem keyEq_false_iff (a b : Val) : keyEq a b = false ↔ ¬ SameItem a b := by
  rw [← keyEq_iff]; simp

theorem rep_ok (E : Env) (S : Schema) (rec : Rec) (hr : RecOk rec) (c : Ctx) (hk : c.onKey = false)
    (e : ElemT) (r : RepeatedRules) (items : FieldRules) (vs : List Val) :
    Ok (AtField c.msg c.field) (fun all => repTpl E S all rec c e r items vs)
      (RepeatedOk E S (fun v => rec false v = none) e r items vs) := by
  have atf : ∀ x, AtField c.msg c.field (err c x) := fun x => (from_err c x).atField hk
  refine (ignoreEmpty_ok r.ignoreEmpty (decide (vs.length > 0)) (vs = []) (by simp)
    (Ok.seq (count_ok r.minItems r.maxItems vs.length _ _ _ _ (atf _) (atf _) (atf _) (atf _))
      (Ok.ite (repLoop_ok (optB r.unique) c
        (fun idx v all => elemTpl E S all rec { c with index := some (.pos idx) } e items v) _ ?_ vs
        (fun i v _ => (elem_ok E S rec hr _ e items v).mono ?_) 0 []) Ok.skip))).iff ?_
  · intro i; exact ⟨_, _, _, by rw [← hk]; rfl⟩
  · intro x hx; exact Near.atField (c := { c with index := some (.pos i) }) hk hx
  · unfold RepeatedOk
    simp only [optB_iff, keyEq_false_iff, List.not_mem_nil, false_imp_iff, implies_true, true_and]
    rw [and_true]
    cases hn : elemTypNotNone e items with
    | true => simp
    | false =>
      obtain ⟨ht, he⟩ := elemTypNotNone_false hn
      have hv : ∀ v, ValueOk E S (fun v => rec false v = none) e items v := by
        intro v; unfold ValueOk; rw [ht]; simp [he]
      simp only [hv, implies_true, and_true, Bool.or_false, optB_iff]
      by_cases hu : r.unique = some true <;> simp [hu]

theorem keyTpl_ok (E : Env) (c : Ctx) (e : ElemT) (rules : FieldRules) (k : Scalar) :
    Ok (From c) (fun all => keyTpl E all c e rules k) (ScalarOk E e rules.type k) := by
  unfold keyTpl
  have h := scalar_ok E c e rules.type k
  split
  · rename_i ht; exact Ok.skip.iff (by simp [ht, ScalarOk])
  · exact h

theorem mapEntry_ok (E : Env) (S : Schema) (rec : Rec) (hr : RecOk rec) (c : Ctx)
    (hk : c.onKey = false) (kt vt : ElemT) (r : MapRules) (keys values : FieldRules)
    (kv : Scalar × Val) :
    Ok (AtField c.msg c.field) (fun all => mapEntry E S all rec c kt vt r keys values kv)
      ((r.noSparse = some true → kv.2 ≠ .null) ∧ ScalarOk E kt keys.type kv.1 ∧
        ValueOk E S (fun v => rec false v = none) vt values kv.2) := by
  refine Ok.seq ((Ok.check ?_).iff ?_) (Ok.seq ((keyTpl_ok E _ kt keys kv.1).mono ?_)
    ((elem_ok E S rec hr _ vt values kv.2).mono ?_))
  · exact ⟨_, _, _, by rw [← hk]; rfl⟩
  · rw [← optB_iff, ← isNull_false_iff]
    cases optB r.noSparse <;> simp
  · intro x hx; exact From.atField (c := { c with index := some (.key kv.1) }) hk hx
  · intro x hx; exact Near.atField (c := { c with index := some (.key kv.1) }) hk hx

theorem map_ok (E : Env) (S : Schema) (rec : Rec) (hr : RecOk rec) (c : Ctx) (hk : c.onKey = false)
    (kt vt : ElemT) (r : MapRules) (keys values : FieldRules) (kvs : List (Scalar × Val)) :
    Ok (AtField c.msg c.field) (fun all => mapTpl E S all rec c kt vt r keys values kvs)
      (MapOk E S (fun v => rec false v = none) kt vt r keys values kvs) := by
  have atf : ∀ x, AtField c.msg c.field (err c x) := fun x => (from_err c x).atField hk
  refine (ignoreEmpty_ok r.ignoreEmpty (decide (kvs.length > 0)) (kvs = []) (by simp)
    (Ok.seq (count_ok r.minPairs r.maxPairs kvs.length _ _ _ _ (atf _) (atf _) (atf _) (atf _))
      (Ok.ite (Ok.forEach (f := fun kv all => mapEntry E S all rec c kt vt r keys values kv)
        (E.order kvs) (fun kv _ => mapEntry_ok E S rec hr c hk kt vt r keys values kv))
        Ok.skip))).iff ?_
  unfold MapOk
  rw [and_iff_left (a := _ → _) (by simp)]
  simp only [(E.order_perm kvs).mem_iff]
  by_cases hc : (optB r.noSparse || elemTypNotNone vt values || elemTypNotNone kt keys) = true
  · simp [hc]
  · simp only [hc, false_imp_iff, and_true]
    simp only [Bool.or_eq_true, not_or, Bool.not_eq_true] at hc
    obtain ⟨⟨h1, h2⟩, h3⟩ := hc
    obtain ⟨ht, he⟩ := elemTypNotNone_false h2
    obtain ⟨ht', he'⟩ := elemTypNotNone_false h3
    rw [optB_false_iff] at h1
    simp [ValueOk, ht, he, ht', ScalarOk, h1]

theorem field_ok (E : Env) (S : Schema) (rec : Rec) (hr : RecOk rec) (msg : String) (f : FieldDesc)
    (v : Val) :
    Ok (AtField msg f.name) (fun all => renderField E S all rec msg f v)
      (FieldOk E S (fun v => rec false v = none) f v) := by
  obtain ⟨name, typ, rules⟩ := f
  have hu : FieldRules.absent.type = .unset := rfl
  have hm1 : msgRequired FieldRules.absent.message = false := rfl
  have hm2 : msgSkip FieldRules.absent.message = false := rfl
  cases typ with
  | one e =>
    exact (elem_ok E S rec hr { msg := msg, field := name } e rules v).mono
      (fun x hx => Near.atField (c := { msg := msg, field := name }) rfl hx)
  | rep e =>
    cases v with
    | list vs =>
      unfold renderField FieldOk
      cases ht : rules.type with
      | repeated r items => exact rep_ok E S rec hr { msg := msg, field := name } rfl e r items vs
      | unset =>
        refine (rep_ok E S rec hr { msg := msg, field := name } rfl e {} .absent vs).iff ?_
        simp [RepeatedOk, CountOk, ValueOk, hu, hm1, hm2]
      | _ => exact Ok.skip
    | _ => exact Ok.skip
  | map kt vt =>
    cases v with
    | map kvs =>
      unfold renderField FieldOk
      cases ht : rules.type with
      | map r keys values =>
        exact map_ok E S rec hr { msg := msg, field := name } rfl kt vt r keys values kvs
      | unset =>
        cases he : vt.isEmbed with
        | true =>
          refine ((map_ok E S rec hr { msg := msg, field := name } rfl kt vt {} .absent .absent
            kvs).congr (y := fun all => _) (fun _ _ => by simp only [he, if_true])).iff ?_
          simp [MapOk, CountOk, ValueOk, hu, hm1, hm2, he, ScalarOk]
        | false =>
          exact (Ok.skip.congr (y := fun all => _) (fun _ _ => by simp [he])).iff (by simp [he])
      | _ => exact Ok.skip
    | _ => exact Ok.skip

/-- An error naming the message type, not marked as a key error. -/
def Named (msg : String) (e : Err) : Prop :=
  ∃ f reason cause, e = .viol msg f reason cause false

theorem AtField.named {msg field : String} {e : Err} (h : AtField msg field e) : Named msg e := by
  obtain ⟨i, r, c, rfl⟩ := h; exact ⟨_, r, c, rfl⟩

theorem oneof_ok (E : Env) (S : Schema) (rec : Rec) (hr : RecOk rec) (msg : String) (o : OneofDesc)
    (set : Option (String × Val)) :
    Ok (Named msg) (fun all => oneofTpl E S all rec msg o set)
      (OneofOk E S (fun v => rec false v = none) o set) := by
  unfold oneofTpl OneofOk
  split
  · split
    · rename_i f hf
      exact ((field_ok E S rec hr msg f _).mono (fun _ h => h.named)).iff (by simp [hf])
    · rename_i hf
      exact Ok.skip.iff (by simp [hf])
  · exact (Ok.check ⟨_, _, _, rfl⟩)

theorem body_ok (E : Env) (S : Schema) (rec : Rec) (hr : RecOk rec) (d : MsgDesc)
    (fs : List (String × Val)) (os : List (String × String × Val)) :
    Ok (Named d.name) (fun all => bodyExec E S all rec d fs os)
      ((∀ f ∈ d.fields, FieldOk E S (fun v => rec false v = none) f (getField fs f)) ∧
        (∀ o ∈ d.oneofs, OneofOk E S (fun v => rec false v = none) o (os.lookup o.name))) :=
  Ok.seq
    (Ok.forEach (f := fun f all => renderField E S all rec d.name f (getField fs f)) d.fields
      (fun f _ => (field_ok E S rec hr d.name f _).mono (fun _ h => h.named)))
    (Ok.forEach (f := fun o all => oneofTpl E S all rec d.name o (os.lookup o.name)) d.oneofs
      (fun o _ => oneof_ok E S rec hr d.name o _))

/-- The result of a method in terms of the fragment's errors. -/
theorem finish_fast {W : Err → Prop} {x : Bool → Exec} {P : Prop} (h : Ok W x P) (n : String) :
    finish n (x false []) = fastErr x := by
  rw [h.fast]
  cases fastErr x <;> rfl

theorem finish_all {W : Err → Prop} {x : Bool → Exec} {P : Prop} (h : Ok W x P) (n : String) :
    finish n (x true []) = if allErrs x = [] then none else some (.multi n (allErrs x)) := by
  rw [h.all]
  cases allErrs x <;> simp [finish]

theorem step_recOk (E : Env) (S : Schema) (rec : Rec) (hr : RecOk rec) :
    RecOk (validateStep E S rec) := by
  intro v
  cases v with
  | msg typ fs os =>
    cases hS : S typ with
    | generated d =>
      cases hd : d.disabled with
      | true => simp [validateStep, hS, hd]
      | false =>
        have h := body_ok E S rec hr d fs os
        have h1 := finish_fast h d.name
        have h2 := finish_all h d.name
        simp only [validateStep, hS, hd, Bool.false_eq_true, if_false, h1, h2]
        have ha := h.agree
        cases hf : fastErr (fun all => bodyExec E S all rec d fs os) <;>
          cases hl : allErrs (fun all => bodyExec E S all rec d fs os) <;>
          simp_all [Agree]
    | legacy => simp [validateStep, hS]
    | foreign => simp [validateStep, hS]
  | _ => simp [validateStep]

theorem step_spec (E : Env) (S : Schema) (rec : Rec) (hr : RecOk rec) (v : Val) :
    validateStep E S rec false v = none ↔ MessageOk E S (fun v => rec false v = none) v := by
  cases v with
  | msg typ fs os =>
    cases hS : S typ with
    | generated d =>
      cases hd : d.disabled with
      | true => simp [validateStep, MessageOk, hS, hd]
      | false =>
        have h := body_ok E S rec hr d fs os
        have h1 := finish_fast h d.name
        simp only [validateStep, MessageOk, hS, hd, Bool.false_eq_true, if_false, h1, forall_const]
        exact h.spec
    | legacy => simp [validateStep, MessageOk, hS]
    | foreign => simp [validateStep, MessageOk, hS]
  | _ => simp [validateStep, MessageOk]

theorem fuel_recOk (E : Env) (S : Schema) (n : Nat) : RecOk (validateFuel E S n) := by
  induction n with
  | zero => intro v; simp [validateFuel]
  | succ n ih => exact step_recOk E S _ ih

theorem validate_recOk (E : Env) (S : Schema) : RecOk (validate E S) := by
  intro v
  have := fuel_recOk E S (depth v) v
  simpa only [validate] using this

end PGV.Go
