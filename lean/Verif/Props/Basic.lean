import Verif.Lemmas.Render
import Verif.Props.Fixtures

/-!
C05-C09: disabled and ignored messages, skip, required, oneofs, ignore_empty.
-/

set_option linter.unusedSimpArgs false

namespace PGV.Props
open PGV PGV.Go PGV.Spec Exec

/-! ### C05 -/

/-- **C05** A message whose type has `validate.disabled` is accepted by both entry points. -/
theorem C05_disabled (E : Env) (S : Schema) (typ : String) (d : MsgDesc)
    (hS : S typ = .generated d) (hd : d.disabled = true) (all : Bool)
    (fs : List (String × Val)) (os : List (String × String × Val)) :
    validate E S all (.msg typ fs os) = none := by
  rw [validate_eq]; simp [validateStep, hS, hd]

example : ∃ (S : Schema) (d : MsgDesc), S "M" = .generated d ∧ d.disabled = true ∧
    validate Fixtures.env (fun _ => .generated { d with disabled := false }) false
      (.msg "M" [] []) ≠ none :=
  ⟨fun _ => .generated { name := "M", disabled := true, fields := [Fixtures.age] },
    { name := "M", disabled := true, fields := [Fixtures.age] }, rfl, rfl,
    by rw [Option.ne_none_iff_isSome]; decide⟩

/-- **C05** A nil message is accepted by both entry points. -/
theorem C05_nil (E : Env) (S : Schema) (all : Bool) : validate E S all .null = none := by
  rw [validate_eq]; rfl

/-- The field does not contain messages: it is singular, repeated or a map, of scalars or enums. -/
def NoMessages (t : FieldT) : Prop :=
  match t with
  | .one e => e.isEmbed = false
  | .rep e => e.isEmbed = false
  | .map _ v => v.isEmbed = false

/-- **C05** A field without rules and without messages imposes nothing: whatever its value, both
entry points return what they return for the message type without the field. -/
theorem C05_no_rules (E : Env) (S : Schema) (typ typ' : String) (d : MsgDesc) (f : FieldDesc)
    (before after : List FieldDesc) (hr : f.rules = .absent) (ht : NoMessages f.typ)
    (hS : S typ = .generated { d with fields := before ++ f :: after })
    (hS' : S typ' = .generated { d with fields := before ++ after }) (all : Bool)
    (fs : List (String × Val)) (os : List (String × String × Val)) :
    validate E S all (.msg typ fs os) = validate E S all (.msg typ' fs os) := by
  have hskip : ∀ v, renderField E S all (validate E S) d.name f v = skip := by
    intro v
    obtain ⟨name, t, rules⟩ := f
    simp only at hr ht
    subst hr
    cases t with
    | one e =>
      simp only [NoMessages] at ht
      simp [renderField, elemTpl, resolve, FieldRules.type, ht]
    | rep e =>
      simp only [NoMessages] at ht
      cases v <;> simp [renderField, FieldRules.type, repTpl, repLenTpl, optN, optB, elemTypNotNone,
        resolve, ht, seq_skip]
    | map kt vt =>
      simp only [NoMessages] at ht
      cases v <;> simp [renderField, FieldRules.type, ht]
  cases hd : d.disabled with
  | true =>
    rw [C05_disabled E S typ _ hS hd, C05_disabled E S typ' _ hS' hd]
  | false =>
    refine validate_congr_msg hS hS' rfl hd hd ?_
    unfold bodyExec
    congr 1
    clear hS hS'
    induction before with
    | nil =>
      simp only [List.nil_append]
      show Exec.seq (renderField E S all (validate E S) d.name f (getField fs f)) _ = _
      rw [hskip]
      exact skip_seq _
    | cons g gs ih =>
      simp only [List.cons_append, Exec.forEach]
      congr 1

/-- C05_no_rules applies between a person with and without an extra list of strings. -/
example : ∃ (S : Schema) (f : FieldDesc), f.rules = .absent ∧ NoMessages f.typ ∧
    S "A" = .generated { Fixtures.person with fields := [Fixtures.age] ++ f :: [Fixtures.nick] } ∧
    S "B" = .generated { Fixtures.person with fields := [Fixtures.age] ++ [Fixtures.nick] } :=
  ⟨fun n => if n = "A" then .generated { Fixtures.person with fields :=
      [Fixtures.age, { name := "X", typ := .rep .string, rules := .absent }, Fixtures.nick] }
    else .generated { Fixtures.person with fields := [Fixtures.age, Fixtures.nick] },
    { name := "X", typ := .rep .string, rules := .absent }, rfl, rfl, rfl, rfl⟩

/-- The messages of the type have no generated validation methods: the type is from elsewhere, or
has `validate.ignored`. -/
def NoMethods (S : Schema) (typ : String) : Prop :=
  S typ = .foreign ∨ ∃ d, S typ = .generated d ∧ d.ignored = true

/-- **C05** A parent never fails because of embedded messages whose types have no generated
validation methods, in a singular field, a list or a map, whatever message rules are given. -/
theorem C05_ignored (E : Env) (S : Schema) (typ : String) (f : FieldDesc) (h : OnlyField S typ f)
    (m : Option MessageRules) (hr : f.rules = .mk m .unset ∨ f.rules = .absent)
    (t : String) (k : Option WKT) (v : Val)
    (hv : (f.typ = .one (.embed t k) ∧ ∃ t' fs os, NoMethods S t' ∧ v = .msg t' fs os) ∨
      (f.typ = .rep (.embed t k) ∧ ∃ vs, v = .list vs ∧
        ∀ w ∈ vs, ∃ t' fs os, NoMethods S t' ∧ w = .msg t' fs os) ∨
      (∃ kt, f.typ = .map kt (.embed t k) ∧ ∃ kvs, v = .map kvs ∧
        ∀ kv ∈ kvs, ∃ t' fs os, NoMethods S t' ∧ kv.2 = .msg t' fs os)) :
    Accepts E S typ f v := by
  rw [accepts_iff h]
  have hu : f.rules.type = .unset := by rcases hr with hr | hr <;> rw [hr] <;> rfl
  have emb : ∀ {t' fs os}, NoMethods S t' →
      EmbeddedOk E S (fun w => validate E S false w = none) (.msg t' fs os) := by
    intro t' fs os hn
    rcases hn with hn | ⟨d, hn, hi⟩
    · simp [EmbeddedOk, hn]
    · simp [EmbeddedOk, hn, hi]
  unfold FieldOk
  rcases hv with ⟨hT, t', fs, os, hn, rfl⟩ | ⟨hT, vs, rfl, hvs⟩ | ⟨kt, hT, kvs, rfl, hkvs⟩
  · simp only [hT, ValueOk, hu]
    exact fun _ => ⟨fun _ => by simp, fun _ => emb hn⟩
  · simp only [hT, hu]
    intro w hw _
    obtain ⟨t', fs, os, hn, rfl⟩ := hvs w hw
    exact emb hn
  · simp only [hT, hu]
    intro kv hkv _
    obtain ⟨t', fs, os, hn, he⟩ := hkvs kv hkv
    rw [he]
    exact emb hn

/-- C05_ignored applies to lists of `google.protobuf.*`-like foreign messages. -/
example : ∃ (S : Schema) (f : FieldDesc), OnlyField S "M" f ∧ f.rules = .absent ∧
    f.typ = .rep (.embed "Foreign" none) ∧ NoMethods S "Foreign" :=
  ⟨fun n => if n = "M" then .generated { name := "M", fields :=
      [{ name := "X", typ := .rep (.embed "Foreign" none), rules := .absent }] } else .foreign,
    { name := "X", typ := .rep (.embed "Foreign" none), rules := .absent },
    ⟨_, rfl, rfl, rfl, rfl⟩, rfl, rfl, .inl rfl⟩

/-! ### C06 -/

/-- Rules that skip the embedded message. -/
def Skips (r : FieldRules) : Prop := ∃ m, r = .mk (some m) .unset ∧ m.skip = some true

theorem elem_skip {E : Env} {S : Schema} {all : Bool} {rec : Rec} {c : Ctx} {t : String}
    {k : Option WKT} {rules : FieldRules} {v w : Val} (hs : Skips rules)
    (hvw : v = .null ↔ w = .null) :
    elemTpl E S all rec c (.embed t k) rules v = elemTpl E S all rec c (.embed t k) rules w := by
  obtain ⟨m, rfl, hm⟩ := hs
  have : Val.isNull v = Val.isNull w := by
    rw [Bool.eq_iff_iff, isNull_iff, isNull_iff]; exact hvw
  have hsk : msgSkip (some m) = true := by simp [msgSkip, hm, optB]
  simp [elemTpl, resolve, FieldRules.type, ElemT.isEmbed, messageTpl, FieldRules.message, hsk, this]

/-- **C06** For a message field with `message.skip`, both entry points return the same result
whatever is inside the embedded message; only whether it is set can matter. Here `fs` and `fs'` are
two field assignments that differ at most in that field. -/
theorem C06_skip (E : Env) (S : Schema) (typ : String) (d : MsgDesc) (f : FieldDesc)
    (hS : S typ = .generated d) (t : String) (k : Option WKT) (hT : f.typ = .one (.embed t k))
    (hs : Skips f.rules) (huniq : ∀ g ∈ d.fields, g.name = f.name → g = f)
    (fs fs' : List (String × Val)) (os : List (String × String × Val))
    (hother : ∀ n, n ≠ f.name → fs.lookup n = fs'.lookup n)
    (hset : getField fs f = .null ↔ getField fs' f = .null) (all : Bool) :
    validate E S all (.msg typ fs os) = validate E S all (.msg typ fs' os) := by
  cases hd : d.disabled with
  | true => rw [C05_disabled E S typ d hS hd, C05_disabled E S typ d hS hd]
  | false =>
    refine validate_congr_msg hS hS rfl hd hd ?_
    unfold bodyExec
    congr 1
    refine forEach_congr _ fun g hg => ?_
    by_cases hn : g.name = f.name
    · have := huniq g hg hn
      subst this
      simp only [renderField, hT]
      exact elem_skip hs hset
    · have : getField fs g = getField fs' g := by simp only [getField, hother g.name hn]
      simp only [this]

/-- C06's hypotheses are met, with an embedded message that validation would reject. -/
example : ∃ (S : Schema) (d : MsgDesc) (f : FieldDesc), S "M" = .generated d ∧
    f.typ = .one (.embed "Person" none) ∧ Skips f.rules ∧
    (∀ g ∈ d.fields, g.name = f.name → g = f) ∧
    (getField [(f.name, Fixtures.bob)] f = .null ↔ getField [(f.name, Fixtures.ann)] f = .null) :=
  ⟨fun n => if n = "M" then .generated { name := "M", fields :=
      [{ name := "X", typ := .one (.embed "Person" none),
         rules := .mk (some { skip := some true }) .unset }] } else Fixtures.schema n, _,
    { name := "X", typ := .one (.embed "Person" none),
      rules := .mk (some { skip := some true }) .unset }, rfl, rfl, ⟨_, rfl, rfl⟩,
    by intro g hg _; simpa using hg, by simp [getField, Fixtures.bob, Fixtures.ann]⟩

/-- **C06** Likewise for the elements of a list whose item rules skip: the result depends only on
which elements are nil. -/
theorem C06_skip_items (E : Env) (S : Schema) (typ : String) (f : FieldDesc) (h : OnlyField S typ f)
    (t : String) (k : Option WKT) (hT : f.typ = .rep (.embed t k)) (r : RepeatedRules)
    (items : FieldRules) (hr : f.rules.type = .repeated r items) (hs : Skips items)
    (hu : r.unique ≠ some true) (vs ws : List Val) (hlen : vs.length = ws.length)
    (hnull : ∀ i : Nat, vs[i]? = some .null ↔ ws[i]? = some .null) (all : Bool) :
    validate E S all (.msg typ [(f.name, .list vs)] []) =
      validate E S all (.msg typ [(f.name, .list ws)] []) := by
  obtain ⟨d, hS, hd, hf, ho⟩ := h
  refine validate_congr_msg hS hS rfl hd hd ?_
  rw [body_single hf ho, body_single hf ho, getField_single, getField_single]
  simp only [renderField, hT, hr, repTpl]
  have hu' : optB r.unique = false := (optB_false_iff _).2 hu
  have loop : ∀ (vs ws : List Val) (idx : Nat), vs.length = ws.length →
      (∀ i : Nat, vs[i]? = some .null ↔ ws[i]? = some .null) →
      repLoop all (optB r.unique) { msg := d.name, field := f.name }
        (fun idx v => elemTpl E S all (validate E S)
          { msg := d.name, field := f.name, index := some (.pos idx) } (.embed t k) items v) idx [] vs =
      repLoop all (optB r.unique) { msg := d.name, field := f.name }
        (fun idx v => elemTpl E S all (validate E S)
          { msg := d.name, field := f.name, index := some (.pos idx) } (.embed t k) items v) idx [] ws := by
    intro vs
    induction vs with
    | nil => intro ws idx hl _; cases ws with
      | nil => rfl
      | cons => simp at hl
    | cons v vs ih =>
      intro ws idx hl hn
      cases ws with
      | nil => simp at hl
      | cons w ws =>
        have h0 := hn 0
        simp only [List.getElem?_cons_zero, Option.some.injEq] at h0
        have ih' := ih ws (idx + 1) (by simpa using hl) (fun i => by simpa using hn (i + 1))
        simp only [repLoop, hu', Bool.false_and] at ih' ⊢
        rw [elem_skip hs h0]
        simp only [Bool.false_eq_true, if_false, ih']
  simp only [hlen, loop vs ws 0 hlen hnull]

/-- C06_skip_items applies to a list with an invalid element against one with a valid element. -/
example : ∀ i : Nat, [Fixtures.bob, .null][i]? = some .null ↔ [Fixtures.ann, .null][i]? = some .null := by
  intro i
  match i with
  | 0 => simp [Fixtures.bob, Fixtures.ann]
  | 1 => simp
  | n + 2 => simp

/-- **C06** Likewise for map values whose rules skip: whether the message is accepted depends only
on the keys and on which values are nil. -/
theorem C06_skip_values (E : Env) (S : Schema) (typ : String) (f : FieldDesc) (h : OnlyField S typ f)
    (kt : ElemT) (t : String) (k : Option WKT) (hT : f.typ = .map kt (.embed t k)) (r : MapRules)
    (keys values : FieldRules) (hr : f.rules.type = .map r keys values) (hs : Skips values)
    (kvs kvs' : List (Scalar × Val))
    (hsame : kvs.map (fun kv => (kv.1, Val.isNull kv.2)) =
      kvs'.map (fun kv => (kv.1, Val.isNull kv.2))) :
    Accepts E S typ f (.map kvs) ↔ Accepts E S typ f (.map kvs') := by
  rw [accepts_iff h, accepts_iff h]
  simp only [FieldOk, hT, hr]
  obtain ⟨m, rfl, hm⟩ := hs
  have hsk : msgSkip (some m) = true := by simp [msgSkip, hm, optB]
  have hlen : kvs.length = kvs'.length := by simpa using congrArg List.length hsame
  have key : ∀ (a : List (Scalar × Val)) (ok : Val → Prop), MapOk E S ok kt (.embed t k) r keys
      (.mk (some m) .unset) a ↔
      ((r.ignoreEmpty = some true ∧ a.length = 0) ∨ (CountOk r.minPairs r.maxPairs a.length ∧
        ∀ p ∈ a.map (fun kv => (kv.1, Val.isNull kv.2)),
          (r.noSparse = some true → p.2 = false) ∧ ScalarOk E kt keys.type p.1 ∧
          (msgRequired (some m) = true → p.2 = false))) := by
    intro a ok
    rw [List.forall_mem_map]
    simp [MapOk, ValueOk, FieldRules.type, FieldRules.message, ElemT.isEmbed, hsk,
      isNull_false_iff]
  rw [key, key, hlen, hsame]

/-- C06_skip_values applies to maps that differ in the validity of a value. -/
example : [(Scalar.bool true, Fixtures.bob)].map (fun kv => (kv.1, Val.isNull kv.2)) =
    [(Scalar.bool true, Fixtures.ann)].map (fun kv => (kv.1, Val.isNull kv.2)) := rfl

/-! ### C07 -/

/-- The field is marked required: Any, Duration and Timestamp rules have their own flag, other
message-typed fields use `message.required`. -/
def MarkedRequired (rules : FieldRules) : Prop :=
  match rules.type with
  | .any r => r.required = some true
  | .duration r => r.required = some true
  | .timestamp r => r.required = some true
  | _ => ∃ m, rules.message = some m ∧ m.required = some true

theorem msgRequired_iff (m : Option MessageRules) :
    msgRequired m = true ↔ ∃ r, m = some r ∧ r.required = some true := by
  cases m <;> simp [msgRequired, optB_iff]

theorem checked_embed {f : FieldDesc} {t : String} {k : Option WKT} (hT : f.typ = .one (.embed t k))
    (hc : Checked f) : match f.rules.type with
      | .enum _ | .repeated _ _ | .map _ _ _ => False
      | .num _ _ => WrapperKind f.rules.type
      | _ => True := by
  obtain ⟨name, typ, rules⟩ := f
  simp only at hT
  subst hT
  simp only [Checked, Checker.checkField] at hc
  split at hc
  · simp at hc
  · cases rules with
    | absent => simp [FieldRules.type]
    | mk m tr =>
      simp only [Option.isSome_map, Checker.checkFieldRules] at hc
      cases tr with
      | num n r =>
        simp only [FieldRules.type, WrapperKind]
        cases n <;> simp_all [Checker.checkTypeRules, Checker.mustType, Checker.wrapperOf,
          Checker.Ty.embed, Checker.Ty.protoType, ElemT.protoType]
      | _ => simp_all [Checker.checkTypeRules, Checker.mustType, Checker.Ty.embed,
          Checker.Ty.protoType, ElemT.protoType, FieldRules.type]

/-- **C07** A message-typed field (message, Any, Duration, Timestamp or wrapper) left unset: the
message is accepted, in both modes, exactly when the field is not marked required, whatever its
other rules. -/
theorem C07_required (E : Env) (S : Schema) (typ : String) (f : FieldDesc) (h : OnlyField S typ f)
    (t : String) (k : Option WKT) (hT : f.typ = .one (.embed t k)) (hc : Checked f) (all : Bool) :
    validate E S all (.msg typ [] []) = none ↔ ¬ MarkedRequired f.rules := by
  have hch := checked_embed hT hc
  have key : validate E S false (.msg typ [] []) = none ↔ ¬ MarkedRequired f.rules := by
    obtain ⟨d, hS, hd, hf, ho⟩ := h
    rw [validate_spec]
    have hz : getField [] f = .null := by simp [getField, hT, FieldT.zero, ElemT.zero]
    simp only [MessageOk, hS, hd, hf, ho, forall_const, List.mem_singleton, forall_eq,
      List.not_mem_nil, false_implies, implies_true, and_true, hz, FieldOk, hT, ValueOk,
      ElemT.isEmbed, MarkedRequired]
    cases hr : f.rules.type <;> rw [hr] at hch <;>
      simp_all [AnyOk, DurationOk, TimestampOk, EmbeddedOk, WrapperKind, ← msgRequired_iff]
  cases all with
  | false => exact key
  | true => rw [validate_modes]; exact key

/-- **C07** The error for an unset required field is a single violation that names the message type
and the field and has no cause. -/
theorem C07_error (E : Env) (S : Schema) (typ : String) (d : MsgDesc) (f : FieldDesc)
    (hS : S typ = .generated d) (hd : d.disabled = false) (hf : d.fields = [f]) (ho : d.oneofs = [])
    (t : String) (k : Option WKT) (hT : f.typ = .one (.embed t k)) (hc : Checked f)
    (hr : MarkedRequired f.rules) :
    ∃ reason, validate E S false (.msg typ [] []) =
        some (.viol d.name ⟨f.name, none⟩ reason none false) ∧
      validate E S true (.msg typ [] []) =
        some (.multi d.name [.viol d.name ⟨f.name, none⟩ reason none false]) := by
  have hch := checked_embed hT hc
  have hz : getField [] f = .null := by simp [getField, hT, FieldT.zero, ElemT.zero]
  suffices hx : ∃ reason, ∀ all, renderField E S all (validate E S) d.name f .null =
      report all (err { msg := d.name, field := f.name } reason) by
    obtain ⟨reason, hx⟩ := hx
    refine ⟨reason, ?_, ?_⟩ <;>
    · rw [validate_eq]
      simp only [validateStep, hS, hd, Bool.false_eq_true, if_false, body_single hf ho, hz, hx]
      rfl
  simp only [renderField, hT, elemTpl]
  have hm : ∀ (m : Option MessageRules) (all : Bool), messageTpl E S all (validate E S)
      { msg := d.name, field := f.name } m .null =
      requiredTpl all { msg := d.name, field := f.name } (msgRequired m) true := by
    intro m all
    simp only [messageTpl, Val.isNull, methods]
    cases msgSkip m <;> cases all <;> simp [seq_skip]
  unfold MarkedRequired at hr
  cases hty : f.rules.type with
  | unset =>
    rw [hty] at hr
    have hq := (msgRequired_iff _).2 hr
    refine ⟨[.s "value is required"], fun all => ?_⟩
    simp only [resolve, hty, ElemT.isEmbed, if_true]
    rw [hm]
    simp [hq, requiredTpl, when]
  | any r =>
    rw [hty] at hr
    refine ⟨[.s "value is required"], fun all => ?_⟩
    simp [resolve, hty, anyTpl, hr, optB, requiredTpl, when, seq_skip]
  | duration r =>
    rw [hty] at hr
    refine ⟨[.s "value is required"], fun all => ?_⟩
    simp [resolve, hty, durationTpl, hr, optB, requiredTpl, when, seq_skip]
  | timestamp r =>
    rw [hty] at hr
    refine ⟨[.s "value is required"], fun all => ?_⟩
    simp [resolve, hty, timestampTpl, hr, optB, requiredTpl, when, seq_skip]
  | num n r =>
    rw [hty] at hr hch
    have hq := (msgRequired_iff _).2 hr
    refine ⟨[.s "value is required and must not be nil."], fun all => ?_⟩
    simp only [WrapperKind] at hch
    cases n <;> simp_all [resolve, hty, ElemT.isEmbed, wrapperTpl, hq, when]
  | bool r | string r | bytes r =>
    rw [hty] at hr
    have hq := (msgRequired_iff _).2 hr
    refine ⟨[.s "value is required and must not be nil."], fun all => ?_⟩
    simp [resolve, hty, ElemT.isEmbed, wrapperTpl, hq, when]
  | enum r | repeated r i | map r a b => rw [hty] at hch; exact hch.elim

/-- C07's hypotheses are met by a required wrapper field with rules. -/
example : ∃ (S : Schema) (f : FieldDesc), OnlyField S "M" f ∧
    f.typ = .one (.embed "google.protobuf.StringValue" (some .stringValue)) ∧ Checked f ∧
    MarkedRequired f.rules :=
  ⟨fun _ => .generated { name := "M", fields :=
      [{ name := "X", typ := .one (.embed "google.protobuf.StringValue" (some .stringValue)),
         rules := .mk (some { required := some true }) (.string { minLen := some 3 }) }] },
    { name := "X", typ := .one (.embed "google.protobuf.StringValue" (some .stringValue)),
      rules := .mk (some { required := some true }) (.string { minLen := some 3 }) },
    ⟨_, rfl, rfl, rfl, rfl⟩, rfl, by unfold Checked; decide, ⟨_, rfl, rfl⟩⟩

/-! ### C08 -/

/-- **C08** When a member of a oneof is set, both entry points return, for a message with that oneof
alone, what they return for a message whose only field is that member: other members never matter,
and neither does `required`. -/
theorem C08_member (E : Env) (S : Schema) (typ typ' : String) (d d' : MsgDesc) (o : OneofDesc)
    (f : FieldDesc) (hS : S typ = .generated d) (hd : d.disabled = false) (hf : d.fields = [])
    (ho : d.oneofs = [o]) (hS' : S typ' = .generated d') (hd' : d'.disabled = false)
    (hf' : d'.fields = [f]) (ho' : d'.oneofs = []) (hn : d.name = d'.name) (hmem : f ∈ o.fields)
    (huniq : ∀ g ∈ o.fields, g.name = f.name → g = f) (v : Val) (all : Bool) :
    validate E S all (.msg typ [] [(o.name, f.name, v)]) =
      validate E S all (.msg typ' [(f.name, v)] []) := by
  refine validate_congr_msg hS hS' hn hd hd' ?_
  rw [body_oneof hf ho, body_single hf' ho', getField_single, hn]
  have : o.fields.find? (fun g => g.name == f.name) = some f := by
    cases hfind : o.fields.find? (fun g => g.name == f.name) with
    | none =>
      rw [List.find?_eq_none] at hfind
      have := hfind f hmem
      simp at this
    | some g =>
      have h1 := List.find?_some hfind
      have h2 := List.mem_of_find?_eq_some hfind
      rw [huniq g h2 (by simpa using h1)]
  simp [oneofTpl, this]

/-- **C08** When no member of a oneof is set, the message is accepted exactly when the oneof is not
required, and otherwise the error is a violation on the oneof itself. -/
theorem C08_none_set (E : Env) (S : Schema) (typ : String) (d : MsgDesc) (o : OneofDesc)
    (hS : S typ = .generated d) (hd : d.disabled = false) (hf : d.fields = [])
    (ho : d.oneofs = [o]) :
    (o.required = false → ∀ all, validate E S all (.msg typ [] []) = none) ∧
    (o.required = true →
      validate E S false (.msg typ [] []) =
        some (.viol d.name ⟨o.name, none⟩ [.s "value is required"] none false) ∧
      validate E S true (.msg typ [] []) =
        some (.multi d.name [.viol d.name ⟨o.name, none⟩ [.s "value is required"] none false])) := by
  constructor
  · intro hr all
    rw [validate_eq]
    simp [validateStep, hS, hd, body_oneof hf ho, oneofTpl, hr, when, skip, finish]
  · intro hr
    constructor <;>
    · rw [validate_eq]
      simp only [validateStep, hS, hd, body_oneof hf ho, oneofTpl, hr, when]
      rfl

/-- **C08** In a message with any number of fields and oneofs: the errors are those of the fields
followed, oneof by oneof in declaration order, by those of a message with that oneof alone. -/
theorem C08_many (E : Env) (S : Schema) (typ : String) (d : MsgDesc) (hS : S typ = .generated d)
    (hd : d.disabled = false) (fs : List (String × Val)) (os : List (String × String × Val))
    (part : OneofDesc → String)
    (hpart : ∀ o ∈ d.oneofs, S (part o) = .generated { name := d.name, oneofs := [o] })
    (plain : String) (hplain : S plain = .generated { name := d.name, fields := d.fields }) :
    errorList (validate E S true (.msg typ fs os)) =
      errorList (validate E S true (.msg plain fs [])) ++
      d.oneofs.flatMap fun o => errorList (validate E S true (.msg (part o) [] os)) := by
  rw [validate_all_msg hS hd, validate_all_msg hplain rfl]
  simp only [errorList_multi, List.flatMap_nil, List.append_nil]
  congr 1
  refine flatMap_congr' fun o ho => ?_
  rw [validate_all_msg (hpart o ho) rfl]
  simp only [errorList_multi, List.flatMap_nil, List.nil_append, List.flatMap_cons,
    List.append_nil]

/-- C08's hypotheses are met by the fixture's oneof. -/
example : ∃ (S : Schema) (d d' : MsgDesc) (f : FieldDesc), S "Contact" = .generated d ∧
    d.oneofs = [Fixtures.contact] ∧ S "Phone" = .generated d' ∧ d'.fields = [f] ∧
    f ∈ Fixtures.contact.fields ∧ (∀ g ∈ Fixtures.contact.fields, g.name = f.name → g = f) :=
  ⟨fun n => if n = "Phone" then .generated { name := "Person", fields :=
      [{ name := "Phone", typ := .one .string, rules := .mk none (.string { minLen := some 2 }) }] }
      else Fixtures.schema n, _, _, _, rfl, rfl, rfl, rfl, by simp [Fixtures.contact],
    by intro g hg hn; simp [Fixtures.contact] at hg; rcases hg with rfl | rfl <;> simp_all⟩

/-! ### C09 -/

/-- The rules without `ignore_empty`. -/
def dropIgnoreEmpty : TypeRules → TypeRules
  | .num k r => .num k { r with ignoreEmpty := none }
  | .string r => .string { r with ignoreEmpty := none }
  | .bytes r => .bytes { r with ignoreEmpty := none }
  | .repeated r items => .repeated { r with ignoreEmpty := none } items
  | .map r keys values => .map { r with ignoreEmpty := none } keys values
  | t => t

/-- The rules have `ignore_empty: true`. -/
def IgnoresEmpty : TypeRules → Prop
  | .num _ r => r.ignoreEmpty = some true
  | .string r => r.ignoreEmpty = some true
  | .bytes r => r.ignoreEmpty = some true
  | .repeated r _ => r.ignoreEmpty = some true
  | .map r _ _ => r.ignoreEmpty = some true
  | _ => False

/-- The empty values: the number zero (of either sign), the empty string, bytes, list and map; for
a wrapper, a wrapper of one. -/
def EmptyValue : Val → Prop
  | .sc (.num n) | .wrapper (.num n) => numVal n = some 0
  | .sc (.str s) | .wrapper (.str s) => s = []
  | .sc (.bytes s) | .wrapper (.bytes s) => s = []
  | .list vs => vs = []
  | .map kvs => kvs = []
  | _ => False

/-- **C09** With `ignore_empty`, the empty value passes whatever the other rules. -/
theorem C09_empty (E : Env) (S : Schema) (typ : String) (f : FieldDesc) (h : OnlyField S typ f)
    (hi : IgnoresEmpty f.rules.type) (v : Val) (hv : EmptyValue v) (all : Bool) :
    validate E S all (.msg typ [(f.name, v)] []) = none := by
  have key : Accepts E S typ f v := by
    rw [accepts_iff h]
    unfold FieldOk
    cases hT : f.typ with
    | one e =>
      simp only [ValueOk]
      cases hr : f.rules.type <;> rw [hr] at hi <;> simp only [IgnoresEmpty] at hi
      · -- num
        constructor <;> intro hw <;> cases v <;> simp_all [EmptyValue] <;> rename_i s <;>
          cases s <;> simp_all [ScalarOk, NumOk]
      · constructor <;> intro hw <;> cases v <;> simp_all [EmptyValue] <;> rename_i s <;>
          cases s <;> simp_all [ScalarOk, StringOk]
      · constructor <;> intro hw <;> cases v <;> simp_all [EmptyValue] <;> rename_i s <;>
          cases s <;> simp_all [ScalarOk, BytesOk]
      · constructor <;> intro hw <;> cases v <;> simp_all [EmptyValue, ScalarOk]
      · constructor <;> intro hw <;> cases v <;> simp_all [EmptyValue, ScalarOk]
    | rep e =>
      cases v <;> simp_all [EmptyValue]
      cases hr : f.rules.type <;> rw [hr] at hi <;> simp_all [IgnoresEmpty, RepeatedOk]
    | map kt vt =>
      cases v <;> simp_all [EmptyValue]
      cases hr : f.rules.type <;> rw [hr] at hi <;> simp_all [IgnoresEmpty, MapOk]
  cases all with
  | false => exact key
  | true => rw [validate_modes]; exact key

theorem isZero_false {n : Num} (h : ¬ numVal n = some 0) : n.isZero = false := by
  cases hz : n.isZero with
  | false => rfl
  | true => exact absurd ((Num.isZero_iff n).1 hz) h

theorem scalar_dropIgnore (E : Env) (all : Bool) (c : Ctx) (e : ElemT) (t : TypeRules) (s : Scalar)
    (hs : ¬ EmptyValue (.sc s)) :
    scalarTpl E all c e t s = scalarTpl E all c e (dropIgnoreEmpty t) s := by
  cases t <;> cases s <;> simp only [scalarTpl, dropIgnoreEmpty, EmptyValue] at hs ⊢
  · simp [numTpl, numConstTpl, ltgtTpl, numInTpl, isZero_false hs, when, optB]
  · rename_i r s
    have h : (s != []) = true := by simpa using hs
    simp only [strTpl, h, optB, when, if_true, ite_self]
    rfl
  · rename_i r s
    have h : decide (s.length > 0) = true := by simpa [List.length_pos_iff] using hs
    simp only [bytesTpl, h, optB, when, if_true, ite_self]
    rfl

theorem elem_dropIgnore (E : Env) (S : Schema) (all : Bool) (rec : Rec) (c : Ctx) (e : ElemT)
    (m : Option MessageRules) (t : TypeRules) (v : Val) (hv : ¬ EmptyValue v) :
    elemTpl E S all rec c e (.mk m t) v = elemTpl E S all rec c e (.mk m (dropIgnoreEmpty t)) v := by
  have hw : ∀ s, v = .wrapper s → ∀ c t, scalarTpl E all c e t s =
      scalarTpl E all c e (dropIgnoreEmpty t) s := by
    intro s hs c t
    refine scalar_dropIgnore E all c e t s ?_
    subst hs
    cases s <;> simp_all [EmptyValue]
  have hs : ∀ s, v = .sc s → ∀ c t, scalarTpl E all c e t s =
      scalarTpl E all c e (dropIgnoreEmpty t) s := by
    intro s hs c t
    refine scalar_dropIgnore E all c e t s ?_
    subst hs
    exact hv
  have hwrap : ∀ t, wrapperTpl E all c e t m v = wrapperTpl E all c e (dropIgnoreEmpty t) m v := by
    intro t
    unfold wrapperTpl
    cases v <;> simp only
    exact hw _ rfl _ _
  cases t with
  | num k r =>
    simp only [elemTpl, resolve, FieldRules.type, FieldRules.message, dropIgnoreEmpty]
    have h1 := hwrap (.num k r)
    simp only [dropIgnoreEmpty] at h1
    have h2 := fun s hs' => hs s hs' c (.num k r)
    simp only [dropIgnoreEmpty] at h2
    cases k <;> cases e.isEmbed <;> simp only [if_true, Bool.false_eq_true, if_false] <;>
      first
        | exact h1
        | (cases v <;> simp only <;> exact h2 _ rfl)
  | string r =>
    simp only [elemTpl, resolve, FieldRules.type, FieldRules.message, dropIgnoreEmpty]
    have h1 := hwrap (.string r)
    simp only [dropIgnoreEmpty] at h1
    have h2 := fun s hs' => hs s hs' c (.string r)
    simp only [dropIgnoreEmpty] at h2
    cases e.isEmbed <;> simp only [if_true, Bool.false_eq_true, if_false] <;>
      first
        | exact h1
        | (cases v <;> simp only <;> exact h2 _ rfl)
  | bytes r =>
    simp only [elemTpl, resolve, FieldRules.type, FieldRules.message, dropIgnoreEmpty]
    have h1 := hwrap (.bytes r)
    simp only [dropIgnoreEmpty] at h1
    have h2 := fun s hs' => hs s hs' c (.bytes r)
    simp only [dropIgnoreEmpty] at h2
    cases e.isEmbed <;> simp only [if_true, Bool.false_eq_true, if_false] <;>
      first
        | exact h1
        | (cases v <;> simp only <;> exact h2 _ rfl)
  | repeated r i => cases v <;> simp [elemTpl, resolve, FieldRules.type, dropIgnoreEmpty, scalarTpl]
  | map r a b => cases v <;> simp [elemTpl, resolve, FieldRules.type, dropIgnoreEmpty, scalarTpl]
  | _ => simp [dropIgnoreEmpty]

/-- **C09** Every value that is not empty gets, in both modes, the result it gets without
`ignore_empty`. -/
theorem C09_other (E : Env) (S : Schema) (typ typ' : String) (d d' : MsgDesc) (f : FieldDesc)
    (m : Option MessageRules) (t : TypeRules) (hr : f.rules = .mk m t)
    (hS : S typ = .generated d) (hd : d.disabled = false) (hf : d.fields = [f]) (ho : d.oneofs = [])
    (hS' : S typ' = .generated d') (hd' : d'.disabled = false)
    (hf' : d'.fields = [{ f with rules := .mk m (dropIgnoreEmpty t) }]) (ho' : d'.oneofs = [])
    (hn : d.name = d'.name) (v : Val) (hv : ¬ EmptyValue v) (all : Bool) :
    validate E S all (.msg typ [(f.name, v)] []) = validate E S all (.msg typ' [(f.name, v)] []) := by
  refine validate_congr_msg hS hS' hn hd hd' ?_
  rw [body_single hf ho, body_single hf' ho', getField_single]
  have : getField [(f.name, v)] { f with rules := FieldRules.mk m (dropIgnoreEmpty t) } = v := by
    simp [getField]
  rw [this, ← hn]
  unfold renderField
  simp only
  cases hT : f.typ with
  | one e => rw [hr]; exact elem_dropIgnore E S all _ _ e m t v hv
  | rep e =>
    rw [hr]
    cases v with
    | list vs =>
      simp only [EmptyValue] at hv
      have h : decide (vs.length > 0) = true := by simpa [List.length_pos_iff] using hv
      cases t <;> simp only [FieldRules.type, dropIgnoreEmpty]
      simp only [repTpl, repLenTpl, h, optB, when, if_true, ite_self]
    | _ => rfl
  | map kt vt =>
    rw [hr]
    cases v with
    | map kvs =>
      simp only [EmptyValue] at hv
      have h : decide (kvs.length > 0) = true := by simpa [List.length_pos_iff] using hv
      cases t <;> simp only [FieldRules.type, dropIgnoreEmpty]
      simp only [mapTpl, h, optB, when, if_true, ite_self]
      rfl
    | _ => rfl

/-- C09's hypotheses are met: an int32 field with `ignore_empty` and a bound that zero breaks. -/
example : ∃ (S : Schema) (f : FieldDesc), OnlyField S "M" f ∧ IgnoresEmpty f.rules.type ∧ Checked f ∧
    EmptyValue (.sc (.num (.int 0))) ∧ ¬ EmptyValue (.sc (.num (.int 3))) :=
  ⟨_, Fixtures.fieldOf (.scalar .int32)
      (.num .int32 { gt := some (.int 5), ignoreEmpty := some true }),
    Fixtures.only_field _, rfl, by unfold Checked; decide, rfl, by simp [EmptyValue, numVal]⟩

end PGV.Props
