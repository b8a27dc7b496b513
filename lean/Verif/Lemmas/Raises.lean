import Verif.Lemmas.Knot
import Verif.Spec.Nesting

/-!
Where errors come from: an invariant on every error a fragment of generated code raises, in either
mode.
-/

set_option linter.unusedSimpArgs false

namespace PGV.Go
open PGV Exec PGV.Spec

/-- Every error the fragment returns or appends satisfies `Q`. -/
def Raises (Q : Err → Prop) (x : Exec) : Prop :=
  ∀ acc, match x acc with
    | .error e => Q e
    | .ok es => ∃ l, es = acc ++ l ∧ ∀ e ∈ l, Q e

namespace Raises
variable {Q R : Err → Prop} {x y : Exec}

theorem mono (h : Raises Q x) (hQ : ∀ e, Q e → R e) : Raises R x := by
  intro acc
  have := h acc
  cases hx : x acc with
  | error e => rw [hx] at this; exact hQ e this
  | ok es =>
    rw [hx] at this
    obtain ⟨l, h1, h2⟩ := this
    exact ⟨l, h1, fun e he => hQ e (h2 e he)⟩

protected theorem skip : Raises Q Exec.skip := fun acc => ⟨[], by simp, by simp⟩

protected theorem ret {e : Err} (h : Q e) : Raises Q (Exec.ret e) := fun _ => h

protected theorem append {e : Err} (h : Q e) : Raises Q (Exec.append e) :=
  fun _ => ⟨[e], rfl, by simpa using h⟩

protected theorem report {all : Bool} {e : Err} (h : Q e) : Raises Q (Exec.report all e) := by
  cases all
  · exact Raises.ret h
  · exact Raises.append h

protected theorem seq (hx : Raises Q x) (hy : Raises Q y) : Raises Q (Exec.seq x y) := by
  intro acc
  have h := hx acc
  unfold Exec.seq
  cases hxa : x acc with
  | error e => rw [hxa] at h; exact h
  | ok es =>
    rw [hxa] at h
    obtain ⟨l, h1, h2⟩ := h
    have h' := hy es
    simp only
    cases hya : y es with
    | error e => rw [hya] at h'; exact h'
    | ok es' =>
      rw [hya] at h'
      obtain ⟨l', h3, h4⟩ := h'
      refine ⟨l ++ l', by rw [h3, h1, List.append_assoc], ?_⟩
      intro e he
      rcases List.mem_append.1 he with h | h
      · exact h2 e h
      · exact h4 e h

protected theorem «when» {b : Bool} (hx : Raises Q x) : Raises Q (Exec.when b x) := by
  cases b
  · exact Raises.skip
  · exact hx

protected theorem whenIf {b : Bool} (hx : b = true → Raises Q x) : Raises Q (Exec.when b x) := by
  cases b
  · exact Raises.skip
  · exact hx rfl

protected theorem forEach {α : Type} {f : α → Exec} (xs : List α) (h : ∀ a ∈ xs, Raises Q (f a)) :
    Raises Q (Exec.forEach xs f) := by
  induction xs with
  | nil => exact Raises.skip
  | cons a xs ih =>
    exact Raises.seq (h a (by simp)) (ih fun b hb => h b (by simp [hb]))

theorem skipEmpty {a b : Bool} (h : Raises Q x) :
    Raises Q (if a then Exec.when b x else x) := by
  split
  · exact h.when
  · exact h

end Raises

/-- A cause that is not the error of an embedded message. -/
def PlainCause : Option Err → Prop
  | none => True
  | some (.lib _) => True
  | _ => False

/-- Raised at the context with a plain cause. -/
def Own (c : Ctx) (e : Err) : Prop :=
  ∃ reason cause, PlainCause cause ∧ e = .viol c.msg ⟨c.field, c.index⟩ reason cause c.onKey

theorem own_err (c : Ctx) (r : List Piece) : Own c (err c r) := ⟨r, none, trivial, rfl⟩
theorem own_lib (c : Ctx) (t : String) (r : List Piece) : Own c (errCause c (.lib t) r) :=
  ⟨r, some (.lib t), trivial, rfl⟩

/-- Descend through a template. -/
macro "raises" : tactic => `(tactic|
  repeat' (first
    | exact Raises.skip
    | exact Raises.report (own_err _ _)
    | exact Raises.report (own_lib _ _ _)
    | apply Raises.when
    | apply Raises.seq
    | split))

theorem ltgt_own (all : Bool) (c : Ctx) (r : NumRules) (v : Num) :
    Raises (Own c) (ltgtTpl all c r v) := by
  unfold ltgtTpl; raises

theorem num_own (all : Bool) (c : Ctx) (r : NumRules) (v : Num) : Raises (Own c) (numTpl all c r v) := by
  have h : Raises (Own c) (numConstTpl all c r v ;; ltgtTpl all c r v ;; numInTpl all c r v) :=
    .seq (by unfold numConstTpl; raises) (.seq (ltgt_own all c r v) (by unfold numInTpl; raises))
  unfold numTpl
  split
  · exact h.when
  · exact h

theorem bool_own (all : Bool) (c : Ctx) (r : BoolRules) (v : Bool) :
    Raises (Own c) (boolTpl all c r v) := by
  unfold boolTpl; raises

theorem strConstTpl_own (all : Bool) (c : Ctx) (r : StringRules) (v : Bytes) :
    Raises (Own c) (strConstTpl all c r v) := by
  unfold strConstTpl; raises

theorem strInTpl_own (all : Bool) (c : Ctx) (r : StringRules) (v : Bytes) :
    Raises (Own c) (strInTpl all c r v) := by
  unfold strInTpl; raises

theorem strLenTpl_own (all : Bool) (c : Ctx) (r : StringRules) (v : Bytes) :
    Raises (Own c) (strLenTpl all c r v) := by
  unfold strLenTpl; raises

theorem strLenBytesTpl_own (all : Bool) (c : Ctx) (r : StringRules) (v : Bytes) :
    Raises (Own c) (strLenBytesTpl all c r v) := by
  unfold strLenBytesTpl; raises

theorem strAffixTpl_own (all : Bool) (c : Ctx) (r : StringRules) (v : Bytes) :
    Raises (Own c) (strAffixTpl all c r v) := by
  unfold strAffixTpl; raises

theorem strWellKnownTpl_own (E : Env) (all : Bool) (c : Ctx) (r : StringRules) (v : Bytes) :
    Raises (Own c) (strWellKnownTpl E all c r v) := by
  unfold strWellKnownTpl; raises

theorem strPatternTpl_own (E : Env) (all : Bool) (c : Ctx) (r : StringRules) (v : Bytes) :
    Raises (Own c) (strPatternTpl E all c r v) := by
  unfold strPatternTpl; raises

theorem str_own (E : Env) (all : Bool) (c : Ctx) (r : StringRules) (v : Bytes) :
    Raises (Own c) (strTpl E all c r v) := by
  have h : Raises (Own c) (strConstTpl all c r v ;; strInTpl all c r v ;; strLenTpl all c r v ;;
      strLenBytesTpl all c r v ;; strAffixTpl all c r v ;; strWellKnownTpl E all c r v ;;
      strPatternTpl E all c r v) :=
    .seq (strConstTpl_own all c r v) <| .seq (strInTpl_own all c r v) <| .seq (strLenTpl_own all c r v) <|
      .seq (strLenBytesTpl_own all c r v) <| .seq (strAffixTpl_own all c r v) <| .seq (strWellKnownTpl_own E all c r v) <|
      strPatternTpl_own E all c r v
  unfold strTpl
  split
  · exact h.when
  · exact h

theorem bytesLenTpl_own (all : Bool) (c : Ctx) (r : BytesRules) (v : Bytes) :
    Raises (Own c) (bytesLenTpl all c r v) := by
  unfold bytesLenTpl; raises

theorem bytesAffixTpl_own (all : Bool) (c : Ctx) (r : BytesRules) (v : Bytes) :
    Raises (Own c) (bytesAffixTpl all c r v) := by
  unfold bytesAffixTpl; raises

theorem bytesInTpl_own (all : Bool) (c : Ctx) (r : BytesRules) (v : Bytes) :
    Raises (Own c) (bytesInTpl all c r v) := by
  unfold bytesInTpl; raises

theorem bytesConstTpl_own (all : Bool) (c : Ctx) (r : BytesRules) (v : Bytes) :
    Raises (Own c) (bytesConstTpl all c r v) := by
  unfold bytesConstTpl; raises

theorem bytesIpTpl_own (all : Bool) (c : Ctx) (r : BytesRules) (v : Bytes) :
    Raises (Own c) (bytesIpTpl all c r v) := by
  unfold bytesIpTpl; raises

theorem bytesPatternTpl_own (E : Env) (all : Bool) (c : Ctx) (r : BytesRules) (v : Bytes) :
    Raises (Own c) (bytesPatternTpl E all c r v) := by
  unfold bytesPatternTpl; raises

theorem bytes_own (E : Env) (all : Bool) (c : Ctx) (r : BytesRules) (v : Bytes) :
    Raises (Own c) (bytesTpl E all c r v) := by
  have h : Raises (Own c) (bytesLenTpl all c r v ;; bytesAffixTpl all c r v ;; bytesInTpl all c r v ;;
      bytesConstTpl all c r v ;; bytesIpTpl all c r v ;; bytesPatternTpl E all c r v) :=
    .seq (bytesLenTpl_own all c r v) <| .seq (bytesAffixTpl_own all c r v) <| .seq (bytesInTpl_own all c r v) <|
      .seq (bytesConstTpl_own all c r v) <| .seq (bytesIpTpl_own all c r v) <| bytesPatternTpl_own E all c r v
  unfold bytesTpl
  split
  · exact h.when
  · exact h

theorem enum_own (all : Bool) (c : Ctx) (d : List Int) (r : EnumRules) (v : Int) :
    Raises (Own c) (enumTpl all c d r v) := by
  unfold enumTpl; raises

theorem required_own (all : Bool) (c : Ctx) (a b : Bool) : Raises (Own c) (requiredTpl all c a b) := by
  unfold requiredTpl; raises

theorem any_own (all : Bool) (c : Ctx) (r : AnyRules) (v : Option Bytes) :
    Raises (Own c) (anyTpl all c r v) := by
  unfold anyTpl requiredTpl; raises

theorem duration_own (all : Bool) (c : Ctx) (r : DurationRules) (v : Option PDur) :
    Raises (Own c) (durationTpl all c r v) := by
  unfold durationTpl durationcmpTpl durRangeTpl requiredTpl; raises

theorem timestamp_own (now : Instant) (all : Bool) (c : Ctx) (r : TimestampRules) (v : Option PTime) :
    Raises (Own c) (timestampTpl now all c r v) := by
  unfold timestampTpl timestampcmpTpl tsRangeTpl requiredTpl; raises

theorem scalar_own (E : Env) (all : Bool) (c : Ctx) (e : ElemT) (t : TypeRules) (v : Scalar) :
    Raises (Own c) (scalarTpl E all c e t v) := by
  unfold scalarTpl
  repeat' split
  all_goals first
    | exact num_own _ _ _ _
    | exact bool_own _ _ _ _
    | exact str_own _ _ _ _ _
    | exact bytes_own _ _ _ _ _
    | exact enum_own _ _ _ _ _
    | exact Raises.skip

/-- The error `x` is what validating the embedded message `v` gives. -/
def FromChild (E : Env) (S : Schema) (all : Bool) (rec : Rec) (v : Val) (x : Err) : Prop :=
  (Validated S v ∧ rec all v = some x) ∨ E.legacy v = some x

/-- Errors of an embedded message field. -/
def Wrapped (E : Env) (S : Schema) (all : Bool) (rec : Rec) (c : Ctx) (v : Val) (e : Err) : Prop :=
  ∃ x, FromChild E S all rec v x ∧ e = errCause c x [.s "embedded message failed validation"]

theorem message_raises_of {Q : Err → Prop} (E : Env) (S : Schema) (all : Bool) (rec : Rec) (c : Ctx)
    (m : Option MessageRules) (v : Val)
    (hq : Raises Q (requiredTpl all c (msgRequired m) (Val.isNull v))) :
    Raises (fun e => Q e ∨ (msgSkip m = false ∧ Wrapped E S all rec c v e))
      (messageTpl E S all rec c m v) := by
  unfold messageTpl
  refine Raises.seq (hq.mono fun _ h => .inl h) ?_
  cases hs : msgSkip m with
  | true => exact Raises.skip
  | false =>
    simp only [Bool.false_eq_true, if_false, true_and]
    have hb : methods S v = .both → Validated S v := by
      intro h
      unfold methods at h
      split at h
      · rename_i typ fs os
        cases hS : S typ with
        | generated d =>
          refine ⟨typ, fs, os, d, rfl, hS, ?_⟩
          rw [hS] at h
          cases hi : d.ignored <;> simp_all
        | legacy => simp [hS] at h
        | foreign => simp [hS] at h
      · simp at h
    cases all with
    | true =>
      cases hm : methods S v with
      | both =>
        cases hr : rec true v with
        | none => simp [hm, hr]; exact Raises.skip
        | some x =>
          simp only [if_true]
          exact Raises.append (.inr ⟨x, .inl ⟨hb hm, hr⟩, rfl⟩)
      | validateOnly =>
        cases hr : E.legacy v with
        | none => simp [hm, hr]; exact Raises.skip
        | some x =>
          simp only [if_true]
          exact Raises.append (.inr ⟨x, .inr hr, rfl⟩)
      | none => exact Raises.skip
    | false =>
      cases hm : methods S v with
      | both =>
        cases hr : rec false v with
        | none => simp [hm, hr]; exact Raises.skip
        | some x =>
          simp only [Bool.false_eq_true, if_false]
          exact Raises.ret (.inr ⟨x, .inl ⟨hb hm, hr⟩, rfl⟩)
      | validateOnly =>
        cases hr : E.legacy v with
        | none => simp [hm, hr]; exact Raises.skip
        | some x =>
          simp only [Bool.false_eq_true, if_false]
          exact Raises.ret (.inr ⟨x, .inr hr, rfl⟩)
      | none => exact Raises.skip

theorem message_raises (E : Env) (S : Schema) (all : Bool) (rec : Rec) (c : Ctx)
    (m : Option MessageRules) (v : Val) :
    Raises (fun e => Own c e ∨ (msgSkip m = false ∧ Wrapped E S all rec c v e))
      (messageTpl E S all rec c m v) :=
  message_raises_of E S all rec c m v (required_own _ _ _ _)

/-- Where an element's errors come from: raised at the context, or (wrapped values) at the same
field without index, or by an embedded message. -/
def ElemErr (E : Env) (S : Schema) (all : Bool) (rec : Rec) (c : Ctx) (e : ElemT)
    (rules : FieldRules) (v : Val) (x : Err) : Prop :=
  Own c x ∨
  (e.isEmbed = true ∧ rules.type ≠ .unset ∧ Own { c with index := none, onKey := false } x) ∨
  (e.isEmbed = true ∧ rules.type = .unset ∧ msgSkip rules.message = false ∧
    Wrapped E S all rec c v x)

theorem elem_raises (E : Env) (S : Schema) (all : Bool) (rec : Rec) (c : Ctx) (e : ElemT)
    (rules : FieldRules) (v : Val) :
    Raises (ElemErr E S all rec c e rules v) (elemTpl E S all rec c e rules v) := by
  have plain : ∀ t : TypeRules, Raises (ElemErr E S all rec c e rules v)
      (match t, v with
        | .any r, .any url _ => anyTpl all c r (some url)
        | .any r, .null => anyTpl all c r none
        | .duration r, .dur d => durationTpl all c r (some d)
        | .duration r, .null => durationTpl all c r none
        | .timestamp r, .ts t => timestampTpl E.now all c r (some t)
        | .timestamp r, .null => timestampTpl E.now all c r none
        | t, .sc s => scalarTpl E all c e t s
        | _, _ => skip) := by
    intro t
    refine Raises.mono (Q := Own c) ?_ (fun _ h => .inl h)
    split
    all_goals first
      | exact any_own _ _ _ _
      | exact duration_own _ _ _ _
      | exact timestamp_own _ _ _ _ _
      | exact scalar_own _ _ _ _ _ _
      | exact Raises.skip
  have wrapped : ∀ t, e.isEmbed = true → rules.type ≠ .unset → Raises (ElemErr E S all rec c e rules v)
      (wrapperTpl E all c e t rules.message v) := by
    intro t he ht
    unfold wrapperTpl
    split
    · exact (scalar_own _ _ _ _ _ _).mono fun _ h => .inr (.inl ⟨he, ht, h⟩)
    · exact ((Raises.report (own_err _ _)).when (Q := Own c)).mono fun _ h => .inl h
    · exact Raises.skip
  unfold elemTpl
  cases ht : rules.type with
  | unset =>
    cases he : e.isEmbed with
    | true =>
      simp only [resolve, ht, he, if_true]
      exact (message_raises E S all rec c rules.message v).mono fun x h => by
        rcases h with h | ⟨h1, h2⟩
        · exact .inl h
        · exact .inr (.inr ⟨he, ht, h1, h2⟩)
    | false =>
      simp only [resolve, ht, he]
      exact Raises.skip
  | num k r =>
    have hne : rules.type ≠ .unset := by simp [ht]
    cases he : e.isEmbed <;> cases k <;> simp only [resolve, ht, he, if_true, Bool.false_eq_true, if_false] <;>
      first
        | exact wrapped _ he hne
        | exact plain _
  | bool r =>
    have hne : rules.type ≠ .unset := by simp [ht]
    cases he : e.isEmbed <;> simp only [resolve, ht, he, if_true, Bool.false_eq_true, if_false] <;>
      first
        | exact wrapped _ he hne
        | exact plain _
  | string r =>
    have hne : rules.type ≠ .unset := by simp [ht]
    cases he : e.isEmbed <;> simp only [resolve, ht, he, if_true, Bool.false_eq_true, if_false] <;>
      first
        | exact wrapped _ he hne
        | exact plain _
  | bytes r =>
    have hne : rules.type ≠ .unset := by simp [ht]
    cases he : e.isEmbed <;> simp only [resolve, ht, he, if_true, Bool.false_eq_true, if_false] <;>
      first
        | exact wrapped _ he hne
        | exact plain _
  | _ =>
    simp only [resolve, ht]
    exact plain _

theorem repLoop_raises {Q : Err → Prop} {all unique : Bool} {c : Ctx} {item : Nat → Val → Exec}
    (hd : ∀ i, Q (errIdx c (.pos i) [.s "repeated value must contain unique items"]))
    (vs : List Val) (idx : Nat) (seen : List Val)
    (hi : ∀ k v, vs[k]? = some v → Raises Q (item (idx + k) v)) :
    Raises Q (repLoop all unique c item idx seen vs) := by
  induction vs generalizing idx seen with
  | nil => exact Raises.skip
  | cons v vs ih =>
    refine Raises.seq (Raises.when (Raises.report (hd idx))) (Raises.seq (hi 0 v rfl) (ih _ _ ?_))
    intro k w hw
    have := hi (k + 1) w (by simpa using hw)
    rwa [show idx + 1 + k = idx + (k + 1) by omega]

/-- Where the errors of a field come from. -/
inductive FieldErr (E : Env) (S : Schema) (all : Bool) (rec : Rec) (msg : String) (f : FieldDesc)
    (v : Val) : Err → Prop
  | own {i reason cause} : PlainCause cause →
      FieldErr E S all rec msg f v (.viol msg ⟨f.name, i⟩ reason cause false)
  | nested {i rules w x} : HeldBy f v i rules w → rules.type = .unset →
      msgSkip rules.message = false → FromChild E S all rec w x →
      FieldErr E S all rec msg f v
        (.viol msg ⟨f.name, i⟩ [.s "embedded message failed validation"] (some x) false)

theorem Own.fieldErr {E : Env} {S : Schema} {all : Bool} {rec : Rec} {f : FieldDesc} {v : Val}
    {c : Ctx} (hk : c.onKey = false) (hf : c.field = f.name) {e : Err} (h : Own c e) :
    FieldErr E S all rec c.msg f v e := by
  obtain ⟨r, x, hx, rfl⟩ := h
  rw [hk, hf]
  exact .own hx

theorem ElemErr.fieldErr {E : Env} {S : Schema} {all : Bool} {rec : Rec} {f : FieldDesc} {v w : Val}
    {c : Ctx} {e : ElemT} {rules : FieldRules} (hk : c.onKey = false) (hf : c.field = f.name)
    (hh : e.isEmbed = true → HeldBy f v c.index rules w)
    {x : Err} (h : ElemErr E S all rec c e rules w x) : FieldErr E S all rec c.msg f v x := by
  rcases h with h | ⟨_, _, h⟩ | ⟨he, ht, hs, y, hy, rfl⟩
  · exact h.fieldErr hk hf
  · exact Own.fieldErr (c := { c with index := none, onKey := false }) rfl hf h
  · have := FieldErr.nested (E := E) (S := S) (all := all) (rec := rec) (msg := c.msg) (hh he) ht hs hy
    simpa [errCause, mkErr, hk, hf] using this

theorem field_raises (E : Env) (S : Schema) (all : Bool) (rec : Rec) (msg : String) (f : FieldDesc)
    (v : Val) : Raises (FieldErr E S all rec msg f v) (renderField E S all rec msg f v) := by
  have atf : ∀ (i : Option Idx) (r : List Piece), FieldErr E S all rec msg f v
      (.viol msg ⟨f.name, i⟩ r none false) := fun i r => .own (cause := none) trivial
  have rep : ∀ (e : ElemT) (r : RepeatedRules) (items : FieldRules) (vs : List Val), f.typ = .rep e →
      itemRules f.rules = some items → v = .list vs →
      Raises (FieldErr E S all rec msg f v)
        (repTpl E S all rec { msg := msg, field := f.name } e r items vs) := by
    intro e r items vs hT hI hv
    have hlen : Raises (FieldErr E S all rec msg f v)
        (repLenTpl all { msg := msg, field := f.name } r vs.length) := by
      unfold repLenTpl
      repeat' (first
        | exact Raises.skip
        | exact Raises.when (Raises.report (atf none _))
        | split)
    have hbody : Raises (FieldErr E S all rec msg f v)
        (repLenTpl all { msg := msg, field := f.name } r vs.length ;;
          if optB r.unique || elemTypNotNone e items then
            repLoop all (optB r.unique) { msg := msg, field := f.name }
              (fun idx v => elemTpl E S all rec
                { msg := msg, field := f.name, index := some (.pos idx) } e items v) 0 [] vs
          else skip) := by
      refine Raises.seq hlen ?_
      split
      · refine repLoop_raises (fun i => atf (some (.pos i)) _) vs 0 [] ?_
        intro k w hw
        refine (elem_raises E S all rec _ e items w).mono fun x hx => ?_
        refine hx.fieldErr (f := f) (c := { msg := msg, field := f.name, index := some (.pos (0 + k)) })
          rfl rfl ?_
        intro he
        rw [hv]
        cases e with
        | embed t wk => simpa using HeldBy.item hT hI hw
        | _ => simp [ElemT.isEmbed] at he
      · exact Raises.skip
    unfold repTpl
    exact hbody.skipEmpty
  have map : ∀ (kt vt : ElemT) (r : MapRules) (keys values : FieldRules) (kvs : List (Scalar × Val)),
      f.typ = .map kt vt → valueRules f.rules = some values → v = .map kvs →
      Raises (FieldErr E S all rec msg f v)
        (mapTpl E S all rec { msg := msg, field := f.name } kt vt r keys values kvs) := by
    intro kt vt r keys values kvs hT hI hv
    have hlen : Raises (FieldErr E S all rec msg f v)
        (mapLenTpl all { msg := msg, field := f.name } r kvs.length) := by
      unfold mapLenTpl
      repeat' (first
        | exact Raises.skip
        | exact Raises.when (Raises.report (atf none _))
        | split)
    have hbody : Raises (FieldErr E S all rec msg f v)
        (mapLenTpl all { msg := msg, field := f.name } r kvs.length ;;
          if optB r.noSparse || elemTypNotNone vt values || elemTypNotNone kt keys then
            forEach (E.order kvs)
              (mapEntry E S all rec { msg := msg, field := f.name } kt vt r keys values)
          else skip) := by
      refine Raises.seq hlen ?_
      split
      · refine Raises.forEach _ fun kv hkv => ?_
        have hmem : kv ∈ kvs := (E.order_perm kvs).mem_iff.1 hkv
        refine Raises.seq (Raises.when (Raises.report (atf (some (.key kv.1)) _))) (Raises.seq ?_ ?_)
        · have : Raises (Own { msg := msg, field := f.name, index := some (.key kv.1) })
              (keyTpl E all { msg := msg, field := f.name, index := some (.key kv.1) } kt keys kv.1) := by
            unfold keyTpl
            split
            · exact Raises.skip
            · exact scalar_own _ _ _ _ _ _
          exact this.mono fun x hx => Own.fieldErr
            (c := { msg := msg, field := f.name, index := some (.key kv.1) }) rfl rfl hx
        · refine (elem_raises E S all rec _ vt values kv.2).mono fun x hx => ?_
          refine hx.fieldErr (f := f) (c := { msg := msg, field := f.name, index := some (.key kv.1) })
            rfl rfl ?_
          intro he
          rw [hv]
          cases vt with
          | embed t wk => exact HeldBy.value hT hI hmem
          | _ => simp [ElemT.isEmbed] at he
      · exact Raises.skip
    unfold mapTpl
    exact hbody.skipEmpty
  unfold renderField
  split
  · rename_i e hT
    refine (elem_raises E S all rec _ e f.rules _).mono fun x hx => ?_
    refine hx.fieldErr (f := f) (c := { msg := msg, field := f.name }) rfl rfl ?_
    intro he
    cases e with
    | embed t wk => exact HeldBy.field hT
    | _ => simp [ElemT.isEmbed] at he
  · rename_i e vs hT
    split
    · rename_i r items hr
      exact rep e r items _ hT (by simp [itemRules, hr]) rfl
    · rename_i hr
      exact rep e {} .absent _ hT (by simp [itemRules, hr]) rfl
    · exact Raises.skip
  · rename_i kt vt kvs hT
    split
    · rename_i r keys values hr
      exact map kt vt r keys values _ hT (by simp [valueRules, hr]) rfl
    · rename_i hr
      split
      · exact map kt vt {} .absent .absent _ hT (by simp [valueRules, hr]) rfl
      · exact Raises.skip
    · exact Raises.skip
  · exact Raises.skip

/-- Where the errors of a message come from. -/
inductive MsgErr (E : Env) (S : Schema) (all : Bool) (rec : Rec) (d : MsgDesc)
    (fs : List (String × Val)) (os : List (String × String × Val)) : Err → Prop
  | field {f v e} : Active d fs os f v → FieldErr E S all rec d.name f v e →
      MsgErr E S all rec d fs os e
  | oneof {o} : o ∈ d.oneofs → os.lookup o.name = none →
      MsgErr E S all rec d fs os (.viol d.name ⟨o.name, none⟩ [.s "value is required"] none false)

theorem body_raises (E : Env) (S : Schema) (all : Bool) (rec : Rec) (d : MsgDesc)
    (fs : List (String × Val)) (os : List (String × String × Val)) :
    Raises (MsgErr E S all rec d fs os) (bodyExec E S all rec d fs os) := by
  refine Raises.seq (Raises.forEach _ fun f hf => ?_) (Raises.forEach _ fun o ho => ?_)
  · exact (field_raises E S all rec d.name f _).mono fun e he => .field (.field hf) he
  · unfold oneofTpl
    split
    · rename_i m v hl
      split
      · rename_i f hf
        exact (field_raises E S all rec d.name f v).mono fun e he => .field (.member ho hl hf) he
      · exact Raises.skip
    · rename_i hl
      exact Raises.when (Raises.report (.oneof ho hl))

theorem Raises.fast {Q : Err → Prop} {x : Exec} (h : Raises Q x) {n : String} {e : Err}
    (hx : finish n (x []) = some e) : Q e ∨ ∃ es, e = .multi n es ∧ ∀ x ∈ es, Q x := by
  have := h []
  cases hr : x [] with
  | error e' => rw [hr] at this hx; simp only [finish, Option.some.injEq] at hx; subst hx; exact .inl this
  | ok es =>
    rw [hr] at this hx
    obtain ⟨l, h1, h2⟩ := this
    cases es with
    | nil => simp [finish] at hx
    | cons a as =>
      simp only [finish, Option.some.injEq] at hx
      refine .inr ⟨a :: as, hx.symm, ?_⟩
      rw [h1]; simpa using h2

end PGV.Go
