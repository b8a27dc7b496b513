import Verif.Lemmas.Reason
import Verif.Lemmas.Rep
import Verif.Lemmas.Knot

/-!
Reasons of violations of fields and messages.
-/

set_option linter.unusedSimpArgs false

namespace PGV.Go
open PGV Exec PGV.Spec

/-- What the errors of a field say. -/
inductive FieldSays (E : Env) (S : Schema) (valid : Val → Prop) (all : Bool) (rec : Rec) (msg : String)
    (f : FieldDesc) (v : Val) : Err → Prop
  | own {i reason cause e t ok w} : PlainCause cause → Target E S valid f v i e t ok w →
      ¬ Reading E e reason w → (∀ u, Acc t ok w u → Reading E e reason u) →
      FieldSays E S valid all rec msg f v (.viol msg ⟨f.name, i⟩ reason cause false)
  | nested {i rules w x} : HeldBy f v i rules w → rules.type = .unset →
      msgSkip rules.message = false → FromChild E S all rec w x →
      FieldSays E S valid all rec msg f v
        (.viol msg ⟨f.name, i⟩ [.s "embedded message failed validation"] (some x) false)

section
variable {E : Env} {S : Schema} {valid : Val → Prop} {all : Bool} {rec : Rec} {f : FieldDesc} {v w : Val}

theorem Tells.fieldSays {c : Ctx} {e : ElemT} {t : TypeRules} {ok : Val → Prop} {x : Err}
    (h : Tells c (Reading E e) (Acc t ok w) w x) (hk : c.onKey = false) (hf : c.field = f.name)
    (ht : Target E S valid f v c.index e t ok w) : FieldSays E S valid all rec c.msg f v x := by
  obtain ⟨r, k, h1, rfl, h3, h4⟩ := h
  rw [hk, hf]
  exact .own h1 ht h3 h4

theorem ElemSays.fieldSays {c : Ctx} {e : ElemT} {rules : FieldRules} {x : Err}
    (h : ElemSays E S valid all rec c e rules w x) (hk : c.onKey = false) (hf : c.field = f.name)
    (hh : e.isEmbed = true → HeldBy f v c.index rules w)
    (ht : Target E S valid f v c.index e rules.type (ValueOk E S valid e rules) w)
    (htw : ∀ s, w = .wrapper s → Target E S valid f v none e rules.type (ValueOk E S valid e rules) w) :
    FieldSays E S valid all rec c.msg f v x := by
  rcases h with h | ⟨s, hs, h⟩ | ⟨he, ht, hs, y, hy, rfl⟩
  · exact h.fieldSays hk hf ht
  · exact Tells.fieldSays (c := { c with index := none, onKey := false }) h rfl hf (htw s hs)
  · have := FieldSays.nested (E := E) (S := S) (valid := valid) (all := all) (rec := rec) (msg := c.msg)
      (hh he) ht hs hy
    simpa [errCause, mkErr, hk, hf] using this

/-- The item counts of lists, and the pair counts of maps. -/
theorem count_tells (c : Ctx) (e : ElemT) (B : Val → Prop) (min max : Option Nat) (u1 u2 : String) (n : Nat) (w : Val)
    (hu1 : size u1 (content w) = some n) (hu2 : size u2 (content w) = some n)
    (hA : ∀ u, B u → u = .null ∨ ∃ m, size u1 (content u) = some m ∧ size u2 (content u) = some m ∧
      CountOk min max m) :
    Raises (Tells c (Reading E e) B w)
      (if optN min != 0 then
        if optN min == optN max then
          when (n != optN min)
            (report all (err c [.s "value must contain exactly ", .nat (optN min), .s u1]))
        else if max.isSome then
          when (decide (n < optN min) || decide (n > optN max))
            (report all (err c [.s "value must contain between ", .nat (optN min), .s " and ",
              .nat (optN max), .s u2]))
        else
          when (decide (n < optN min))
            (report all (err c [.s "value must contain at least ", .nat (optN min), .s u1]))
      else if max.isSome then
        when (decide (n > optN max))
          (report all (err c [.s "value must contain no more than ", .nat (optN max), .s u1]))
      else skip) := by
  have nul : ∀ u, size u Val.null = none := by intro u; unfold size; split <;> simp_all
  have step : ∀ (b : Bool) (p : List Piece) (good : Nat → Prop) (u : String), u = u1 ∨ u = u2 →
      (∀ x, Reading E e p x ↔ ∀ k, size u (content x) = some k → good k) →
      (b = true → ¬ good n) → (∀ m, CountOk min max m → good m) →
      Raises (Tells c (Reading E e) B w) (Exec.when b (report all (err c p))) := by
    intro b p good u hu h1 h2 h3
    refine tells_check ?_ fun x hx => ?_
    · intro hb hR
      refine h2 hb ((h1 w).1 hR _ ?_)
      rcases hu with rfl | rfl
      · exact hu1
      · exact hu2
    · refine (h1 x).2 fun k hk => ?_
      rcases hA x hx with rfl | ⟨m, m1, m2, hm⟩
      · rw [show content .null = .null from rfl, nul] at hk; cases hk
      · rcases hu with rfl | rfl
        · rw [m1] at hk; cases hk; exact h3 _ hm
        · rw [m2] at hk; cases hk; exact h3 _ hm
  split
  · rename_i h0
    have hmin : ∃ a, min = some a := by
      cases min with
      | none => simp [optN] at h0
      | some a => exact ⟨a, rfl⟩
    obtain ⟨a, rfl⟩ := hmin
    split
    · rename_i hab
      have hmax : max = some a := by
        cases max with
        | none => simp [optN] at hab h0; omega
        | some b => simp [optN] at hab; rw [hab]
      subst hmax
      refine step _ _ (· = a) u1 (.inl rfl) (fun _ => Iff.rfl) (by simp [optN]) ?_
      intro m hm
      have := hm.1 a rfl
      have := hm.2 a rfl
      omega
    · split
      · rename_i hm
        cases max with
        | none => simp at hm
        | some b =>
          refine step _ _ (fun k => a ≤ k ∧ k ≤ b) u2 (.inr rfl) (fun _ => Iff.rfl) ?_
            (fun m hm => ⟨hm.1 a rfl, hm.2 b rfl⟩)
          intro h
          rw [Bool.or_eq_true] at h
          rcases h with h | h
          · have : n < a := of_decide_eq_true h
            omega
          · have : n > b := of_decide_eq_true h
            omega
      · refine step _ _ (fun k => a ≤ k) u1 (.inl rfl) (fun _ => Iff.rfl) ?_ (fun m hm => hm.1 a rfl)
        intro h
        have : n < a := of_decide_eq_true h
        omega
  · split
    · rename_i hm
      cases max with
      | none => simp at hm
      | some b =>
        refine step _ _ (fun k => k ≤ b) u1 (.inl rfl) (fun _ => Iff.rfl) ?_ (fun m hm => hm.2 b rfl)
        intro h
        have : n > b := of_decide_eq_true h
        omega
    · exact Raises.skip

theorem repLoop_says {Q : Err → Prop} {unique : Bool} {c : Ctx} {item : Nat → Val → Exec}
    (l : List Val)
    (hd : unique = true → ∀ m n u w, m < n → l[m]? = some u → l[n]? = some w → SameItem u w →
      Q (errIdx c (.pos n) [.s "repeated value must contain unique items"]))
    (vs pre seen : List Val) (hl : l = pre ++ vs) (hs : ∀ u ∈ seen, u ∈ pre)
    (hi : ∀ k v, l[k]? = some v → Raises Q (item k v)) :
    Raises Q (repLoop all unique c item pre.length seen vs) := by
  induction vs generalizing pre seen with
  | nil => exact Raises.skip
  | cons v vs ih =>
    have hv : l[pre.length]? = some v := by simp [hl]
    refine Raises.seq (Raises.whenIf fun h => Raises.report ?_) (Raises.seq (hi _ v hv) ?_)
    · rw [Bool.and_eq_true] at h
      obtain ⟨u, hu, he⟩ := List.any_eq_true.1 h.2
      obtain ⟨m, hm, rfl⟩ := List.getElem_of_mem (hs u hu)
      refine hd h.1 m pre.length pre[m] v hm ?_ hv ((keyEq_iff _ _).1 he)
      rw [hl, List.getElem?_append_left hm]
      exact List.getElem?_eq_getElem hm
    · have := ih (pre ++ [v])
        (if unique && !(unique && seen.any fun w => keyEq w v) then v :: seen else seen)
        (by simp [hl]) (by
          intro u hu
          split at hu
          · rcases List.mem_cons.1 hu with rfl | hu
            · simp
            · simp [hs u hu]
          · simp [hs u hu])
      simpa using this

end

theorem field_says (E : Env) (S : Schema) (valid : Val → Prop) (all : Bool) (rec : Rec) (msg : String)
    (f : FieldDesc) (v : Val) :
    Raises (FieldSays E S valid all rec msg f v) (renderField E S all rec msg f v) := by
  have rep : ∀ (e : ElemT) (r : RepeatedRules) (items : FieldRules) (vs : List Val), f.typ = .rep e →
      itemRules f.rules = some items →
      (∀ us, FieldOk E S valid f (.list us) → ¬ Exempt f.rules.type (.list us) →
        CountOk r.minItems r.maxItems us.length ∧
        (r.unique = some true → us.Pairwise fun a b => ¬ SameItem a b)) →
      Raises (FieldSays E S valid all rec msg f (.list vs))
        (repTpl E S all rec { msg := msg, field := f.name } e r items vs) := by
    intro e r items vs hT hI hA
    have alike : ∀ u, Acc f.rules.type (FieldOk E S valid f) (.list vs) u →
        u = .null ∨ ∃ us, u = .list us ∧ CountOk r.minItems r.maxItems us.length ∧
          (r.unique = some true → us.Pairwise fun a b => ¬ SameItem a b) := by
      rintro u ⟨h1, h2, h3⟩
      cases u with
      | list us => exact .inr ⟨us, rfl, hA us h2 h3⟩
      | null => exact .inl rfl
      | _ => exact h1.elim
    unfold repTpl
    refine Raises.skipEmpty (Raises.seq ?_ ?_)
    · refine Raises.mono (count_tells (E := E) (all := all) { msg := msg, field := f.name } e _ r.minItems r.maxItems
        " item(s)" " items, inclusive" vs.length (.list vs) rfl rfl ?_) fun x hx =>
        Tells.fieldSays (c := { msg := msg, field := f.name }) hx rfl rfl (Target.list hT)
      intro u hu
      rcases alike u hu with rfl | ⟨us, rfl, h, _⟩
      · exact .inl rfl
      · exact .inr ⟨_, rfl, rfl, h⟩
    · split
      · refine repLoop_says vs ?_ vs [] [] rfl (by simp) ?_
        · intro hu m n a b hmn hm hn hab
          refine .own (cause := none) trivial (Target.duplicate hT hmn hm hn hab) ?_ ?_
          · intro hR
            have hp := hR vs rfl
            obtain ⟨hm', rfl⟩ := List.getElem?_eq_some_iff.1 hm
            obtain ⟨hn', rfl⟩ := List.getElem?_eq_some_iff.1 hn
            exact (List.pairwise_iff_getElem.1 hp) m n hm' hn' hmn hab
          · intro u hu' us hus
            rcases alike u hu' with rfl | ⟨us', rfl, _, h⟩
            · simp [content] at hus
            · cases hus
              exact h ((optB_iff _).1 hu)
        · intro k w hw
          refine (elem_says E S valid all rec _ e items w).mono fun x hx => ?_
          refine hx.fieldSays (f := f) (c := { msg := msg, field := f.name, index := some (.pos k) })
            rfl rfl ?_ (Target.item hT hI hw) ?_
          · intro he
            cases e with
            | embed t wk => exact HeldBy.item hT hI hw
            | _ => simp [ElemT.isEmbed] at he
          · rintro s rfl
            exact Target.wrappedItem hT hI hw
      · exact Raises.skip
  have map : ∀ (kt vt : ElemT) (r : MapRules) (keys values : FieldRules) (kvs : List (Scalar × Val)),
      f.typ = .map kt vt → valueRules f.rules = some values →
      (f.rules.type = .map r keys values ∨ (r = {} ∧ keys.type = .unset)) →
      Raises (FieldSays E S valid all rec msg f (.map kvs))
        (mapTpl E S all rec { msg := msg, field := f.name } kt vt r keys values kvs) := by
    intro kt vt r keys values kvs hT hI hr
    unfold mapTpl
    refine Raises.skipEmpty (Raises.seq ?_ ?_)
    · refine Raises.mono (count_tells (E := E) (all := all) { msg := msg, field := f.name } vt _ r.minPairs r.maxPairs
        " pair(s)" " pairs, inclusive" kvs.length (.map kvs) rfl rfl ?_) fun x hx =>
        Tells.fieldSays (c := { msg := msg, field := f.name }) hx rfl rfl (Target.map hT)
      rintro u ⟨h1, h2, h3⟩
      cases u with
      | map us =>
        refine .inr ⟨_, rfl, rfl, ?_⟩
        rcases hr with hr | ⟨rfl, _⟩
        · unfold FieldOk at h2
          rw [hT, hr] at h2
          rw [hr] at h3
          exact (h2.resolve_left fun h => h3 ⟨h.1, by rw [h.2]⟩).1
        · exact ⟨by simp, by simp⟩
      | null => exact .inl rfl
      | _ => exact h1.elim
    · split
      · refine Raises.forEach _ fun kv hkv => ?_
        have hmem : (kv.1, kv.2) ∈ kvs := (E.order_perm kvs).mem_iff.1 hkv
        refine Raises.seq ?_ (Raises.seq ?_ ?_)
        · refine Raises.whenIf fun h => Raises.report ?_
          rw [Bool.and_eq_true] at h
          rcases hr with hr | ⟨rfl, _⟩
          · refine .own (cause := none) trivial
              (Target.sparse hT hr ((optB_iff _).1 h.1) hmem) ?_ ?_
            · intro hR
              have hR : content kv.2 ≠ .null := hR
              apply hR
              rw [content_null]
              have := h.2
              cases h2 : kv.2 <;> simp [h2, Val.isNull] at this ⊢
            · rintro u ⟨_, hu, _⟩
              show content u ≠ .null
              exact mt (content_null u).1 hu
          · simp [optB] at h
        · unfold keyTpl
          rcases hr with hr | ⟨_, hk⟩
          · split
            · exact Raises.skip
            · refine Raises.mono (scalarField_tells E kt all _ keys.type
                (fun u => ∀ k, u = .sc k → ScalarOk E kt keys.type k) kv.1 (fun u h => h u rfl)) fun x hx =>
                  Tells.fieldSays (c := { msg := msg, field := f.name, index := some (.key kv.1) }) hx rfl rfl
                    (Target.key hT hr hmem)
          · rw [hk]; exact Raises.skip
        · refine (elem_says E S valid all rec _ vt values kv.2).mono fun x hx => ?_
          refine hx.fieldSays (f := f) (c := { msg := msg, field := f.name, index := some (.key kv.1) })
            rfl rfl ?_ (Target.value hT hI hmem) ?_
          · intro he
            cases vt with
            | embed t wk => exact HeldBy.value hT hI hmem
            | _ => simp [ElemT.isEmbed] at he
          · intro s hs
            rw [hs] at hmem ⊢
            exact Target.wrappedValue hT hI hmem
      · exact Raises.skip
  unfold renderField
  split
  · rename_i e hT
    refine (elem_says E S valid all rec _ e f.rules _).mono fun x hx => ?_
    refine hx.fieldSays (f := f) (c := { msg := msg, field := f.name }) rfl rfl ?_ (Target.field hT)
      (fun _ _ => Target.field hT)
    intro he
    cases e with
    | embed t wk => exact HeldBy.field hT
    | _ => simp [ElemT.isEmbed] at he
  · rename_i e vs hT
    split
    · rename_i r items hr
      refine rep e r items _ hT (by simp [itemRules, hr]) ?_
      intro us h1 h2
      unfold FieldOk at h1
      rw [hT, hr] at h1
      rw [hr] at h2
      have := h1.resolve_left fun h => h2 ⟨h.1, by rw [h.2]⟩
      exact ⟨this.1, this.2.1⟩
    · rename_i hr
      exact rep e {} .absent _ hT (by simp [itemRules, hr]) fun _ _ _ => ⟨⟨by simp, by simp⟩, by simp⟩
    · exact Raises.skip
  · rename_i kt vt kvs hT
    split
    · rename_i r keys values hr
      exact map kt vt r keys values _ hT (by simp [valueRules, hr]) (.inl hr)
    · rename_i hr
      split
      · exact map kt vt {} .absent .absent _ hT (by simp [valueRules, hr]) (.inr ⟨rfl, rfl⟩)
      · exact Raises.skip
    · exact Raises.skip
  · exact Raises.skip

/-- What the errors of a message say. -/
inductive MsgSays (E : Env) (S : Schema) (valid : Val → Prop) (all : Bool) (rec : Rec) (d : MsgDesc)
    (fs : List (String × Val)) (os : List (String × String × Val)) : Err → Prop
  | field {f v e} : Active d fs os f v → FieldSays E S valid all rec d.name f v e →
      MsgSays E S valid all rec d fs os e
  | oneof {o} : o ∈ d.oneofs → o.required = true → os.lookup o.name = none →
      MsgSays E S valid all rec d fs os (.viol d.name ⟨o.name, none⟩ [.s "value is required"] none false)

theorem body_says (E : Env) (S : Schema) (valid : Val → Prop) (all : Bool) (rec : Rec) (d : MsgDesc)
    (fs : List (String × Val)) (os : List (String × String × Val)) :
    Raises (MsgSays E S valid all rec d fs os) (bodyExec E S all rec d fs os) := by
  refine Raises.seq (Raises.forEach _ fun f hf => ?_) (Raises.forEach _ fun o ho => ?_)
  · exact (field_says E S valid all rec d.name f _).mono fun e he => .field (.field hf) he
  · unfold oneofTpl
    split
    · rename_i m v hl
      split
      · rename_i f hf
        exact (field_says E S valid all rec d.name f v).mono fun e he => .field (.member ho hl hf) he
      · exact Raises.skip
    · rename_i hl
      exact Raises.whenIf fun h => Raises.report (.oneof ho h hl)

end PGV.Go
