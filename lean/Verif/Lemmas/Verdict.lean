import Verif.Spec.Verdict
import Verif.Lemmas.JavaBlame
import Verif.Lemmas.Local

/-!
Generated Java code throws nothing but `ValidationException` on settled values.
-/

set_option linter.unusedSimpArgs false
set_option autoImplicit false

namespace PGV.Java.Calm
open PGV PGV.Spec PGV.Java
open PGV.Go (resolve Resolved elemTypNotNone depth)

variable {f : String} {a b : Run}

protected theorem ok : IsVerdict (.ok ()) := by intro e h; cases h

protected theorem validation {w : Reason} : IsVerdict (.error (.validation f w)) := by
  intro e h
  cases h
  simp [JErr.field]

protected theorem unimplemented : IsVerdict (.error (.unimplemented f)) := by
  intro e h
  cases h
  simp [JErr.field]

protected theorem check {c : Bool} {w : Reason} : IsVerdict (check c f w) := by
  unfold check
  split
  · exact Calm.ok
  · exact Calm.validation

protected theorem seq (ha : IsVerdict a) (hb : IsVerdict b) : IsVerdict (a ⊳ b) := by
  unfold seq
  cases a with
  | ok u => exact hb
  | error e => exact ha

protected theorem when {c : Bool} (ha : c = true → IsVerdict a) : IsVerdict (when c a) := by
  unfold when
  split
  · exact ha ‹_›
  · exact Calm.ok

protected theorem withOpt {α : Type} {o : Option α} {k : α → Run} (h : ∀ x, o = some x → IsVerdict (k x)) :
    IsVerdict (withOpt o k) := by
  unfold withOpt
  cases o with
  | some x => exact h x rfl
  | none => exact Calm.ok

protected theorem ite {c : Prop} [Decidable c] (ha : IsVerdict a) (hb : IsVerdict b) :
    IsVerdict (if c then a else b) := by split <;> assumption

protected theorem withCmp {x : Except JErr Int} {k : Int → Run} (hx : ∃ n, x = .ok n)
    (h : ∀ n, IsVerdict (k n)) : IsVerdict (withCmp x k) := by
  obtain ⟨n, rfl⟩ := hx
  exact h n

theorem forEach {α : Type} {k : α → Run} (xs : List α) (h : ∀ x ∈ xs, IsVerdict (k x)) : IsVerdict (forEach xs k) := by
  induction xs with
  | nil => exact Calm.ok
  | cons x xs ih =>
    unfold Java.forEach
    exact Calm.seq (h x List.mem_cons_self) (ih fun y hy => h y (List.mem_cons_of_mem _ hy))

/-- The comparisons that `ltgt` makes succeed. -/
theorem ltgt {α : Type} [Shown α] {lt lte gt gte : Option α} {c : Cmp α} {v : α}
    (hv : ∀ b, lt = some b ∨ lte = some b ∨ gt = some b ∨ gte = some b → ∃ n, c v b = .ok n)
    (hb : ∀ a b, (lt = some a ∨ lte = some a ∨ gt = some a ∨ gte = some a) →
      (lt = some b ∨ lte = some b ∨ gt = some b ∨ gte = some b) → ∃ n, c a b = .ok n) :
    IsVerdict (ltgt f lt lte gt gte c v) := by
  unfold Java.ltgt
  split
  · rename_i hs
    unfold Java.range
    split
    · rename_i l g hl hg
      have hl' : lt = some l ∨ lte = some l := by
        cases lt <;> simp_all
      have hg' : gt = some g ∨ gte = some g := by
        cases gt <;> simp_all
      have h1 : ∃ n, c g l = .ok n := hb g l (by grind) (by grind)
      have h2 : ∃ n, c v g = .ok n := hv g (by grind)
      have h3 : ∃ n, c v l = .ok n := hv l (by grind)
      refine Calm.withCmp h1 fun n => Calm.ite ?_ ?_
      · unfold between
        exact Calm.withCmp h2 fun n => Calm.ite (Calm.withCmp h3 fun n => Calm.check) Calm.check
      · unfold between
        exact Calm.withCmp h3 fun n => Calm.ite (Calm.withCmp h2 fun n => Calm.check) Calm.check
    · rename_i h
      exfalso
      cases lt <;> cases lte <;> cases gt <;> cases gte <;> simp at hs h
  · refine Calm.seq ?_ (Calm.seq ?_ (Calm.seq ?_ ?_))
    all_goals
      split
      · exact Calm.withCmp (hv _ (by simp)) fun n => Calm.check
      · exact Calm.ok

theorem num_cmp (a b : JNum) : ∃ n, numCmp a b = .ok n := ⟨_, rfl⟩

theorem dur_cmp {a b : PDur} (ha : a.valid = true) (hb : b.valid = true) : ∃ n, durCmp a b = .ok n := by
  unfold durCmp
  simp [ha, hb]

theorem ts_cmp {a b : PTime} (ha : a.valid = true) (hb : b.valid = true) : ∃ n, tsCmp a b = .ok n := by
  unfold tsCmp
  simp [ha, hb]

theorem unique {α : Type} {eq : α → α → Bool} (vs seen : List α) : IsVerdict (unique f eq vs seen) := by
  induction vs generalizing seen with
  | nil => exact Calm.ok
  | cons v vs ih =>
    unfold Java.unique
    exact Calm.ite Calm.validation (ih _)

theorem num {k : NumKind} {r : NumRules} {n : Num} : IsVerdict (numTpl f k r n) := by
  unfold numTpl
  have : ∀ v : JNum, IsVerdict (withOpt r.const (fun c => constant f v (jnum k c) jeq) ⊳
    Java.ltgt f (r.lt.map (jnum k)) (r.lte.map (jnum k)) (r.gt.map (jnum k)) (r.gte.map (jnum k)) numCmp v ⊳
    Java.when (!r.ins.isEmpty) (isIn f v (r.ins.map (jnum k)) jeq) ⊳
    Java.when (!r.notIns.isEmpty) (notIn f v (r.notIns.map (jnum k)) jeq)) := fun v =>
    Calm.seq (Calm.withOpt fun _ _ => Calm.check) (Calm.seq (ltgt (fun _ _ => num_cmp _ _) fun _ _ _ _ => num_cmp _ _)
      (Calm.seq (Calm.when fun _ => Calm.check) (Calm.when fun _ => Calm.check)))
  exact Calm.ite (Calm.when fun _ => this _) (this _)

theorem string {J : JEnv} {r : StringRules} {s : Bytes} : IsVerdict (stringTpl J f r s) := by
  have w : ∀ {α : Type} {o : Option α} {c : α → Bool} {why : α → Reason}, IsVerdict (withOpt o fun n => check (c n) f (why n)) :=
    Calm.withOpt fun _ _ => Calm.check
  have wh : ∀ {x c : Bool} {why : Reason}, IsVerdict (Java.when x (check c f why)) := Calm.when fun _ => Calm.check
  unfold stringTpl
  have len : ∀ s, IsVerdict (strLen f r s) := fun s =>
    Calm.seq w (Calm.seq w (Calm.seq w (Calm.seq w (Calm.seq w w))))
  have aff : ∀ s, IsVerdict (strAffix J f r s) := fun s => Calm.seq w (Calm.seq w (Calm.seq w (Calm.seq w w)))
  have wk : ∀ s, IsVerdict (strWellKnown J f r s) := fun s =>
    Calm.seq wh (Calm.seq wh (Calm.seq (Calm.when fun _ => Calm.seq Calm.check Calm.check) (Calm.seq wh (Calm.seq wh
      (Calm.seq wh (Calm.seq wh (Calm.seq wh wh)))))))
  refine Calm.ite (Calm.when fun _ => ?_) ?_
  all_goals
    exact Calm.seq (Calm.withOpt fun c _ => Calm.check) (Calm.seq wh (Calm.seq wh
      (Calm.seq (len _) (Calm.seq (aff _) (wk _)))))

theorem bytes {J : JEnv} {r : BytesRules} {s : Bytes} : IsVerdict (bytesTpl J f r s) := by
  have w : ∀ {α : Type} {o : Option α} {c : α → Bool} {why : α → Reason}, IsVerdict (withOpt o fun n => check (c n) f (why n)) :=
    Calm.withOpt fun _ _ => Calm.check
  have wh : ∀ {x c : Bool} {why : Reason}, IsVerdict (Java.when x (check c f why)) := Calm.when fun _ => Calm.check
  have it : ∀ {p : Prop} [Decidable p] {c : Bool} {why : Reason}, IsVerdict (if p then .ok () else check c f why) :=
    Calm.ite Calm.ok Calm.check
  unfold bytesTpl
  refine Calm.ite (Calm.when fun _ => ?_) ?_
  all_goals
    exact Calm.seq it (Calm.seq w (Calm.seq w (Calm.seq w (Calm.seq w (Calm.seq it (Calm.seq it (Calm.seq it
      (Calm.seq wh (Calm.seq wh (Calm.seq wh (Calm.seq wh wh)))))))))))

theorem enum {declared : List Int} {r : EnumRules} {n : Int} (h : ∀ c, r.const = some c → c ∈ declared) :
    IsVerdict (enumTpl f declared r n) := by
  unfold enumTpl
  refine Calm.seq (Calm.withOpt fun c hc => ?_) (Calm.seq (Calm.when fun _ => Calm.check)
    (Calm.seq (Calm.when fun _ => Calm.check) (Calm.when fun _ => Calm.check)))
  unfold enumConstant
  refine Calm.ite Calm.ok ?_
  rw [forNumber, if_pos (by simpa using h c hc)]
  exact Calm.validation

theorem any {r : AnyRules} {u : Option Bytes} : IsVerdict (anyTpl f r u) := by
  unfold anyTpl
  refine Calm.seq (Calm.when fun _ => Calm.check) ?_
  split
  · exact Calm.ok
  · exact Calm.seq (Calm.when fun _ => Calm.check) (Calm.when fun _ => Calm.check)

theorem duration {r : DurationRules} {d : Option PDur} (h : ∀ x, d = some x → SettledDur r x) :
    IsVerdict (durationTpl f r d) := by
  unfold durationTpl
  refine Calm.seq (Calm.when fun _ => Calm.check) ?_
  split
  · exact Calm.ok
  · have hs := h _ rfl
    exact Calm.seq (Calm.withOpt fun _ _ => Calm.check)
      (Calm.seq (ltgt (fun b hb => dur_cmp (hs b hb).1 (hs b hb).2) fun a b ha hb => dur_cmp (hs a ha).2 (hs b hb).2)
        (Calm.seq (Calm.when fun _ => Calm.check) (Calm.when fun _ => Calm.check)))

theorem nanos {d : PDur} (hv : d.valid = true) (hl : Long d.exact) : ∃ n, toNanos d = .ok n := by
  unfold toNanos
  simp only [hv, Bool.not_true, Bool.false_eq_true, if_false]
  unfold Long at hl
  unfold PDur.exact at hl
  unfold PDur.valid at hv
  simp at hv
  rw [if_neg (by unfold minInt64 maxInt64; omega), if_neg (by unfold minInt64 maxInt64; omega)]
  exact ⟨_, rfl⟩

theorem within {v t : PTime} {d : PDur} (hv : v.valid = true) (ht : t.valid = true) (hd : d.valid = true)
    (hl : Long d.exact) (hx : Long (instant v - instant t)) : IsVerdict (within f v d t) := by
  unfold Java.within
  have h0 : ∃ b, tsBetween t v = .ok b ∧ b.valid = true ∧ b.exact = instant v - instant t := by
    unfold tsBetween
    simp only [hv, ht, Bool.not_true, Bool.or_self, Bool.false_eq_true, if_false]
    unfold PTime.valid at hv ht
    simp at hv ht
    unfold instant
    split
    · refine ⟨_, rfl, ?_, ?_⟩
      · simp [PDur.valid]; omega
      · simp [PDur.exact]; omega
    · split
      · refine ⟨_, rfl, ?_, ?_⟩
        · simp [PDur.valid]; omega
        · simp [PDur.exact]; omega
      · refine ⟨_, rfl, ?_, ?_⟩
        · simp [PDur.valid]; omega
        · simp [PDur.exact]; omega
  obtain ⟨b, hb, hbv, hbe⟩ := h0
  rw [hb]
  exact Calm.withCmp (nanos hbv (hbe ▸ hx)) fun _ => Calm.withCmp (nanos hd hl) fun _ => Calm.check

theorem timestamp {J : JEnv} {r : TimestampRules} {t : Option PTime} (h : ∀ x, t = some x → SettledTime J r x) :
    IsVerdict (timestampTpl J f r t) := by
  unfold timestampTpl
  refine Calm.seq (Calm.when fun _ => Calm.check) ?_
  split
  · exact Calm.ok
  · obtain ⟨h1, h2, h3⟩ := h _ rfl
    refine Calm.seq (Calm.withOpt fun _ _ => Calm.check)
      (Calm.seq (ltgt (fun b hb => ts_cmp (h1 b hb).1 (h1 b hb).2) fun a b ha hb => ts_cmp (h1 a ha).2 (h1 b hb).2)
      (Calm.seq (Calm.when fun hn => ?_) (Calm.seq (Calm.when fun hn => ?_) (Calm.withOpt fun w hw => ?_))))
    · have := h2 (.inl (by rintro e; rw [e] at hn; cases hn))
      exact Calm.withCmp (ts_cmp this.1 this.2) fun _ => Calm.check
    · have := h2 (.inr (.inl (by rintro e; rw [e] at hn; cases hn)))
      exact Calm.withCmp (ts_cmp this.1 this.2) fun _ => Calm.check
    · have := h2 (.inr (.inr (by rw [hw]; simp)))
      obtain ⟨g1, g2, g3⟩ := h3 w hw
      exact within this.1 this.2 g1 g2 g3

theorem scalar {J : JEnv} {e : ElemT} {t : TypeRules} {v : Scalar} (h : Settled J e t (.sc v)) :
    IsVerdict (scalarTpl J f e t v) := by
  unfold scalarTpl
  split
  · exact num
  · exact Calm.withOpt fun _ _ => Calm.check
  · exact string
  · exact bytes
  · split
    · exact enum fun c hc => h _ c rfl hc
    · exact Calm.ok
  · exact Calm.ok

theorem key {J : JEnv} {e : ElemT} {rules : FieldRules} {v : Scalar} (h : Settled J e rules.type (.sc v)) :
    IsVerdict (keyTpl J f e rules v) := by
  unfold keyTpl
  split
  · exact Calm.ok
  · exact scalar h

theorem elem {J : JEnv} {rec : Val → Run} {e : ElemT} {rules : FieldRules} {v : Val} (h : Settled J e rules.type v)
    (hr : e.isEmbed = true → v ≠ .null → IsVerdict (rec v)) : IsVerdict (elemTpl J rec f e rules v) := by
  unfold elemTpl
  cases hres : resolve e rules with
  | none => exact Calm.ok
  | message m =>
    have he : e.isEmbed = true := by
      have := resolve_message hres
      grind
    dsimp only
    unfold messageTpl
    refine Calm.ite Calm.ok (Calm.seq (Calm.when fun _ => Calm.check) (Calm.when fun hn => hr he ?_))
    rintro rfl
    cases hn
  | wrapper t m =>
    dsimp only
    unfold wrapperTpl
    split
    · rename_i s
      unfold scalarTpl
      split
      · exact num
      · exact Calm.withOpt fun _ _ => Calm.check
      · exact string
      · exact bytes
      · split
        · exfalso
          unfold resolve at hres
          dsimp only [ElemT.isEmbed] at hres
          split at hres <;> (try cases hres)
          split at hres <;> cases hres
        · exact Calm.ok
      · exact Calm.ok
    · exact Calm.when fun _ => Calm.validation
    · exact Calm.ok
  | plain t =>
    have ht : rules.type = t := Local.resolve_plain hres
    rw [ht] at h
    dsimp only
    split
    · exact any
    · exact any
    · exact duration fun x hx => by cases hx; exact h
    · exact duration fun x hx => by cases hx
    · exact timestamp fun x hx => by cases hx; exact h
    · exact timestamp fun x hx => by cases hx
    · exact scalar h
    · exact Calm.ok

theorem field {J : JEnv} {rec : Val → Run} {typ : String} {fd : FieldDesc} {v : Val} (h : SettledField J fd v)
    (hr : ∀ w, Called fd.typ w v → IsVerdict (rec w)) : IsVerdict (renderField J rec typ fd v) := by
  obtain ⟨name, ty, rules⟩ := fd
  unfold SettledField at h
  unfold renderField
  dsimp only at h hr ⊢
  have wh : ∀ {x c : Bool} {why : Reason} {g : String}, IsVerdict (Java.when x (check c g why)) :=
    Calm.when fun _ => Calm.check
  cases ty with
  | one e => exact elem h fun he hn => hr _ (.one he hn)
  | rep e =>
    cases v with
    | list vs =>
      have body : ∀ r items, (∀ v ∈ vs, Settled J e items.type v) →
          IsVerdict (repeatedTpl J rec (fullyQualified typ name) e r items vs) := by
        intro r items hi
        unfold repeatedTpl
        have : ∀ v ∈ vs, IsVerdict (elemTpl J rec (fullyQualified typ name) e items v) := fun v hv =>
          elem (hi v hv) fun _ hn => hr v (.item hv hn)
        refine Calm.ite (Calm.when fun _ => ?_) ?_
        all_goals exact Calm.seq wh (Calm.seq wh (Calm.seq (Calm.when fun _ => unique _ _) (forEach _ this)))
      dsimp only
      split
      · rename_i heq
        rw [heq] at h
        exact body _ _ h
      · exact body _ _ fun v _ => by cases v <;> trivial
      · exact Calm.ok
    | _ => exact Calm.ok
  | map kt vt =>
    cases v with
    | map kvs =>
      have body : ∀ r keys values, (∀ kv ∈ kvs, Settled J kt keys.type (.sc kv.1) ∧ Settled J vt values.type kv.2) →
          IsVerdict (mapTpl J rec (fullyQualified typ name) kt vt r keys values kvs) := by
        intro r keys values hi
        unfold mapTpl
        have mem : ∀ kv, kv ∈ J.order kvs → kv ∈ kvs := fun kv h => (J.order_perm kvs).mem_iff.1 h
        refine Calm.ite (Calm.when fun _ => ?_) ?_
        all_goals
          refine Calm.seq wh (Calm.seq wh (Calm.seq (Calm.when fun _ => Calm.unimplemented) (Calm.when fun _ => Calm.seq ?_ ?_)))
          · exact forEach _ fun kv hkv => key (hi kv (mem kv hkv)).1
          · exact forEach _ fun kv hkv => elem (hi kv (mem kv hkv)).2 fun _ hn => hr _ (.entry (mem kv hkv) hn)
      dsimp only
      split
      · rename_i heq
        rw [heq] at h
        exact body _ _ _ h
      · exact Calm.ite (body _ _ _ fun kv _ => ⟨trivial, by cases kv.2 <;> trivial⟩) Calm.ok
      · exact Calm.ok
    | _ => exact Calm.ok

theorem valid {J : JEnv} {S : Schema} (hO : ∀ w, Outside S w → IsVerdict (J.other w)) :
    ∀ n v, depth v ≤ n → AllSettled J S v → IsVerdict (assertValid J S v) := by
  intro n
  induction n with
  | zero => intro v hv; have := Go.depth_pos v; omega
  | succ n ih =>
    intro v hv h
    rw [assertValid_eq]
    cases v with
    | msg typ fs os =>
      unfold assertStep
      dsimp only
      cases hg : S typ with
      | generated d =>
        dsimp only
        split
        · rename_i hi
          exact hO _ fun t fs' os' d' e hd => by
            cases e
            rw [hg] at hd
            cases hd
            exact hi
        · split
          · exact Calm.ok
          · obtain ⟨h1, h2⟩ := h typ fs os d .self hg
            have key : ∀ f u, SettledField J f u → ((Part u (.msg typ fs os) ∧ depth u ≤ n) ∨ u = f.typ.zero) →
                IsVerdict (renderField J (assertValid J S) typ f u) := by
              intro f u hf hu
              refine field hf fun w hw => ?_
              rcases hu with ⟨hu, hd⟩ | rfl
              · have hp : Part w (.msg typ fs os) := Local.part_trans (Local.Java.called_part hw) hu
                exact ih w (by have := hw.depth_le; omega) fun t fs os d hp' => h t fs os d (Local.part_trans hp' hp)
              · exact hw.zero.elim
            refine Calm.seq (forEach _ fun f hf => key f _ (h1 f hf) ?_) (forEach _ fun o ho => ?_)
            · unfold getField
              cases hl : fs.lookup f.name with
              | none => exact .inr rfl
              | some u =>
                have hd := PGV.Go.depthFields_lookup hl
                simp only [depth] at hv
                exact .inl ⟨.field (Local.mem_of_lookup' hl) .self, by simp only [Option.getD_some]; omega⟩
            · unfold oneofTpl
              cases hl : os.lookup o.name with
              | none => exact Calm.when fun _ => Calm.check
              | some mv =>
                obtain ⟨m, u⟩ := mv
                dsimp only
                cases hf : o.fields.find? (fun f => f.name == m) with
                | none => exact Calm.ok
                | some f =>
                  have hm : f.name = m := by simpa using List.find?_some hf
                  have hd := PGV.Go.depthOneofs_lookup hl
                  simp only [depth] at hv
                  exact key f u (h2 o ho f (List.mem_of_find?_eq_some hf) u (hm ▸ hl))
                    (.inl ⟨.member (Local.mem_of_lookup' hl) .self, by omega⟩)
      | _ =>
        refine hO _ fun t fs' os' d' e hd => ?_
        cases e
        rw [hg] at hd
        cases hd
    | _ => exact hO _ fun t fs' os' d' e hd => by cases e

end PGV.Java.Calm
