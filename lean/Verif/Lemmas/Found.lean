import Verif.Spec.Found
import Verif.Lemmas.Evolution

/-!
The violations that `ValidateAll` reports do not depend on the order of declarations.
-/

set_option linter.unusedSimpArgs false

namespace PGV.Found
open PGV PGV.Go PGV.Go.Exec PGV.Spec

/-- The two lists hold the same violations. -/
def Same (l l' : List Err) : Prop := ∀ p x, (∃ e ∈ l, Found e p x) ↔ ∃ e ∈ l', Found e p x

theorem Same.refl (l : List Err) : Same l l := fun _ _ => Iff.rfl

theorem Same.append {a a' b b' : List Err} (h : Same a a') (h' : Same b b') : Same (a ++ b) (a' ++ b') := by
  intro p x
  have h1 := h p x
  have h2 := h' p x
  simp only [List.mem_append, or_and_right, exists_or, h1, h2]

/-- Two fragments that append the same violations. -/
def Sim (x y : Exec) : Prop := ∃ l l', (∀ acc, x acc = .ok (acc ++ l)) ∧ (∀ acc, y acc = .ok (acc ++ l')) ∧ Same l l'

theorem Sim.of_ok {W : Err → Prop} {x : Bool → Exec} {P : Prop} (h : Ok W x P) : Sim (x true) (x true) :=
  ⟨_, _, h.all, h.all, Same.refl _⟩

theorem Sim.skip : Sim Exec.skip Exec.skip := ⟨[], [], by simp [Exec.skip], by simp [Exec.skip], Same.refl _⟩

theorem Sim.seq {a a' b b' : Exec} (h : Sim a a') (h' : Sim b b') : Sim (a ;; b) (a' ;; b') := by
  obtain ⟨l, l', h1, h2, h3⟩ := h
  obtain ⟨m, m', g1, g2, g3⟩ := h'
  refine ⟨l ++ m, l' ++ m', fun acc => ?_, fun acc => ?_, h3.append g3⟩
  · simp [Exec.seq, h1, g1]
  · simp [Exec.seq, h2, g2]

theorem Sim.ite {c : Prop} [Decidable c] {a a' b b' : Exec} (h : Sim a a') (h' : Sim b b') :
    Sim (if c then a else b) (if c then a' else b') := by
  split <;> assumption

theorem Sim.when {c : Bool} {a a' : Exec} (h : Sim a a') : Sim (Exec.when c a) (Exec.when c a') := h.ite Sim.skip

theorem Sim.report (e : Err) : Sim (Exec.report true e) (Exec.report true e) :=
  ⟨[e], [e], fun _ => rfl, fun _ => rfl, Same.refl _⟩

theorem Sim.forEach {α : Type} {f f' : α → Exec} : ∀ xs : List α, (∀ x ∈ xs, Sim (f x) (f' x)) →
    Sim (Exec.forEach xs f) (Exec.forEach xs f')
  | [], _ => Sim.skip
  | x :: xs, h => (h x (.head _)).seq (Sim.forEach xs fun y hy => h y (.tail _ hy))

/-- What two methods return says the same. -/
def Like (r r' : Option Err) : Prop := (r = none ↔ r' = none) ∧ ∀ p x, Finds r p x ↔ Finds r' p x

theorem Like.refl (r : Option Err) : Like r r := ⟨Iff.rfl, fun _ _ => Iff.rfl⟩

/-- What is done with the result of a call. -/
def passOn (c : Ctx) (reason : List PGV.Go.Piece) (r : Option Err) : Exec :=
  match r with
  | some e => Exec.append (errCause c e reason)
  | none => Exec.skip

theorem Sim.cause {r r' : Option Err} (c : Ctx) (reason : List PGV.Go.Piece) (h : Like r r') :
    Sim (passOn c reason r) (passOn c reason r') := by
  cases r with
  | none =>
    rw [h.1.1 rfl]
    exact Sim.skip
  | some e =>
    cases r' with
    | none => cases h.1.2 rfl
    | some e' =>
      refine ⟨[_], [_], fun _ => rfl, fun _ => rfl, fun p x => ?_⟩
      have hp := h.2
      simp only [List.mem_singleton, exists_eq_left]
      constructor
      · intro hf
        cases hf with
        | cause hf =>
          obtain ⟨_, hx, hf⟩ := (hp _ _).1 ⟨_, rfl, hf⟩
          cases hx
          exact .cause hf
      · intro hf
        cases hf with
        | cause hf =>
          obtain ⟨_, hx, hf⟩ := (hp _ _).2 ⟨_, rfl, hf⟩
          cases hx
          exact .cause hf

section
variable {E : Env} {S S' : Schema} {rec rec' : Rec}

/-- Calls for the value say the same. -/
def Alike (S S' : Schema) (rec rec' : Rec) (w : Val) : Prop :=
  methods S w = methods S' w ∧ (methods S w = .both → Like (rec true w) (rec' true w))

theorem message {c : Ctx} {m : Option MessageRules} {v : Val} (h : Alike S S' rec rec' v) :
    Sim (messageTpl E S true rec c m v) (messageTpl E S' true rec' c m v) := by
  unfold messageTpl
  refine (Sim.of_ok (required_ok c (msgRequired m) (Val.isNull v))).seq ?_
  obtain ⟨h1, h2⟩ := h
  rw [← h1]
  refine Sim.ite Sim.skip ?_
  simp only [if_true]
  cases hm : methods S v with
  | both => exact Sim.cause c [.s "embedded message failed validation"] (h2 hm)
  | validateOnly => exact Sim.cause c [.s "embedded message failed validation"] (Like.refl (E.legacy v))
  | none => exact Sim.skip

theorem elem (hr : RecOk rec) {c : Ctx} {e : ElemT} {rules : FieldRules} {v : Val} (h : Alike S S' rec rec' v) :
    Sim (elemTpl E S true rec c e rules v) (elemTpl E S' true rec' c e rules v) := by
  have ho := Sim.of_ok (elem_ok E S rec hr c e rules v)
  cases hq : resolve e rules with
  | message m =>
    unfold elemTpl
    simp only [hq]
    exact message h
  | _ =>
    have : elemTpl E S' true rec' c e rules v = elemTpl E S true rec c e rules v := by
      unfold elemTpl
      simp only [hq]
    rw [this]
    exact ho

theorem loop {u : Bool} {c : Ctx} {i i' : Nat → Val → Exec} : ∀ (vs : List Val) (n : Nat) (seen : List Val),
    (∀ n v, v ∈ vs → Sim (i n v) (i' n v)) → Sim (repLoop true u c i n seen vs) (repLoop true u c i' n seen vs)
  | [], _, _, _ => Sim.skip
  | v :: vs, n, seen, h => by
    unfold repLoop
    exact (Sim.when (Sim.report _)).seq ((h n v (.head _)).seq (loop vs _ _ fun n w hw => h n w (.tail _ hw)))

theorem repLen (c : Ctx) (r : RepeatedRules) (n : Nat) : Sim (repLenTpl true c r n) (repLenTpl true c r n) := by
  unfold repLenTpl
  repeat' first | exact Sim.skip | exact Sim.when (Sim.report _) | apply Sim.ite

theorem mapLen (c : Ctx) (r : MapRules) (n : Nat) : Sim (mapLenTpl true c r n) (mapLenTpl true c r n) := by
  unfold mapLenTpl
  repeat' first | exact Sim.skip | exact Sim.when (Sim.report _) | apply Sim.ite

theorem repeated (hr : RecOk rec) {c : Ctx} {e : ElemT} {r : RepeatedRules} {items : FieldRules} {vs : List Val}
    (h : ∀ v ∈ vs, Alike S S' rec rec' v) :
    Sim (repTpl E S true rec c e r items vs) (repTpl E S' true rec' c e r items vs) := by
  have hb : Sim (repLenTpl true c r vs.length ;;
      if optB r.unique || elemTypNotNone e items then
        repLoop true (optB r.unique) c
          (fun idx v => elemTpl E S true rec { c with index := some (.pos idx) } e items v) 0 [] vs
      else Exec.skip)
      (repLenTpl true c r vs.length ;;
      if optB r.unique || elemTypNotNone e items then
        repLoop true (optB r.unique) c
          (fun idx v => elemTpl E S' true rec' { c with index := some (.pos idx) } e items v) 0 [] vs
      else Exec.skip) :=
    (repLen c r vs.length).seq
      (Sim.ite (loop vs 0 [] fun n v hv => elem hr (h v hv)) Sim.skip)
  unfold repTpl
  exact Sim.ite (Sim.when hb) hb

theorem map (hr : RecOk rec) {c : Ctx} {kt vt : ElemT} {r : MapRules} {keys values : FieldRules}
    {kvs : List (Scalar × Val)} (h : ∀ kv ∈ kvs, Alike S S' rec rec' kv.2) :
    Sim (mapTpl E S true rec c kt vt r keys values kvs) (mapTpl E S' true rec' c kt vt r keys values kvs) := by
  have he : ∀ kv ∈ E.order kvs, Sim (mapEntry E S true rec c kt vt r keys values kv)
      (mapEntry E S' true rec' c kt vt r keys values kv) := fun kv hkv =>
    (Sim.when (Sim.report _)).seq ((Sim.of_ok (keyTpl_ok E _ kt keys kv.1)).seq
      (elem hr (h kv ((E.order_perm kvs).mem_iff.1 hkv))))
  have hb : Sim (mapLenTpl true c r kvs.length ;;
      if optB r.noSparse || elemTypNotNone vt values || elemTypNotNone kt keys then
        Exec.forEach (E.order kvs) (mapEntry E S true rec c kt vt r keys values) else Exec.skip)
      (mapLenTpl true c r kvs.length ;;
      if optB r.noSparse || elemTypNotNone vt values || elemTypNotNone kt keys then
        Exec.forEach (E.order kvs) (mapEntry E S' true rec' c kt vt r keys values) else Exec.skip) :=
    (mapLen c r kvs.length).seq (Sim.ite (Sim.forEach _ he) Sim.skip)
  unfold mapTpl
  exact Sim.ite (Sim.when hb) hb

theorem field (hr : RecOk rec) {msg : String} {f : FieldDesc} {v : Val}
    (h : ∀ w, Inside w v → Alike S S' rec rec' w) :
    Sim (renderField E S true rec msg f v) (renderField E S' true rec' msg f v) := by
  obtain ⟨name, typ, rules⟩ := f
  cases typ with
  | one e => exact elem hr (h v (.self v))
  | rep e =>
    cases v with
    | list vs =>
      have := fun w (hw : w ∈ vs) => h w (.list hw)
      unfold renderField
      dsimp only
      split
      · exact repeated hr this
      · exact repeated hr this
      · exact Sim.skip
    | _ => exact Sim.skip
  | map kt vt =>
    cases v with
    | map kvs =>
      have := fun (kv : Scalar × Val) (hw : kv ∈ kvs) => h kv.2 (.map hw)
      unfold renderField
      dsimp only
      split
      · exact map hr this
      · exact Sim.ite (map hr this) Sim.skip
      · exact Sim.skip
    | _ => exact Sim.skip

theorem sim_errs {x y : Bool → Exec} (h : Sim (x true) (y true)) : Same (allErrs x) (allErrs y) := by
  obtain ⟨l, l', h1, h2, h3⟩ := h
  unfold allErrs
  rw [h1, h2]
  exact h3

/-- What `ValidateAll` finds in a message, field by field. -/
theorem finds_msg {typ : String} {d : MsgDesc} {fs : List (String × Val)} {os : List (String × String × Val)}
    (hS : S typ = .generated d) (hd : d.disabled = false) (p : List (String × FieldRef)) (x : Err) :
    Finds (validate E S true (.msg typ fs os)) p x ↔
      (∃ f ∈ d.fields, ∃ e ∈ allErrs fun all => renderField E S all (validate E S) d.name f (getField fs f), Found e p x) ∨
      ∃ o ∈ d.oneofs, ∃ e ∈ allErrs fun all => oneofTpl E S all (validate E S) d.name o (os.lookup o.name), Found e p x := by
  have key : ∀ l : List Err, Finds (if l = [] then none else some (.multi d.name l)) p x ↔ ∃ e ∈ l, Found e p x := by
    intro l
    constructor
    · rintro ⟨e, he, hf⟩
      split at he
      · cases he
      · cases he
        cases hf with
        | among hm hf => exact ⟨_, hm, hf⟩
    · rintro ⟨e, he, hf⟩
      have : l ≠ [] := by rintro rfl; cases he
      rw [if_neg this]
      exact ⟨_, rfl, .among he hf⟩
  rw [validate_all_msg hS hd]
  dsimp only
  rw [key]
  simp only [List.mem_append, List.mem_flatMap, or_and_right, exists_or]
  refine or_congr ⟨?_, ?_⟩ ⟨?_, ?_⟩
  · rintro ⟨e, ⟨f, hf, he⟩, hx⟩; exact ⟨f, hf, e, he, hx⟩
  · rintro ⟨f, hf, e, he, hx⟩; exact ⟨e, ⟨f, hf, he⟩, hx⟩
  · rintro ⟨e, ⟨f, hf, he⟩, hx⟩; exact ⟨f, hf, e, he, hx⟩
  · rintro ⟨f, hf, e, he, hx⟩; exact ⟨e, ⟨f, hf, he⟩, hx⟩

theorem no_errs {W : Err → Prop} {x : Bool → Exec} {P : Prop} (h : Ok W x P) (hP : P) : allErrs x = [] := by
  have h1 := h.agree
  rw [h.spec.2 hP] at h1
  cases hl : allErrs x with
  | nil => rfl
  | cons a l => rw [hl] at h1; cases h1

/-- One direction, for one message. -/
theorem carry {typ : String} {d d' : MsgDesc} {fs : List (String × Val)} {os : List (String × String × Val)}
    (hS : S typ = .generated d) (hd : d.disabled = false) (hS' : S' typ = .generated d') (hd' : d'.disabled = false)
    (hn : d.name = d'.name) (hv : Fits d os) (hm : NoMore d d' fs os)
    (sim : ∀ f u, Active d' fs os f u → Sim (renderField E S true (validate E S) d.name f u)
      (renderField E S' true (validate E S') d'.name f u))
    {p : List (String × FieldRef)} {x : Err} (h : Finds (validate E S' true (.msg typ fs os)) p x) :
    Finds (validate E S true (.msg typ fs os)) p x := by
  have hr' := validate_recOk E S'
  rw [finds_msg hS' hd'] at h
  rw [finds_msg hS hd]
  have put : ∀ {f u}, Active d' fs os f u →
      (∃ e ∈ allErrs fun all => renderField E S' all (validate E S') d'.name f u, Found e p x) →
      ∃ e ∈ allErrs fun all => renderField E S all (validate E S) d.name f u, Found e p x := fun {f u} ha he =>
    (sim_errs (x := fun all => renderField E S all (validate E S) d.name f u)
      (y := fun all => renderField E S' all (validate E S') d'.name f u) (sim f u ha) p x).2 he
  rcases h with ⟨f, hf, he⟩ | ⟨o', ho', he⟩
  · rcases hm.fields f hf with h | h
    · exact .inl ⟨f, h, put (.field hf) he⟩
    · rw [no_errs (field_ok E S' _ hr' d'.name f _) (Evolution.Go.free h)] at he
      obtain ⟨_, he, -⟩ := he
      cases he
  · have nospare : ∀ m u, os.lookup o'.name = some (m, u) → ∀ f, f.name = m → ¬ Spare os o' f := by
      rintro m u hl f rfl hs
      exact hs.2 u hl
    cases hl : os.lookup o'.name with
    | none =>
      rw [hl] at he
      rcases hm.oneofs o' ho' with ⟨o, hoo, hon, hor, -⟩ | ⟨hor, -⟩
      · refine .inr ⟨o, hoo, ?_⟩
        rw [hon, hl]
        simp only [oneofTpl, hor, hon, hn] at he ⊢
        exact he
      · simp only [oneofTpl, hor, Exec.when] at he
        obtain ⟨_, he, -⟩ := he
        cases he
    | some mu =>
      obtain ⟨m, u⟩ := mu
      rw [hl] at he
      cases hfind : o'.fields.find? (fun f => f.name == m) with
      | none =>
        simp only [oneofTpl, hfind] at he
        obtain ⟨_, he, -⟩ := he
        cases he
      | some f =>
        have hfm := List.mem_of_find?_eq_some hfind
        have hfn : f.name = m := by simpa using List.find?_some hfind
        simp only [oneofTpl, hfind] at he
        rcases hm.oneofs o' ho' with ⟨o, hoo, hon, hor, hmem⟩ | ⟨-, hmem⟩
        · rcases hmem f hfm with h | h
          · refine .inr ⟨o, hoo, ?_⟩
            have hf2 : o.fields.find? (fun f => f.name == m) = some f := by
              rw [← hfn]
              exact Py.find_of_nodup (hv.names o hoo) h
            rw [hon, hl]
            simp only [oneofTpl, hf2]
            exact put (.member ho' hl hfind) he
          · exact (nospare m u hl f hfn h).elim
        · exact (nospare m u hl f hfn (hmem f hfm)).elim

end

theorem like {E : Env} {S S' : Schema} : ∀ n v, depth v ≤ n → Evolved S S' v →
    Like (validate E S true v) (validate E S' true v) := by
  intro n
  induction n with
  | zero => intro v hv; have := PGV.Go.depth_pos v; omega
  | succ n ih =>
    intro v hv hS
    have hverd : validate E S true v = none ↔ validate E S' true v = none := by
      rw [validate_modes, validate_modes]
      exact ⟨Evolution.Go.valid _ v (Nat.le_refl _) hS,
        Evolution.Go.valid _ v (Nat.le_refl _) (Evolution.evolved_symm hS)⟩
    refine ⟨hverd, ?_⟩
    cases v with
    | msg typ fs os =>
      rcases hS typ fs os .self with ⟨d, d', h1, h2, h3⟩ | ⟨h1, h2⟩
      · cases hd : d.disabled with
        | true =>
          have hd' : d'.disabled = true := h3.disabled ▸ hd
          intro p x
          rw [validate_eq, validate_eq E S']
          simp [validateStep, h1, h2, hd, hd', Finds]
        | false =>
          have hd' : d'.disabled = false := h3.disabled ▸ hd
          have alike : ∀ f u w, (Active d fs os f u ∨ Active d' fs os f u) → Inside w u →
              Alike S S' (validate E S) (validate E S') w := by
            intro f u w ha hw
            have hp : (Part w (.msg typ fs os) ∧ depth w < depth (.msg typ fs os)) ∨ ∀ t fs os, w ≠ .msg t fs os := by
              have : (Part u (.msg typ fs os) ∧ depth u < depth (.msg typ fs os)) ∨ u = f.typ.zero :=
                ha.elim Evolution.active_part Evolution.active_part
              rcases this with ⟨g1, g2⟩ | rfl
              · have := hw.depth_le
                refine .inl ⟨Local.part_trans ?_ g1, by omega⟩
                cases hw with
                | self => exact .self
                | list hm => exact .item hm .self
                | map hm => exact .entry hm .self
              · exact .inr (zero_not_msg hw)
            by_cases hm : ∃ t fs os, w = .msg t fs os
            · obtain ⟨t, fs', os', rfl⟩ := hm
              rcases hp with ⟨hp, hlt⟩ | hp
              · have hw' := Evolution.evolved_part hS hp
                refine ⟨?_, fun _ => ih _ (by omega) hw'⟩
                rcases hw' t fs' os' .self with ⟨e, e', g1, g2, g3⟩ | ⟨g1, g2⟩
                · simp only [methods, g1, g2, g3.ignored]
                · simp only [methods, g1]
              · exact (hp _ _ _ rfl).elim
            · have hno : ∀ T, methods T w = .none := by
                intro T
                cases w with
                | msg t fs os => exact (hm ⟨_, _, _, rfl⟩).elim
                | _ => rfl
              refine ⟨by rw [hno, hno], fun h => ?_⟩
              rw [hno] at h
              cases h
          have hr := validate_recOk E S
          have hr' := validate_recOk E S'
          have sim : ∀ f u, (Active d fs os f u ∨ Active d' fs os f u) →
              Sim (renderField E S true (validate E S) d.name f u) (renderField E S' true (validate E S') d'.name f u) := by
            intro f u ha
            rw [← h3.name]
            exact field hr fun w hw => alike f u w ha hw
          have simsymm : ∀ {x y}, Sim x y → Sim y x := fun ⟨l, l', g1, g2, g3⟩ => ⟨l', l, g2, g1, fun p x => (g3 p x).symm⟩
          exact fun p x => ⟨carry h2 hd' h1 hd h3.name.symm h3.new h3.fewer (fun f u ha => simsymm (sim f u (.inl ha))),
            carry h1 hd h2 hd' h3.name h3.old h3.more (fun f u ha => sim f u (.inr ha))⟩
      · intro p x
        have : ∀ T : Schema, (∀ d, T typ ≠ .generated d) → validate E T true (.msg typ fs os) = none := by
          intro T hT
          rw [validate_eq]
          unfold validateStep
          cases hg : T typ with
          | generated d => exact (hT d hg).elim
          | _ => simp only [hg]
        rw [this S h2, this S' (h1 ▸ h2)]
    | _ => intro p x; rw [validate_eq, validate_eq E S']; rfl

end PGV.Found
