import Verif.Spec.Local
import Verif.Lemmas.Fix
import Verif.Lemmas.JavaMsg
import Verif.Lemmas.CppMsg
import Verif.Lemmas.PyKnot

/-!
Verdicts depend on the types of the messages inside a message only, and on the clock only if their rules ask
for it.
-/

set_option linter.unusedSimpArgs false

namespace PGV.Local
open PGV PGV.Spec
open PGV.Go (resolve elemTypNotNone depth allFields)

theorem part_trans {x w v : Val} (h1 : Part x w) (h2 : Part w v) : Part x v := by
  induction h2 with
  | self => exact h1
  | item hm _ ih => exact .item hm ih
  | entry hm _ ih => exact .entry hm ih
  | field hm _ ih => exact .field hm ih
  | member hm _ ih => exact .member hm ih

theorem mem_of_lookup' {α : Type} {n : String} {a : α} {l : List (String × α)} (h : l.lookup n = some a) : (n, a) ∈ l := by
  induction l with
  | nil => cases h
  | cons p l ih =>
    obtain ⟨k, b⟩ := p
    rw [List.lookup_cons] at h
    split at h
    · rename_i hk
      cases h
      simp only [beq_iff_eq] at hk
      subst hk
      exact .head _
    · exact .tail _ (ih h)

theorem resolve_plain {e : ElemT} {rules : FieldRules} {t : TypeRules} (h : resolve e rules = .plain t) : rules.type = t := by
  unfold resolve at h
  cases ht : rules.type with
  | num k r => cases he : e.isEmbed <;> cases k <;> simp_all
  | _ => cases he : e.isEmbed <;> simp_all

theorem rules_of_type {rules : FieldRules} {t : TypeRules} (h : rules.type = t) (ht : t ≠ .unset) :
    ∃ m, rules = .mk m t := by
  cases rules with
  | absent => exact absurd h.symm ht
  | mk m u => cases h; exact ⟨m, rfl⟩

theorem not_relative {rules : FieldRules} {r : TimestampRules} (hc : ¬ Uses Relative rules) (h : rules.type = .timestamp r) :
    r.ltNow = none ∧ r.gtNow = none ∧ r.within = none := by
  obtain ⟨m, rfl⟩ := rules_of_type h (by simp)
  have : ¬ Relative r := fun hr => hc (.here hr)
  unfold Relative at this
  grind

theorem not_items {rules items : FieldRules} {r : RepeatedRules} (hc : ¬ Uses Relative rules) (h : rules.type = .repeated r items) :
    ¬ Uses Relative items := by
  obtain ⟨m, rfl⟩ := rules_of_type h (by simp)
  exact fun hi => hc (.item hi)

theorem not_values {rules keys values : FieldRules} {r : MapRules} (hc : ¬ Uses Relative rules)
    (h : rules.type = .map r keys values) : ¬ Uses Relative values := by
  obtain ⟨m, rfl⟩ := rules_of_type h (by simp)
  exact fun hi => hc (.value hi)

theorem not_absent : ¬ Uses Relative .absent := by
  intro h
  cases h

/-- What a message gives to its parts. -/
theorem sameTypes_part {S S' : Schema} {w v : Val} (h : SameTypes S S' v) (hp : Part w v) : SameTypes S S' w :=
  fun typ fs os hq => h typ fs os (part_trans hq hp)

theorem clockFree_part {S : Schema} {w v : Val} (h : Without Relative S v) (hp : Part w v) : Without Relative S w :=
  fun typ fs os d hq => h typ fs os d (part_trans hq hp)

/-! ### Go -/

namespace Go
open PGV.Go PGV.Go.Exec

/-- The libraries at another time. -/
def clock (E : Env) (t : Int) : Env := { E with now := t }

variable {E : Env} {S S' : Schema} {all : Bool} {rec : Rec} {t : Int}

theorem timestamp_clock {c : Ctx} {r : TimestampRules} {now now' : Int} {v : Option PTime}
    (h : r.ltNow = none ∧ r.gtNow = none ∧ r.within = none) :
    timestampTpl now all c r v = timestampTpl now' all c r v := by
  obtain ⟨h1, h2, h3⟩ := h
  unfold timestampTpl timestampcmpTpl tsRangeTpl
  simp only [h1, h2, h3]
  rfl

theorem elem_clock {c : Ctx} {e : ElemT} {rules : FieldRules} {v : Val} (h : ¬ Uses Relative rules) :
    elemTpl (clock E t) S all rec c e rules v = elemTpl E S all rec c e rules v := by
  unfold elemTpl
  cases hr : resolve e rules with
  | plain ty =>
    dsimp only
    have ht := resolve_plain hr
    cases ty with
    | timestamp r =>
      cases v with
      | ts x => exact timestamp_clock (not_relative h ht)
      | null => exact timestamp_clock (not_relative h ht)
      | _ => rfl
    | _ => cases v <;> rfl
  | _ => rfl

theorem field_clock {msg : String} {f : FieldDesc} {v : Val} (h : ¬ Uses Relative f.rules) :
    renderField (clock E t) S all rec msg f v = renderField E S all rec msg f v := by
  have hl : ∀ {c : Ctx} {e : ElemT} {r : RepeatedRules} {items : FieldRules} {vs : List Val}, ¬ Uses Relative items →
      repTpl (clock E t) S all rec c e r items vs = repTpl E S all rec c e r items vs := by
    intro c e r items vs hi
    unfold repTpl
    simp only [elem_clock hi]
  have hm : ∀ {c : Ctx} {kt vt : ElemT} {r : MapRules} {keys values : FieldRules} {kvs : List (Scalar × Val)},
      ¬ Uses Relative values → mapTpl (clock E t) S all rec c kt vt r keys values kvs = mapTpl E S all rec c kt vt r keys values kvs := by
    intro c kt vt r keys values kvs hi
    unfold mapTpl
    have : mapEntry (clock E t) S all rec c kt vt r keys values = mapEntry E S all rec c kt vt r keys values := by
      funext kv
      unfold mapEntry
      rw [elem_clock hi]
      rfl
    simp only [this]
    rfl
  unfold renderField
  split
  · exact elem_clock h
  · split
    · rename_i ht
      exact hl (not_items h ht)
    · exact hl not_absent
    · rfl
  · split
    · rename_i ht
      exact hm (not_values h ht)
    · simp only [hm not_absent]
    · rfl
  · rfl

theorem elem_schema {c : Ctx} {e : ElemT} {rules : FieldRules} {v : Val} (h : methods S' v = methods S v) :
    elemTpl E S' all rec c e rules v = elemTpl E S all rec c e rules v := by
  unfold elemTpl
  rw [show (fun m => messageTpl E S' all rec c m v) = (fun m => messageTpl E S all rec c m v) from
    funext fun m => by unfold messageTpl; rw [h]]

theorem field_schema {msg : String} {f : FieldDesc} {v : Val} (h : ∀ w, Inside w v → methods S' w = methods S w) :
    renderField E S' all rec msg f v = renderField E S all rec msg f v := by
  obtain ⟨name, typ, rules⟩ := f
  cases typ with
  | one e => exact elem_schema (h v (.self v))
  | rep e =>
    cases v with
    | list vs =>
      have : ∀ {c : Ctx} {r : RepeatedRules} {items : FieldRules},
          repTpl E S' all rec c e r items vs = repTpl E S all rec c e r items vs := by
        intro c r items
        unfold repTpl
        rw [repLoop_congr (i2 := fun idx v => elemTpl E S all rec { c with index := some (.pos idx) } e items v) vs
          (fun i v hv => elem_schema (h v (.list hv)))]
      unfold renderField
      simp only [this]
    | _ => rfl
  | map kt vt =>
    cases v with
    | map kvs =>
      have : ∀ {c : Ctx} {r : MapRules} {keys values : FieldRules},
          mapTpl E S' all rec c kt vt r keys values kvs = mapTpl E S all rec c kt vt r keys values kvs := by
        intro c r keys values
        unfold mapTpl
        rw [forEach_congr (g := mapEntry E S all rec c kt vt r keys values) (E.order kvs)]
        intro kv hkv
        unfold mapEntry
        rw [elem_schema (h kv.2 (.map ((E.order_perm kvs).mem_iff.1 hkv)))]
      unfold renderField
      simp only [this]
    | _ => rfl

theorem inside_part {w v : Val} (h : Inside w v) : Part w v := by
  cases h with
  | self => exact .self
  | list hm => exact .item hm .self
  | map hm => exact .entry hm .self

theorem same_methods {w : Val} (h : SameTypes S S' w) : methods S' w = methods S w := by
  cases w with
  | msg typ fs os => simp only [methods, h typ fs os .self]
  | _ => rfl

theorem validate_local_aux (E : Env) (S S' : Schema) (t : Int) : ∀ n v, depth v ≤ n → SameTypes S S' v →
    (t = E.now ∨ Without Relative S v) → ∀ all, validate (clock E t) S' all v = validate E S all v := by
  intro n
  induction n with
  | zero => intro v hv; have := depth_pos v; omega
  | succ n ih =>
    intro v hv hS hc all
    rw [validate_eq, validate_eq]
    cases v with
    | msg typ fs os =>
      have hT := hS typ fs os .self
      unfold validateStep
      dsimp only
      rw [← hT]
      cases hg : S typ with
      | generated d =>
        dsimp only
        split
        · rfl
        · -- one field
          have key : ∀ f u, f ∈ allFields d → Part u (.msg typ fs os) → depth u ≤ n →
              renderField (clock E t) S' all (validate (clock E t) S') d.name f u =
              renderField E S all (validate E S) d.name f u := by
            intro f u hf hu hd
            have h1 : renderField (clock E t) S' all (validate (clock E t) S') d.name f u =
                renderField (clock E t) S' all (validate E S) d.name f u := by
              refine renderField_congr fun w hw _ _ _ _ a => ?_
              have hp : Part w (.msg typ fs os) := part_trans (inside_part hw) hu
              exact ih w (by have := hw.depth_le; omega) (sameTypes_part hS hp)
                (hc.imp id fun hc => clockFree_part hc hp) a
            have h2 : renderField (clock E t) S' all (validate E S) d.name f u =
                renderField (clock E t) S all (validate E S) d.name f u :=
              field_schema fun w hw => same_methods (sameTypes_part hS (part_trans (inside_part hw) hu))
            rw [h1, h2]
            rcases hc with rfl | hc
            · rfl
            · exact field_clock (hc typ fs os d .self hg f hf)
          have keyz : ∀ f, f ∈ allFields d →
              renderField (clock E t) S' all (validate (clock E t) S') d.name f f.typ.zero =
              renderField E S all (validate E S) d.name f f.typ.zero := by
            intro f hf
            have h1 : renderField (clock E t) S' all (validate (clock E t) S') d.name f f.typ.zero =
                renderField (clock E t) S' all (validate E S) d.name f f.typ.zero :=
              renderField_congr fun w hw _ _ _ ht a => absurd ht (zero_not_msg hw _ _ _)
            have h2 : renderField (clock E t) S' all (validate E S) d.name f f.typ.zero =
                renderField (clock E t) S all (validate E S) d.name f f.typ.zero := by
              refine field_schema fun w hw => ?_
              cases w with
              | msg => exact absurd rfl (zero_not_msg hw _ _ _)
              | _ => rfl
            rw [h1, h2]
            rcases hc with rfl | hc
            · rfl
            · exact field_clock (hc typ fs os d .self hg f hf)
          congr 1
          unfold bodyExec
          rw [forEach_congr (g := fun f => renderField E S all (validate E S) d.name f (getField fs f)) d.fields,
            forEach_congr (g := fun o => oneofTpl E S all (validate E S) d.name o (os.lookup o.name)) d.oneofs]
          · intro o ho
            cases hl : os.lookup o.name with
            | none => rfl
            | some mv =>
              obtain ⟨m, u⟩ := mv
              unfold oneofTpl
              dsimp only
              cases hf : o.fields.find? (fun f => f.name == m) with
              | none => rfl
              | some f =>
                have hd := depthOneofs_lookup hl
                simp only [depth] at hv
                refine key f u ?_ (.member (mem_of_lookup' hl) .self) (by omega)
                exact List.mem_append_right _ (List.mem_flatMap.2 ⟨o, ho, List.mem_of_find?_eq_some hf⟩)
          · intro f hf
            have hmem : f ∈ allFields d := List.mem_append_left _ hf
            unfold getField
            cases hl : fs.lookup f.name with
            | none => exact keyz f hmem
            | some u =>
              have hd := depthFields_lookup hl
              simp only [depth] at hv
              exact key f u hmem (.field (mem_of_lookup' hl) .self) (by omega)
      | _ => rfl
    | _ => rfl

theorem validate_local (E : Env) (S S' : Schema) (t : Int) (v : Val) (hS : SameTypes S S' v)
    (hc : t = E.now ∨ Without Relative S v) (all : Bool) : validate (clock E t) S' all v = validate E S all v :=
  validate_local_aux E S S' t _ v (Nat.le_refl _) hS hc all

end Go

/-! ### Later and earlier -/

section
open PGV.Go
variable {P : TimestampRules → Prop} {E : Env} {S : Schema} {t : Int} {ok ok' : Val → Prop}

theorem value_kept (hP : ∀ r o, ¬ P r → TimestampOk E.now r o → TimestampOk t r o) {e : ElemT} {rules : FieldRules}
    {v : Val} (hr : ¬ Uses P rules) (hk : ok v → ok' v) (h : ValueOk E S ok e rules v) :
    ValueOk (Go.clock E t) S ok' e rules v := by
  unfold ValueOk at h ⊢
  cases ht : rules.type with
  | unset =>
    rw [ht] at h
    intro he
    refine ⟨(h he).1, fun hs => ?_⟩
    have := (h he).2 hs
    unfold EmbeddedOk at this ⊢
    cases v with
    | msg typ fs os =>
      dsimp only at this ⊢
      cases hS : S typ with
      | generated d =>
        rw [hS] at this
        exact fun hi => hk (this hi)
      | legacy =>
        rw [hS] at this
        exact this
      | foreign => trivial
    | _ => trivial
  | timestamp r =>
    have hp : ¬ P r := by
      obtain ⟨m, rfl⟩ := rules_of_type ht (by simp)
      exact fun hp => hr (.here hp)
    rw [ht] at h
    cases v with
    | ts x => exact hP r _ hp h
    | null => exact hP r _ hp h
    | _ => trivial
  | _ =>
    rw [ht] at h
    exact h

theorem field_kept (hP : ∀ r o, ¬ P r → TimestampOk E.now r o → TimestampOk t r o) {f : FieldDesc} {v : Val}
    (hr : ¬ Uses P f.rules) (hk : ∀ w, Inside w v → ok w → ok' w) (h : FieldOk E S ok f v) :
    FieldOk (Go.clock E t) S ok' f v := by
  have hemb : ∀ w, Inside w v → EmbeddedOk E S ok w → EmbeddedOk (Go.clock E t) S ok' w := by
    intro w hw h
    unfold EmbeddedOk at h ⊢
    cases w with
    | msg typ fs os =>
      dsimp only at h ⊢
      cases hS : S typ with
      | generated d => rw [hS] at h; exact fun hi => hk _ hw (h hi)
      | legacy => rw [hS] at h; exact h
      | foreign => trivial
    | _ => trivial
  obtain ⟨name, typ, rules⟩ := f
  unfold FieldOk at h ⊢
  cases typ with
  | one e => exact value_kept hP hr (hk v (.self v)) h
  | rep e =>
    cases v with
    | list vs =>
      dsimp only at h ⊢ hr
      cases ht : rules.type with
      | unset => rw [ht] at h; exact fun w hw he => hemb w (.list hw) (h w hw he)
      | repeated r items =>
        rw [ht] at h
        have hi : ¬ Uses P items := by
          obtain ⟨m, rfl⟩ := rules_of_type ht (by simp)
          exact fun hi => hr (.item hi)
        exact h.imp id fun h => ⟨h.1, h.2.1, fun w hw => value_kept hP hi (hk w (.list hw)) (h.2.2 w hw)⟩
      | _ => trivial
    | _ => trivial
  | map kt vt =>
    cases v with
    | map kvs =>
      dsimp only at h ⊢ hr
      cases ht : rules.type with
      | unset => rw [ht] at h; exact fun w hw he => hemb w.2 (.map hw) (h w hw he)
      | map r keys values =>
        rw [ht] at h
        have hi : ¬ Uses P values := by
          obtain ⟨m, rfl⟩ := rules_of_type ht (by simp)
          exact fun hi => hr (.value hi)
        exact h.imp id fun h => ⟨h.1, fun w hw => ⟨(h.2 w hw).1, (h.2 w hw).2.1,
          value_kept hP hi (hk w.2 (.map hw)) (h.2 w hw).2.2⟩⟩
      | _ => trivial
    | _ => trivial

theorem accept_kept_aux (hP : ∀ r o, ¬ P r → TimestampOk E.now r o → TimestampOk t r o) : ∀ n v, depth v ≤ n →
    Without P S v → validate E S false v = none → validate (Go.clock E t) S false v = none := by
  intro n
  induction n with
  | zero => intro v hv; have := depth_pos v; omega
  | succ n ih =>
    intro v hv hw h
    rw [validate_spec] at h ⊢
    cases v with
    | msg typ fs os =>
      unfold MessageOk at h ⊢
      dsimp only at h ⊢
      cases hg : S typ with
      | generated d =>
        rw [hg] at h
        intro hd
        obtain ⟨hf, ho⟩ := h hd
        have key : ∀ f u, f ∈ allFields d → ((Part u (.msg typ fs os) ∧ depth u ≤ n) ∨ u = f.typ.zero) →
            FieldOk E S (fun w => validate E S false w = none) f u →
            FieldOk (Go.clock E t) S (fun w => validate (Go.clock E t) S false w = none) f u := by
          intro f u hm hu hok
          refine field_kept hP (hw typ fs os d .self hg f hm) (fun w hi h => ?_) hok
          rcases hu with ⟨hu, hdu⟩ | rfl
          · have hp := part_trans (Go.inside_part hi) hu
            exact ih w (by have := hi.depth_le; omega) (fun typ' fs' os' d' hq => hw typ' fs' os' d' (part_trans hq hp)) h
          · cases w with
            | msg => exact absurd rfl (zero_not_msg hi _ _ _)
            | _ => rw [validate_eq]; rfl
        refine ⟨fun f hfm => ?_, fun o hom => ?_⟩
        · refine key f _ (List.mem_append_left _ hfm) ?_ (hf f hfm)
          unfold getField
          cases hl : fs.lookup f.name with
          | none => exact .inr rfl
          | some u =>
            have hd := depthFields_lookup hl
            simp only [depth] at hv
            exact .inl ⟨.field (mem_of_lookup' hl) .self, by simp only [Option.getD_some]; omega⟩
        · have := ho o hom
          cases hl : os.lookup o.name with
          | none => rw [hl] at this; exact this
          | some mv =>
            obtain ⟨m, u⟩ := mv
            rw [hl] at this
            intro f hff
            have hd := depthOneofs_lookup hl
            simp only [depth] at hv
            exact key f u (List.mem_append_right _ (List.mem_flatMap.2 ⟨o, hom, List.mem_of_find?_eq_some hff⟩))
              (.inl ⟨.member (mem_of_lookup' hl) .self, by omega⟩) (this f hff)
      | _ => trivial
    | _ => trivial

theorem accept_kept (hP : ∀ r o, ¬ P r → TimestampOk E.now r o → TimestampOk t r o) {v : Val} (hw : Without P S v)
    (all : Bool) (h : validate E S all v = none) : validate (Go.clock E t) S all v = none := by
  cases all with
  | false => exact accept_kept_aux hP _ v (Nat.le_refl _) hw h
  | true =>
    rw [validate_modes] at h ⊢
    exact accept_kept_aux hP _ v (Nat.le_refl _) hw h

theorem later {now t : Int} (ht : now ≤ t) (r : TimestampRules) (o : Option PTime)
    (hr : ¬ (r.gtNow ≠ none ∨ r.within ≠ none)) (h : TimestampOk now r o) : TimestampOk t r o := by
  have h1 : r.gtNow = none := by grind
  have h2 : r.within = none := by grind
  cases o with
  | none => exact h
  | some x =>
    intro hc
    obtain ⟨a, b, c, d⟩ := h hc
    refine ⟨a, b, c, fun hu hl => ?_⟩
    have := d hu hl
    unfold NowOk at this ⊢
    rw [h1, h2] at this ⊢
    cases hl : r.ltNow with
    | none => trivial
    | some _ => rw [hl] at this; simp only at this ⊢; omega

theorem earlier {now t : Int} (ht : t ≤ now) (r : TimestampRules) (o : Option PTime)
    (hr : ¬ (r.ltNow ≠ none ∨ r.within ≠ none)) (h : TimestampOk now r o) : TimestampOk t r o := by
  have h1 : r.ltNow = none := by grind
  have h2 : r.within = none := by grind
  cases o with
  | none => exact h
  | some x =>
    intro hc
    obtain ⟨a, b, c, d⟩ := h hc
    refine ⟨a, b, c, fun hu hl => ?_⟩
    have := d hu hl
    unfold NowOk at this ⊢
    rw [h1, h2] at this ⊢
    cases hl : r.gtNow with
    | none => trivial
    | some _ => rw [hl] at this; simp only at this ⊢; omega

end

/-! ### Java -/

namespace Java
open PGV.Java

/-- The libraries at another time. -/
def clock (J : JEnv) (t : Int) : JEnv := { J with nowMs := t }

variable {J : JEnv} {S S' : Schema} {rec : Val → Run} {t : Int}

theorem timestamp_clock {f : String} {r : TimestampRules} {v : Option PTime}
    (h : r.ltNow = none ∧ r.gtNow = none ∧ r.within = none) :
    timestampTpl (clock J t) f r v = timestampTpl J f r v := by
  obtain ⟨h1, h2, h3⟩ := h
  unfold timestampTpl
  simp only [h1, h2, h3]
  rfl

theorem elem_clock {f : String} {e : ElemT} {rules : FieldRules} {v : Val} (h : ¬ Uses Relative rules) :
    elemTpl (clock J t) rec f e rules v = elemTpl J rec f e rules v := by
  unfold elemTpl
  cases hr : resolve e rules with
  | plain ty =>
    dsimp only
    have ht := resolve_plain hr
    cases ty with
    | timestamp r =>
      cases v with
      | ts x => exact timestamp_clock (not_relative h ht)
      | null => exact timestamp_clock (not_relative h ht)
      | _ => rfl
    | _ => cases v <;> rfl
  | _ => rfl

theorem field_clock {msg : String} {f : FieldDesc} {v : Val} (h : ¬ Uses Relative f.rules) :
    renderField (clock J t) rec msg f v = renderField J rec msg f v := by
  have hl : ∀ {n : String} {e : ElemT} {r : RepeatedRules} {items : FieldRules} {vs : List Val}, ¬ Uses Relative items →
      repeatedTpl (clock J t) rec n e r items vs = repeatedTpl J rec n e r items vs := by
    intro n e r items vs hi
    unfold repeatedTpl
    simp only [elem_clock hi]
  have hm : ∀ {n : String} {kt vt : ElemT} {r : MapRules} {keys values : FieldRules} {kvs : List (Scalar × Val)},
      ¬ Uses Relative values → mapTpl (clock J t) rec n kt vt r keys values kvs = mapTpl J rec n kt vt r keys values kvs := by
    intro n kt vt r keys values kvs hi
    unfold mapTpl
    simp only [elem_clock hi]
    rfl
  unfold renderField
  split
  · exact elem_clock h
  · split
    · rename_i ht
      exact hl (not_items h ht)
    · exact hl not_absent
    · rfl
  · split
    · rename_i ht
      exact hm (not_values h ht)
    · simp only [hm not_absent]
    · rfl
  · rfl

theorem called_part {typ : FieldT} {w v : Val} (h : Called typ w v) : Part w v := by
  cases h with
  | one => exact .self
  | item hm => exact .item hm .self
  | entry hm => exact .entry hm .self

theorem assert_local_aux (J : JEnv) (S S' : Schema) (t : Int) : ∀ n v, depth v ≤ n → SameTypes S S' v →
    (t = J.nowMs ∨ Without Relative S v) → assertValid (clock J t) S' v = assertValid J S v := by
  intro n
  induction n with
  | zero => intro v hv; have := PGV.Go.depth_pos v; omega
  | succ n ih =>
    intro v hv hS hc
    rw [assertValid_eq, assertValid_eq]
    cases v with
    | msg typ fs os =>
      have hT := hS typ fs os .self
      unfold assertStep
      dsimp only
      rw [← hT]
      cases hg : S typ with
      | generated d =>
        dsimp only
        have key : ∀ f u, f ∈ allFields d → ((Part u (.msg typ fs os) ∧ depth u ≤ n) ∨ u = f.typ.zero) →
            renderField (clock J t) (assertValid (clock J t) S') typ f u = renderField J (assertValid J S) typ f u := by
          intro f u hf hu
          have h1 : renderField (clock J t) (assertValid (clock J t) S') typ f u =
              renderField (clock J t) (assertValid J S) typ f u := by
            refine renderField_congr fun w hw => ?_
            rcases hu with ⟨hu, hd⟩ | rfl
            · have hp : Part w (.msg typ fs os) := part_trans (called_part hw) hu
              exact ih w (by have := hw.depth_le; omega) (sameTypes_part hS hp)
                (hc.imp id fun hc => clockFree_part hc hp)
            · exact hw.zero.elim
          rw [h1]
          rcases hc with rfl | hc
          · rfl
          · exact field_clock (hc typ fs os d .self hg f hf)
        rw [forEach_congr (g := fun f => renderField J (assertValid J S) typ f (getField fs f)) d.fields,
          forEach_congr (g := fun o => oneofTpl J (assertValid J S) typ o (os.lookup o.name)) d.oneofs]
        · rfl
        · intro o ho
          cases hl : os.lookup o.name with
          | none => rfl
          | some mv =>
            obtain ⟨m, u⟩ := mv
            unfold oneofTpl
            dsimp only
            cases hf : o.fields.find? (fun f => f.name == m) with
            | none => rfl
            | some f =>
              have hd := PGV.Go.depthOneofs_lookup hl
              simp only [depth] at hv
              refine key f u ?_ (.inl ⟨.member (mem_of_lookup' hl) .self, by omega⟩)
              exact List.mem_append_right _ (List.mem_flatMap.2 ⟨o, ho, List.mem_of_find?_eq_some hf⟩)
        · intro f hf
          refine key f _ (List.mem_append_left _ hf) ?_
          unfold getField
          cases hl : fs.lookup f.name with
          | none => exact .inr rfl
          | some u =>
            have hd := PGV.Go.depthFields_lookup hl
            simp only [depth] at hv
            exact .inl ⟨.field (mem_of_lookup' hl) .self, by simp only [Option.getD_some]; omega⟩
      | _ => rfl
    | _ => rfl

theorem assert_local (J : JEnv) (S S' : Schema) (t : Int) (v : Val) (hS : SameTypes S S' v)
    (hc : t = J.nowMs ∨ Without Relative S v) : assertValid (clock J t) S' v = assertValid J S v :=
  assert_local_aux J S S' t _ v (Nat.le_refl _) hS hc

end Java

/-! ### C++ -/

namespace Cpp
open PGV.Cpp

theorem check_local_aux (P : CEnv) (S S' : Schema) : ∀ n v, depth v ≤ n → SameTypes S S' v →
    checkMessage P S' v = checkMessage P S v := by
  intro n
  induction n with
  | zero => intro v hv; have := PGV.Go.depth_pos v; omega
  | succ n ih =>
    intro v hv hS
    rw [checkMessage_eq, checkMessage_eq]
    cases v with
    | msg typ fs os =>
      have hT := hS typ fs os .self
      unfold checkStep
      dsimp only
      rw [← hT]
      cases hg : S typ with
      | generated d =>
        dsimp only
        have key : ∀ f u, ((Part u (.msg typ fs os) ∧ depth u ≤ n) ∨ u = f.typ.zero) →
            renderField P (checkMessage P S') d.name f u = renderField P (checkMessage P S) d.name f u := by
          intro f u hu
          refine renderField_congr fun w hw => ?_
          rcases hu with ⟨hu, hd⟩ | rfl
          · exact ih w (by have := hw.depth_le; omega) (sameTypes_part hS (part_trans (Java.called_part hw) hu))
          · exact hw.zero.elim
        unfold validateMsg
        rw [forEach_congr (g := fun f => renderField P (checkMessage P S) d.name f (getField fs f)) d.fields,
          forEach_congr (g := fun o => oneofTpl P (checkMessage P S) d.name o (os.lookup o.name)) d.oneofs]
        · intro o ho
          cases hl : os.lookup o.name with
          | none => rfl
          | some mv =>
            obtain ⟨m, u⟩ := mv
            unfold oneofTpl
            dsimp only
            cases hf : o.fields.find? (fun f => f.name == m) with
            | none => rfl
            | some f =>
              have hd := PGV.Go.depthOneofs_lookup hl
              simp only [depth] at hv
              exact key f u (.inl ⟨.member (mem_of_lookup' hl) .self, by omega⟩)
        · intro f hf
          refine key f _ ?_
          unfold getField
          cases hl : fs.lookup f.name with
          | none => exact .inr rfl
          | some u =>
            have hd := PGV.Go.depthFields_lookup hl
            simp only [depth] at hv
            exact .inl ⟨.field (mem_of_lookup' hl) .self, by simp only [Option.getD_some]; omega⟩
      | _ => rfl
    | _ => rfl

theorem check_local (P : CEnv) (S S' : Schema) (v : Val) (hS : SameTypes S S' v) :
    checkMessage P S' v = checkMessage P S v :=
  check_local_aux P S S' _ v (Nat.le_refl _) hS

end Cpp

/-! ### Python -/

namespace Py
open PGV.Py PGV.Py.Code

/-- The libraries at another time. -/
def clock (P : PEnv) (t : Int) : PEnv := { P with now := t }

variable {P : PEnv} {S S' : Schema} {rec : Val → Run} {t : Int} {nm : String}

theorem timestamp_clock {pl : Place} {r : TimestampRules}
    (h : r.ltNow = none ∧ r.gtNow = none ∧ r.within = none) :
    timestampCode (clock P t) nm pl r = timestampCode P nm pl r := by
  obtain ⟨h1, h2, h3⟩ := h
  have hb : tsBody (clock P t) nm r = tsBody P nm r := by
    unfold tsBody tsNow
    simp only [h1, h2, h3]
  unfold timestampCode
  rw [hb]

theorem switcher_clock {e : ElemT} {rules : FieldRules} (h : ¬ Uses Relative rules) :
    switcher (clock P t) rec nm e rules = switcher P rec nm e rules := by
  cases rules with
  | absent => rfl
  | mk m ty =>
    unfold switcher
    cases ty with
    | timestamp r => simp only [timestamp_clock (P := P) (t := t) (not_relative h (r := r) rfl)]
    | _ => rfl

theorem repeated_clock {e : ElemT} {r : RepeatedRules} {items : FieldRules} (h : ¬ Uses Relative items) :
    repeatedCode (clock P t) rec nm e r items = repeatedCode P rec nm e r items := by
  unfold repeatedCode
  rw [switcher_clock h]

theorem map_clock {e : ElemT} {r : MapRules} {keys values : FieldRules} (h : ¬ Uses Relative values) :
    mapCode (clock P t) rec nm e r keys values = mapCode P rec nm e r keys values := by
  unfold mapCode
  rw [switcher_clock h]
  rfl

theorem field_clock {io : Bool} {f : FieldDesc} (h : ¬ Uses Relative f.rules) :
    fieldCode (clock P t) rec io f = fieldCode P rec io f := by
  obtain ⟨name, ft, rules⟩ := f
  have hs : ∀ e list, scalarField (clock P t) io ⟨name, ft, rules⟩ e list = scalarField P io ⟨name, ft, rules⟩ e list := by
    intro e list
    unfold scalarField
    cases rules with
    | absent => rfl
    | mk m ty =>
      cases ty with
      | repeated r items =>
        simp only [repeated_clock (P := P) (t := t) (not_items h (r := r) (items := items) rfl)]
      | _ => rfl
  unfold fieldCode
  split
  · refine ite_congr rfl (fun _ => rfl) fun _ => ?_
    unfold messageField
    cases rules with
    | absent => rfl
    | mk m ty =>
      cases ty with
      | timestamp r => simp only [timestamp_clock (P := P) (t := t) (not_relative h (r := r) rfl)]
      | _ => rfl
  · exact hs _ _
  · refine ite_congr rfl (fun _ => rfl) fun _ => ite_congr rfl (fun _ => rfl) fun _ => ?_
    unfold messageList
    cases rules with
    | absent => simp only [repeated_clock (P := P) (t := t) not_absent]
    | mk m ty =>
      cases ty with
      | repeated r items =>
        simp only [repeated_clock (P := P) (t := t) (not_items h (r := r) (items := items) rfl)]
      | _ => rfl
  · exact hs _ _
  · unfold mapField
    cases rules with
    | absent => simp only [map_clock (P := P) (t := t) not_absent]
    | mk m ty =>
      cases ty with
      | map r keys values =>
        simp only [map_clock (P := P) (t := t) (not_values h (r := r) (keys := keys) (values := values) rfl)]
      | _ => rfl

theorem seqAll_eq {α β : Type} {l : List α} {k k' : α → Code β} (h : ∀ a ∈ l, k a = k' a) : seqAll l k = seqAll l k' := by
  induction l with
  | nil => rfl
  | cons a l ih =>
    unfold seqAll
    rw [h a (.head _), ih fun b hb => h b (.tail _ hb)]

theorem member_clock {o : OneofDesc} {fs : List FieldDesc} (h : ∀ f ∈ fs, ¬ Uses Relative f.rules) :
    memberCode (clock P t) rec o fs = memberCode P rec o fs := by
  induction fs with
  | nil => rfl
  | cons f fs ih =>
    unfold memberCode
    rw [field_clock (h f (.head _)), ih fun g hg => h g (.tail _ hg)]

theorem msg_clock {d : MsgDesc} (h : ∀ f ∈ allFields d, ¬ Uses Relative f.rules) :
    msgCode (clock P t) rec d = msgCode P rec d := by
  unfold msgCode
  rw [seqAll_eq (k' := oneofCode P rec) (l := d.oneofs),
    seqAll_eq (k' := fun f => on (fun c : Content => getField c.1 f) (fieldCode P rec false f)) (l := d.fields)]
  · intro f hf
    rw [field_clock (h f (List.mem_append_left _ hf))]
  · intro o ho
    unfold oneofCode
    rw [member_clock fun f hf => h f (List.mem_append_right _ (List.mem_flatMap.2 ⟨o, ho, hf⟩))]

theorem called_part {typ : FieldT} {w v : Val} (h : Called typ w v) : Part w v := by
  cases h with
  | one => exact .self
  | item hm => exact .item hm .self
  | entry hm => exact .entry hm .self

/-- The text of a message on its own content calls `validate` on parts of it only. -/
theorem msg_agree {rec rec' : Val → Run} {d : MsgDesc} {typ : String} {fs : List (String × Val)}
    {os : List (String × String × Val)}
    (h : ∀ w, depth w < depth (.msg typ fs os) → Part w (.msg typ fs os) → rec w = rec' w) :
    (msgCode P rec d).run (fs, os) = (msgCode P rec' d).run (fs, os) := by
  have body : AgreeOn (fun c : Content => c = (fs, os))
      (seqAll d.oneofs (oneofCode P rec) ;; seqAll d.fields (fun f => on (fun c => getField c.1 f) (fieldCode P rec false f)))
      (seqAll d.oneofs (oneofCode P rec') ;; seqAll d.fields (fun f => on (fun c => getField c.1 f) (fieldCode P rec' false f))) := by
    refine AgreeOn.seq (seqAll_agree fun o _ => ?_) (seqAll_agree fun f _ => ?_)
    · refine AgreeOn.seq (AgreeOn.mono (memberCode_agree _) ?_) (.refl _)
      rintro c rfl n v f hl w hw
      have hl : os.lookup o.name = some (n, v) := hl
      refine h w ?_ (part_trans (called_part hw) (.member (mem_of_lookup' hl) .self))
      have h1 := hw.depth_le
      have h2 := PGV.Go.depthOneofs_lookup hl
      simp only [depth]; omega
    · refine AgreeOn.mono (AgreeOn.on _ fieldCode_agree) ?_
      rintro c rfl w hw
      unfold getField at hw
      cases hf : fs.lookup f.name with
      | some v =>
        rw [hf] at hw
        have h1 := hw.depth_le
        have h2 := PGV.Go.depthFields_lookup hf
        refine h w ?_ (part_trans (called_part hw) (.field (mem_of_lookup' hf) .self))
        simp only [Option.getD_some] at h1
        simp only [depth]; omega
      | none =>
        rw [hf] at hw
        exact hw.zero.elim
  have : AgreeOn (fun c : Content => c = (fs, os)) (msgCode P rec d) (msgCode P rec' d) := by
    unfold msgCode
    split
    · revert body
      generalize (seqAll d.oneofs (oneofCode P rec) ;; seqAll d.fields (fun f => on (fun c : Content => getField c.1 f) (fieldCode P rec false f))) = a
      generalize (seqAll d.oneofs (oneofCode P rec') ;; seqAll d.fields (fun f => on (fun c : Content => getField c.1 f) (fieldCode P rec' false f))) = a'
      intro body
      cases a <;> cases a' <;> simp_all [AgreeOn]
    · exact body
  exact this.run rfl

theorem clock_now : clock P P.now = P := rfl

theorem validate_local_aux (P : PEnv) (S S' : Schema) (t : Int) : ∀ n v, depth v ≤ n → SameTypes S S' v →
    (t = P.now ∨ Without Relative S v) → validate (clock P t) S' v = validate P S v := by
  intro n
  induction n with
  | zero => intro v hv; have := PGV.Go.depth_pos v; omega
  | succ n ih =>
    intro v hv hS hc
    rw [validate_eq, validate_eq]
    cases v with
    | msg typ fs os =>
      have hT := hS typ fs os .self
      unfold validateStep
      dsimp only
      rw [← hT]
      cases hg : S typ with
      | generated d =>
        dsimp only
        rw [msg_agree (typ := typ) (rec' := validate P S) fun w hd hp => ih w (by omega) (sameTypes_part hS hp)
          (hc.imp id fun hc => clockFree_part hc hp)]
        rcases hc with rfl | hc
        · rw [clock_now]
        · rw [msg_clock (hc typ fs os d .self hg)]
      | _ => simp only [clock]
    | _ => simp only [validateStep, clock]

theorem validate_local (P : PEnv) (S S' : Schema) (t : Int) (v : Val) (hS : SameTypes S S' v)
    (hc : t = P.now ∨ Without Relative S v) : validate (clock P t) S' v = validate P S v :=
  validate_local_aux P S S' t _ v (Nat.le_refl _) hS hc

end Py

end PGV.Local
