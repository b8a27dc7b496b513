import Verif.Spec.Evolution
import Verif.Lemmas.Local
import Verif.Lemmas.Fix
import Verif.Lemmas.PyMsg
import Verif.Lemmas.Fallback

/-!
What a validator accepts does not depend on the order of declarations, nor on fields without rules: Go, Java and C++.
-/

set_option linter.unusedSimpArgs false

namespace PGV.Evolution
open PGV PGV.Spec
open PGV.Go (depth resolve Resolved elemTypNotNone)
open PGV.Java (Called)

theorem Versions.symm {d d' : MsgDesc} {fs : List (String × Val)} {os : List (String × String × Val)}
    (h : Versions d d' fs os) : Versions d' d fs os :=
  ⟨h.name.symm, h.ignored.symm, h.disabled.symm, h.new, h.old, h.more, h.fewer⟩

theorem evolved_symm {S S' : Schema} {v : Val} (h : Evolved S S' v) : Evolved S' S v := by
  intro typ fs os hp
  rcases h typ fs os hp with ⟨d, d', h1, h2, h3⟩ | ⟨h1, h2⟩
  · exact .inl ⟨d', d, h2, h1, Versions.symm h3⟩
  · exact .inr ⟨h1.symm, fun d hd => h2 d (h1.trans hd)⟩

theorem evolved_part {S S' : Schema} {v w : Val} (h : Evolved S S' v) (hp : Part w v) : Evolved S S' w :=
  fun typ fs os hw => h typ fs os (Local.part_trans hw hp)

/-- A oneof under a predicate on fields. -/
def One (A : FieldDesc → Val → Prop) (o : OneofDesc) : Option (String × Val) → Prop
  | none => o.required = false
  | some (m, u) => ∀ f, o.fields.find? (fun f => f.name == m) = some f → A f u

theorem carry {d d' : MsgDesc} {fs : List (String × Val)} {os : List (String × String × Val)}
    {A A' : FieldDesc → Val → Prop} (hv : Fits d os) (hm : NoMore d d' fs os)
    (free : ∀ f u, Free f u → A' f u) (mono : ∀ f u, Active d' fs os f u → A f u → A' f u)
    (hf : ∀ f ∈ d.fields, A f (getField fs f)) (ho : ∀ o ∈ d.oneofs, One A o (os.lookup o.name)) :
    (∀ f ∈ d'.fields, A' f (getField fs f)) ∧ ∀ o ∈ d'.oneofs, One A' o (os.lookup o.name) := by
  refine ⟨fun f hf' => ?_, fun o' ho' => ?_⟩
  · rcases hm.fields f hf' with h | h
    · exact mono f _ (.field hf') (hf f h)
    · exact free f _ h
  · have key : ∀ m u, os.lookup o'.name = some (m, u) → ∀ f ∈ o'.fields, f.name = m → ¬ Spare os o' f := by
      rintro m u hl f - rfl hs
      exact hs.2 u hl
    rcases hm.oneofs o' ho' with ⟨o, hoo, hn, hr, hmem⟩ | ⟨hr, hmem⟩
    · have h1 := ho o hoo
      rw [hn] at h1
      cases hl : os.lookup o'.name with
      | none =>
        rw [hl] at h1
        exact hr.symm.trans h1
      | some mu =>
        obtain ⟨m, u⟩ := mu
        rw [hl] at h1
        intro f hfind
        have hfm := List.mem_of_find?_eq_some hfind
        have hfn : f.name = m := by simpa using List.find?_some hfind
        rcases hmem f hfm with h | h
        · refine mono f u (.member ho' hl hfind) (h1 f ?_)
          rw [← hfn]
          exact Py.find_of_nodup (hv.names o hoo) h
        · exact (key m u hl f hfm hfn h).elim
    · cases hl : os.lookup o'.name with
      | none => exact hr
      | some mu =>
        obtain ⟨m, u⟩ := mu
        intro f hfind
        have hfm := List.mem_of_find?_eq_some hfind
        have hfn : f.name = m := by simpa using List.find?_some hfind
        exact (key m u hl f hfm hfn (hmem f hfm)).elim

/-- The values of fields are parts of the message, of smaller depth. -/
theorem active_part {d : MsgDesc} {typ : String} {fs : List (String × Val)} {os : List (String × String × Val)}
    {f : FieldDesc} {u : Val} (h : Active d fs os f u) :
    (Part u (.msg typ fs os) ∧ depth u < depth (.msg typ fs os)) ∨ u = f.typ.zero := by
  cases h with
  | field hf =>
    unfold getField
    cases hl : fs.lookup f.name with
    | none => exact .inr rfl
    | some u =>
      have hd := PGV.Go.depthFields_lookup hl
      refine .inl ⟨.field (Local.mem_of_lookup' hl) .self, ?_⟩
      simp only [depth, Option.getD_some]
      omega
  | member ho hl hf =>
    have hd := PGV.Go.depthOneofs_lookup hl
    refine .inl ⟨.member (Local.mem_of_lookup' hl) .self, ?_⟩
    simp only [depth]
    omega

/-- What the recursive calls are on. -/
theorem called_part {d : MsgDesc} {typ : String} {fs : List (String × Val)} {os : List (String × String × Val)}
    {f : FieldDesc} {u w : Val} (h : Active d fs os f u) (hc : Called f.typ w u) :
    Part w (.msg typ fs os) ∧ depth w < depth (.msg typ fs os) := by
  rcases active_part (typ := typ) h with ⟨hp, hd⟩ | rfl
  · have := hc.depth_le
    exact ⟨Local.part_trans (Local.Java.called_part hc) hp, by omega⟩
  · exact hc.zero.elim

/-! ### Go -/

namespace Go
open PGV.Go

variable {E : Env} {S S' : Schema} {ok ok' : Val → Prop}

theorem embedded_null : EmbeddedOk E S ok .null := trivial

theorem value {e : ElemT} {rules : FieldRules} {v : Val}
    (h : e.isEmbed = true → v ≠ .null → EmbeddedOk E S ok v → EmbeddedOk E S' ok' v)
    (ha : ValueOk E S ok e rules v) : ValueOk E S' ok' e rules v := by
  unfold ValueOk at ha ⊢
  cases ht : rules.type with
  | unset =>
    rw [ht] at ha
    intro he
    refine ⟨(ha he).1, fun hs => ?_⟩
    by_cases hn : v = .null
    · subst hn; exact embedded_null
    · exact h he hn ((ha he).2 hs)
  | _ => rw [ht] at ha; exact ha

theorem field {f : FieldDesc} {v : Val}
    (h : ∀ w, Called f.typ w v → EmbeddedOk E S ok w → EmbeddedOk E S' ok' w) (ha : FieldOk E S ok f v) :
    FieldOk E S' ok' f v := by
  obtain ⟨name, ft, rules⟩ := f
  have emb : ∀ w, (w ≠ .null → EmbeddedOk E S ok w → EmbeddedOk E S' ok' w) → EmbeddedOk E S ok w →
      EmbeddedOk E S' ok' w := by
    intro w h1 h2
    by_cases hn : w = .null
    · subst hn; exact embedded_null
    · exact h1 hn h2
  unfold FieldOk at ha ⊢
  cases ft with
  | one e => exact value (fun he hn => h v (.one he hn)) ha
  | rep e =>
    cases v with
    | list vs =>
      dsimp only at ha ⊢
      cases ht : rules.type with
      | repeated r items =>
        rw [ht] at ha
        exact ha.imp id fun ⟨h1, h2, h3⟩ => ⟨h1, h2, fun v hv => value (fun _ hn => h v (.item hv hn)) (h3 v hv)⟩
      | unset =>
        rw [ht] at ha
        exact fun v hv he => emb v (fun hn => h v (.item hv hn)) (ha v hv he)
      | _ => trivial
    | _ => trivial
  | map kt vt =>
    cases v with
    | map kvs =>
      dsimp only at ha ⊢
      cases ht : rules.type with
      | map r keys values =>
        rw [ht] at ha
        exact ha.imp id fun ⟨h1, h2⟩ => ⟨h1, fun kv hv => ⟨(h2 kv hv).1, (h2 kv hv).2.1,
          value (fun _ hn => h kv.2 (.entry hv hn)) (h2 kv hv).2.2⟩⟩
      | unset =>
        rw [ht] at ha
        exact fun kv hv he => emb kv.2 (fun hn => h kv.2 (.entry hv hn)) (ha kv hv he)
      | _ => trivial
    | _ => trivial

theorem free {f : FieldDesc} {u : Val} (h : Free f u) : FieldOk E S ok f u := by
  obtain ⟨name, ft, rules⟩ := f
  obtain ⟨hr, h⟩ := h
  dsimp only at hr
  subst hr
  unfold FieldOk
  cases ft with
  | one e =>
    rcases h with h | rfl
    · exact fun he => (h he).elim
    · cases e <;> simp [ValueOk, FieldRules.type, FieldRules.message, FieldT.zero, ElemT.isEmbed, msgRequired, ElemT.zero,
        EmbeddedOk]
  | rep e =>
    cases u with
    | list vs =>
      rcases h with h | h
      · exact fun v _ he => (h he).elim
      · cases h; intro v hv; cases hv
    | _ => trivial
  | map kt vt =>
    cases u with
    | map kvs =>
      rcases h with h | h
      · exact fun v _ he => (h he).elim
      · cases h; intro v hv; cases hv
    | _ => trivial

theorem valid {S S' : Schema} : ∀ n v, depth v ≤ n → Evolved S S' v → PGV.Go.validate E S false v = none →
    PGV.Go.validate E S' false v = none := by
  intro n
  induction n with
  | zero => intro v hv; have := PGV.Go.depth_pos v; omega
  | succ n ih =>
    intro v hv hS ha
    rw [validate_spec] at ha ⊢
    cases v with
    | msg typ fs os =>
      unfold MessageOk at ha ⊢
      dsimp only at ha ⊢
      rcases hS typ fs os .self with ⟨d, d', h1, h2, h3⟩ | ⟨h1, h2⟩
      · rw [h1] at ha
        rw [h2]
        intro hd
        obtain ⟨hf, ho⟩ := ha (h3.disabled.trans hd)
        have := carry (A := FieldOk E S fun w => PGV.Go.validate E S false w = none)
          (A' := FieldOk E S' fun w => PGV.Go.validate E S' false w = none) h3.old h3.more (fun f u => free) ?_ hf ?_
        · refine ⟨this.1, fun o ho' => ?_⟩
          have := this.2 o ho'
          revert this
          cases os.lookup o.name <;> exact id
        · intro f u hact
          refine field fun w hw hok => ?_
          obtain ⟨hp, hlt⟩ := called_part (typ := typ) hact hw
          have hw' := evolved_part hS hp
          cases w with
          | msg t fs' os' =>
            unfold EmbeddedOk at hok ⊢
            dsimp only at hok ⊢
            rcases hw' t fs' os' .self with ⟨e, e', g1, g2, g3⟩ | ⟨g1, g2⟩
            · rw [g1] at hok
              rw [g2]
              exact fun hi => ih _ (by omega) hw' (hok (g3.ignored.trans hi))
            · rw [← g1]
              revert hok
              cases hg : S t with
              | generated d => exact (g2 d hg).elim
              | _ => exact id
          | _ => exact hok
        · intro o hoo
          have := ho o hoo
          revert this
          cases os.lookup o.name <;> exact id
      · rw [← h1]
        cases hg : S typ with
        | generated d => exact (h2 d hg).elim
        | _ => trivial
    | _ => trivial

end Go

/-! ### Java -/

namespace Java
open PGV.Java

variable {J : JEnv} {S S' : Schema}

theorem fallingBack_other : J.fallingBack J.other = J := rfl

theorem elem_free {rec : Val → Run} {n : String} {e : ElemT} {v : Val} (h : e.isEmbed = false ∨ v = .null) :
    elemTpl J rec n e .absent v = .ok () := by
  rcases h with h | rfl
  · cases e <;> first | rfl | cases h
  · cases e <;> rfl

theorem free {rec : Val → Run} {typ : String} {f : FieldDesc} {u : Val} (h : Free f u) :
    renderField J rec typ f u = .ok () := by
  obtain ⟨name, ft, rules⟩ := f
  obtain ⟨hr, h⟩ := h
  dsimp only at hr
  subst hr
  cases ft with
  | one e =>
    cases he : e.isEmbed with
    | false => exact elem_free (.inl he)
    | true =>
      rcases h with h | h
      · exact (h he).elim
      · refine elem_free (.inr ?_)
        rw [h]
        cases e <;> first | rfl | cases he
  | rep e =>
    cases u with
    | list vs =>
      have hv : ∀ v ∈ vs, e.isEmbed = false := by
        rcases h with h | h
        · exact fun v _ => by simpa [HoldsMessages] using h
        · cases h; intro v hv; cases hv
      simp only [renderField, FieldRules.type, repeatedTpl, optN, optB, Option.getD_none, Bool.false_eq_true, if_false,
        seq_ok, when_ok, forEach_ok]
      refine ⟨?_, ?_, ?_, fun v hm => elem_free (.inl (hv v hm))⟩ <;> simp [optN, optB]
    | _ => rfl
  | map kt vt =>
    cases u with
    | map kvs =>
      simp only [renderField, FieldRules.type]
      split
      · rename_i he
        rcases h with h | h
        · exact (h he).elim
        · cases h
          have hz : J.order [] = [] := List.Perm.eq_nil (J.order_perm [])
          simp only [mapTpl, seq_ok, when_ok, forEach_ok, hz]
          simp [optN, optB]
      · rfl
    | _ => rfl

theorem oneof_ok {rec : Val → Run} {typ : String} {o : OneofDesc} {set : Option (String × Val)} :
    oneofTpl J rec typ o set = .ok () ↔ One (fun f u => renderField J rec typ f u = .ok ()) o set := by
  unfold oneofTpl One
  cases set with
  | none => cases ho : o.required <;> simp [when, required]
  | some mu =>
    obtain ⟨m, u⟩ := mu
    dsimp only
    cases hf : o.fields.find? (fun f => f.name == m) with
    | none => simp
    | some f => simp

theorem valid : ∀ n v, depth v ≤ n → Evolved S S' v → assertValid J S v = .ok () → assertValid J S' v = .ok () := by
  intro n
  induction n with
  | zero => intro v hv; have := PGV.Go.depth_pos v; omega
  | succ n ih =>
    intro v hv hS ha
    rw [assertValid_eq] at ha ⊢
    cases v with
    | msg typ fs os =>
      unfold assertStep at ha ⊢
      dsimp only at ha ⊢
      rcases hS typ fs os .self with ⟨d, d', h1, h2, h3⟩ | ⟨h1, h2⟩
      · rw [h1] at ha
        rw [h2]
        dsimp only at ha ⊢
        rw [← h3.ignored, ← h3.disabled]
        split
        · rename_i hi
          rw [if_pos hi] at ha
          exact ha
        · rename_i hi
          rw [if_neg hi] at ha
          split
          · rfl
          · rename_i hd
            rw [if_neg hd] at ha
            simp only [seq_ok, forEach_ok, oneof_ok] at ha ⊢
            refine carry h3.old h3.more (fun f u => free) ?_ ha.1 ha.2
            intro f u hact hok
            have := Fallback.field (J := J) (o := J.other) (rec := assertValid J S) (rec' := assertValid J S') (typ := typ)
              (f := f) (v := u) ?_ hok
            · rwa [fallingBack_other] at this
            · intro i rules w hw hn hok
              obtain ⟨hp, hlt⟩ := called_part (typ := typ) hact (Fallback.held_called hw hn)
              exact ih w (by omega) (evolved_part hS hp) hok
      · rw [← h1]
        cases hg : S typ with
        | generated d => exact (h2 d hg).elim
        | _ => rw [hg] at ha; exact ha
    | _ => exact ha

end Java

/-! ### C++ -/

namespace Cpp
open PGV.Cpp

variable {P : CEnv} {S S' : Schema} {rec rec' : Val → Run}

theorem seq_ok {a b : Run} : (a ⊳ b) = .ok () ↔ a = .ok () ∧ b = .ok () := by
  rcases a with e | ⟨⟨⟩⟩
  · constructor
    · intro h; cases h
    · rintro ⟨h, -⟩; cases h
  · exact ⟨fun h => ⟨rfl, h⟩, fun h => h.2⟩

theorem when_ok {b : Bool} {r : Run} : when b r = .ok () ↔ (b = true → r = .ok ()) := by
  cases b <;> simp [when]

theorem forEach_ok {α : Type} {f : α → Run} {xs : List α} : forEach xs f = .ok () ↔ ∀ x ∈ xs, f x = .ok () := by
  induction xs with
  | nil => simp [forEach]
  | cons x xs ih => simp only [forEach, seq_ok, ih, List.mem_cons, forall_eq_or_imp]

theorem elem {c : Go.Ctx} {e : ElemT} {rules : FieldRules} {v : Val}
    (h : e.isEmbed = true → v ≠ .null → rec v = .ok () → rec' v = .ok ())
    (ha : elemTpl P rec c e rules v = .ok ()) : elemTpl P rec' c e rules v = .ok () := by
  unfold elemTpl at ha ⊢
  cases hr : resolve e rules with
  | message m =>
    have he : e.isEmbed = true := by
      unfold resolve at hr
      cases ht : rules.type with
      | unset => cases he : e.isEmbed <;> simp_all
      | num k r => cases he : e.isEmbed <;> cases k <;> simp_all
      | _ => cases he : e.isEmbed <;> simp_all
    rw [hr] at ha
    dsimp only at ha ⊢
    unfold messageTpl at ha ⊢
    simp only [seq_ok] at ha ⊢
    refine ⟨ha.1, ?_⟩
    have ha := ha.2
    split
    · rfl
    · rename_i hs
      rw [if_neg hs] at ha
      split
      · rfl
      · rename_i hn
        rw [if_neg hn] at ha
        have hn' : v ≠ .null := by rintro rfl; exact hn rfl
        cases hv : rec v with
        | ok => rw [h he hn' (by rw [hv])]
        | error x =>
          rw [hv] at ha
          cases x with
          | invalid => simp [failIdx, Cpp.fail] at ha
          | unimplemented => cases ha
  | none => rfl
  | _ =>
    rw [hr] at ha
    exact ha

theorem loop {u : Bool} {same : Val → Val → Bool} {c : Go.Ctx} {f g : Nat → Val → Run} (vs : List Val) :
    ∀ i seen, (∀ i, ∀ v ∈ vs, f i v = .ok () → g i v = .ok ()) →
    repLoop u same c f i seen vs = .ok () → repLoop u same c g i seen vs = .ok () := by
  induction vs with
  | nil => intros; rfl
  | cons v vs ih =>
    intro i seen h ha
    unfold repLoop at ha ⊢
    simp only [seq_ok] at ha ⊢
    exact ⟨ha.1, h i v (.head _) ha.2.1, ih _ _ (fun i w hw => h i w (.tail _ hw)) ha.2.2⟩

theorem repeated {c : Go.Ctx} {e : ElemT} {r : RepeatedRules} {items : FieldRules} {vs : List Val}
    (h : ∀ v ∈ vs, e.isEmbed = true → v ≠ .null → rec v = .ok () → rec' v = .ok ())
    (ha : repTpl P rec c e r items vs = .ok ()) : repTpl P rec' c e r items vs = .ok () := by
  have body : ∀ (_ : (countTpl "item" c r.minItems r.maxItems vs.length ⊳
      if optB r.unique || elemTypNotNone e items then
        repLoop (optB r.unique) (itemEq e) c
          (fun i v => elemTpl P rec { c with index := some (.pos i) } e items v) 0 [] vs
      else .ok ()) = .ok ()), (countTpl "item" c r.minItems r.maxItems vs.length ⊳
      if optB r.unique || elemTypNotNone e items then
        repLoop (optB r.unique) (itemEq e) c
          (fun i v => elemTpl P rec' { c with index := some (.pos i) } e items v) 0 [] vs
      else .ok ()) = .ok () := by
    intro ha
    simp only [seq_ok] at ha ⊢
    refine ⟨ha.1, ?_⟩
    have ha := ha.2
    split
    · rename_i hi
      rw [if_pos hi] at ha
      exact loop vs _ _ (fun i v hv => elem (h v hv)) ha
    · rfl
  unfold repTpl at ha ⊢
  dsimp only at ha ⊢
  split
  · rename_i hi
    rw [if_pos hi] at ha
    simp only [when_ok] at ha ⊢
    exact fun hn => body (ha hn)
  · rename_i hi
    rw [if_neg hi] at ha
    exact body ha

theorem map {c : Go.Ctx} {kt vt : ElemT} {r : MapRules} {keys values : FieldRules} {kvs : List (Scalar × Val)}
    (h : ∀ kv ∈ kvs, vt.isEmbed = true → kv.2 ≠ .null → rec kv.2 = .ok () → rec' kv.2 = .ok ())
    (ha : mapTpl P rec c kt vt r keys values kvs = .ok ()) : mapTpl P rec' c kt vt r keys values kvs = .ok () := by
  have mem : ∀ kv, kv ∈ P.order kvs → kv ∈ kvs := fun kv hm => (P.order_perm kvs).mem_iff.1 hm
  have entry : forEach (P.order kvs) (mapEntry P rec c kt vt keys values) = .ok () →
      forEach (P.order kvs) (mapEntry P rec' c kt vt keys values) = .ok () := by
    simp only [forEach_ok]
    intro ha kv hm
    have := ha kv hm
    unfold mapEntry at this ⊢
    simp only [seq_ok] at this ⊢
    exact ⟨this.1, elem (h kv (mem kv hm)) this.2⟩
  unfold mapTpl at ha ⊢
  dsimp only at ha ⊢
  split
  · rename_i hi
    rw [if_pos hi] at ha
    simp only [when_ok, seq_ok] at ha ⊢
    intro hn
    refine ⟨(ha hn).1, ?_⟩
    have ha := (ha hn).2
    split
    · rename_i ht
      rw [if_pos ht] at ha
      simp only [when_ok, seq_ok] at ha ⊢
      exact ⟨entry ha.1, ha.2⟩
    · rfl
  · rename_i hi
    rw [if_neg hi] at ha
    simp only [seq_ok] at ha ⊢
    refine ⟨ha.1, ?_⟩
    have ha := ha.2
    split
    · rename_i ht
      rw [if_pos ht] at ha
      simp only [when_ok, seq_ok] at ha ⊢
      exact ⟨entry ha.1, ha.2⟩
    · rfl

theorem field {m : String} {f : FieldDesc} {v : Val} (h : ∀ w, Called f.typ w v → rec w = .ok () → rec' w = .ok ())
    (ha : renderField P rec m f v = .ok ()) : renderField P rec' m f v = .ok () := by
  obtain ⟨name, ft, rules⟩ := f
  unfold renderField at ha ⊢
  cases ft with
  | one e => exact elem (fun he hn => h v (.one he hn)) ha
  | rep e =>
    cases v with
    | list vs =>
      dsimp only at ha ⊢
      cases ht : rules.type with
      | repeated => rw [ht] at ha; exact repeated (fun v hv _ hn => h v (.item hv hn)) ha
      | unset => rw [ht] at ha; exact repeated (fun v hv _ hn => h v (.item hv hn)) ha
      | _ => rfl
    | _ => rfl
  | map kt vt =>
    cases v with
    | map kvs =>
      dsimp only at ha ⊢
      cases ht : rules.type with
      | map => rw [ht] at ha; exact map (fun kv hv _ hn => h kv.2 (.entry hv hn)) ha
      | unset =>
        rw [ht] at ha
        dsimp only at ha ⊢
        split
        · rename_i he
          rw [if_pos he] at ha
          exact map (fun kv hv _ hn => h kv.2 (.entry hv hn)) ha
        · rfl
      | _ => rfl
    | _ => rfl

theorem elem_free {c : Go.Ctx} {e : ElemT} {v : Val} (h : e.isEmbed = false ∨ v = .null) :
    elemTpl P rec c e .absent v = .ok () := by
  rcases h with h | rfl
  · cases e <;> first | rfl | cases h
  · cases e <;> rfl

theorem free {m : String} {f : FieldDesc} {u : Val} (h : Free f u) : renderField P rec m f u = .ok () := by
  obtain ⟨name, ft, rules⟩ := f
  obtain ⟨hr, h⟩ := h
  dsimp only at hr
  subst hr
  cases ft with
  | one e =>
    cases he : e.isEmbed with
    | false => exact elem_free (.inl he)
    | true =>
      rcases h with h | h
      · exact (h he).elim
      · refine elem_free (.inr ?_)
        rw [h]
        cases e <;> first | rfl | cases he
  | rep e =>
    cases u with
    | list vs =>
      simp only [renderField, FieldRules.type]
      rcases h with h | h
      · have he : e.isEmbed = false := by simpa [HoldsMessages] using h
        have : elemTypNotNone e .absent = false := by cases e <;> first | rfl | cases he
        simp [repTpl, this, optB, countTpl, optN, seq_ok]
      · cases h
        simp [repTpl, optB, countTpl, optN, seq_ok, repLoop]
    | _ => rfl
  | map kt vt =>
    cases u with
    | map kvs =>
      simp only [renderField, FieldRules.type]
      split
      · rename_i he
        rcases h with h | h
        · exact (h he).elim
        · cases h
          have hz : P.order [] = [] := List.Perm.eq_nil (P.order_perm [])
          simp [mapTpl, optB, countTpl, optN, seq_ok, hz, forEach, when]
      · rfl
    | _ => rfl

theorem oneof_ok {m : String} {o : OneofDesc} {set : Option (String × Val)} :
    oneofTpl P rec m o set = .ok () ↔ One (fun f u => renderField P rec m f u = .ok ()) o set := by
  unfold oneofTpl One
  cases set with
  | none => cases ho : o.required <;> simp [when]
  | some mu =>
    obtain ⟨m, u⟩ := mu
    dsimp only
    cases hf : o.fields.find? (fun f => f.name == m) with
    | none => simp
    | some f => simp

theorem valid : ∀ n v, depth v ≤ n → Evolved S S' v → checkMessage P S v = .ok () → checkMessage P S' v = .ok () := by
  intro n
  induction n with
  | zero => intro v hv; have := PGV.Go.depth_pos v; omega
  | succ n ih =>
    intro v hv hS ha
    rw [checkMessage_eq] at ha ⊢
    cases v with
    | msg typ fs os =>
      unfold checkStep at ha ⊢
      dsimp only at ha ⊢
      rcases hS typ fs os .self with ⟨d, d', h1, h2, h3⟩ | ⟨h1, h2⟩
      · rw [h1] at ha
        rw [h2]
        dsimp only at ha ⊢
        rw [← h3.ignored, ← h3.disabled]
        split
        · rename_i hi
          rw [if_pos hi] at ha
          exact ha
        · rename_i hi
          rw [if_neg hi] at ha
          unfold validateMsg at ha ⊢
          rw [← h3.disabled, ← h3.name]
          split
          · rfl
          · rename_i hd
            rw [if_neg hd] at ha
            simp only [seq_ok, forEach_ok, oneof_ok] at ha ⊢
            refine carry h3.old h3.more (fun f u => free) ?_ ha.1 ha.2
            intro f u hact hok
            refine field (fun w hw hok => ?_) hok
            obtain ⟨hp, hlt⟩ := called_part (typ := typ) hact hw
            exact ih w (by omega) (evolved_part hS hp) hok
      · rw [← h1]
        cases hg : S typ with
        | generated d => exact (h2 d hg).elim
        | _ => rw [hg] at ha; exact ha
    | _ => exact ha

end Cpp

end PGV.Evolution
