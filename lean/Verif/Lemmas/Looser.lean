import Verif.Spec.Looser
import Verif.Lemmas.Evolution

/-!
Loosening rules keeps messages valid: Go.
-/

set_option linter.unusedSimpArgs false

namespace PGV.Looser
open PGV PGV.Spec PGV.Spec.Looser PGV.Go
open PGV.Java (Called)

theorem kept {α : Type} {a b : Option α} {p : α → Prop} (h : Kept a b) (ha : ∀ k, a = some k → p k) :
    ∀ k, b = some k → p k := by
  rcases h with rfl | rfl
  · exact ha
  · intro k hk; cases hk

theorem lists {α : Type} {same : α → α → Prop} {ins notIns ins' notIns' : List α} {v : α}
    (h : Lists ins notIns ins' notIns') (ha : ListOk same ins notIns v) : ListOk same ins' notIns' v := by
  refine ⟨fun hn => ?_, fun he => ?_⟩
  · obtain ⟨h1, h2⟩ := h.more hn
    obtain ⟨k, hk, hs⟩ := ha.1 h1
    exact ⟨k, h2 k hk, hs⟩
  · rcases h.fewer he with ⟨h1, h2⟩ | h1
    · exact fun k hk => ha.2 h1 k (h2 k hk)
    · rw [h1]; intro k hk; cases hk

theorem lists_map {α β : Type} (g : α → β) {ins notIns ins' notIns' : List α} (h : Lists ins notIns ins' notIns') :
    Lists (ins.map g) (notIns.map g) (ins'.map g) (notIns'.map g) := by
  refine ⟨fun hn => ?_, fun he => ?_⟩
  · obtain ⟨h1, h2⟩ := h.more (by simpa using hn)
    refine ⟨by simpa using h1, fun b hb => ?_⟩
    obtain ⟨a, ha, rfl⟩ := List.mem_map.1 hb
    exact List.mem_map_of_mem (h2 a ha)
  · rcases h.fewer (by simpa using he) with ⟨h1, h2⟩ | h1
    · refine .inl ⟨by simpa using h1, fun b hb => ?_⟩
      obtain ⟨a, ha, rfl⟩ := List.mem_map.1 hb
      exact List.mem_map_of_mem (h2 a ha)
    · exact .inr (by simpa using h1)

theorem lower {a b : Option Nat} {n : Nat} (h : Lower a b) (ha : ∀ k, a = some k → k ≤ n) : ∀ k, b = some k → k ≤ n := by
  intro k hk
  obtain ⟨m, hm, hle⟩ := h k hk
  exact Nat.le_trans hle (ha m hm)

theorem higher {a b : Option Nat} {n : Nat} (h : Higher a b) (ha : ∀ k, a = some k → n ≤ k) : ∀ k, b = some k → n ≤ k := by
  intro k hk
  obtain ⟨m, hm, hle⟩ := h k hk
  exact Nat.le_trans (ha m hm) hle

theorem lengths {l m x l' m' x' : Option Nat} {n : Nat} (h : Lengths l m x l' m' x') (ha : LenOk l m x n) :
    LenOk l' m' x' n := by
  cases h with
  | exact => exact ha
  | limits h1 h2 => exact ⟨lower h1 ha.1, higher h2 ha.2⟩
  | about h1 h2 =>
    have ha : n = _ := ha
    subst ha
    exact ⟨h1, h2⟩

theorem upper {b b' : Bound} {x : Int} (h : b.value < b'.value ∨ b.value = b'.value ∧ (b'.strict = true → b.strict = true))
    (ha : b.AsUpper x) : b'.AsUpper x := by
  unfold Bound.AsUpper at ha ⊢
  split at ha <;> split <;> first | omega | (rename_i h1 h2; rcases h with h | ⟨h, h3⟩ <;> first | omega | exact absurd (h3 h2) h1)

theorem lower' {b b' : Bound} {x : Int} (h : b'.value < b.value ∨ b.value = b'.value ∧ (b'.strict = true → b.strict = true))
    (ha : b.AsLower x) : b'.AsLower x := by
  unfold Bound.AsLower at ha ⊢
  split at ha <;> split <;> first | omega | (rename_i h1 h2; rcases h with h | ⟨h, h3⟩ <;> first | omega | exact absurd (h3 h2) h1)

theorem interval_iff {u l : Option Bound} (h : Interval u l) (x : Int) :
    RangeOk u l x ↔ (∀ b, u = some b → b.AsUpper x) ∧ (∀ b, l = some b → b.AsLower x) := by
  unfold RangeOk
  cases u with
  | none => cases l <;> simp
  | some u =>
    cases l with
    | none => simp
    | some l => simp [h u l rfl rfl]

theorem limits {u l u' l' : Option Bound} {x : Int} (h : Limits u l u' l') (ha : RangeOk u l x) : RangeOk u' l' x := by
  cases h with
  | kept => exact ha
  | dropped => trivial
  | wider h1 h2 h3 h4 =>
    rw [interval_iff h1] at ha
    rw [interval_iff h2]
    refine ⟨fun b' hb => ?_, fun b' hb => ?_⟩
    · obtain ⟨b, e, h⟩ := h3 b' hb
      exact upper h (ha.1 b e)
    · obtain ⟨b, e, h⟩ := h4 b' hb
      exact lower' h (ha.2 b e)

theorem num {r r' : NumRules} {v : PGV.Num} (h : Numbers r r') (ha : NumOk r v) : NumOk r' v := by
  rcases ha with ha | ⟨h1, h2, h3⟩
  · exact .inl ⟨h.empty ha.1, ha.2⟩
  · exact .inr ⟨kept h.const h1, fun x hx => limits h.limits (h2 x hx), lists h.lists h3⟩

theorem string {E : Env} {r r' : StringRules} {s : Bytes} (h : Strings r r') (ha : StringOk E r s) : StringOk E r' s := by
  rcases ha with ha | ⟨h1, h2, h3, h4, h5, h6, h7, h8, h9, h10⟩
  · exact .inl ⟨h.empty ha.1, ha.2⟩
  · refine .inr ⟨kept h.const h1, lists h.lists h2, lengths h.chars h3, lengths h.bytes h4, kept h.pfx h5, kept h.sfx h6,
      kept h.contains h7, kept h.notContains h8, ?_, kept h.pattern h10⟩
    rcases h.format with e | e <;> rw [e]
    · exact h9
    · trivial

theorem bytes {E : Env} {r r' : BytesRules} {s : Bytes} (h : ByteStrings r r') (ha : BytesOk E r s) : BytesOk E r' s := by
  rcases ha with ha | ⟨h1, h2, h3, h4, h5, h6, h7, h8⟩
  · exact .inl ⟨h.empty ha.1, ha.2⟩
  · refine .inr ⟨lengths h.len h1, kept h.pfx h2, kept h.sfx h3, kept h.contains h4, lists h.lists h5, kept h.const h6, ?_,
      kept h.pattern h8⟩
    rcases h.format with e | e <;> rw [e]
    · exact h7
    · trivial

theorem enum {l : List Int} {r r' : EnumRules} {i : Int} (h : Enums r r') (ha : EnumOk l r i) : EnumOk l r' i :=
  ⟨kept h.const ha.1, lists h.lists ha.2.1, fun hd => ha.2.2 (h.defined hd)⟩

theorem any {r r' : AnyRules} {u : Option Bytes} (h : Anys r r') (ha : AnyOk r u) : AnyOk r' u := by
  cases u with
  | none => exact fun hr => ha (h.required hr)
  | some u => exact lists h.lists ha

theorem duration {r r' : DurationRules} {d : Option PDur} (h : Durations r r') (ha : DurationOk r d) : DurationOk r' d := by
  cases d with
  | none => exact fun hr => ha (h.required hr)
  | some d =>
    intro hc
    have hc' : DurConstrained r := by
      unfold DurConstrained at hc ⊢
      rcases hc with hc | hc | hc
      · exact .inl (h.lists.more hc).1
      · by_cases hi : r'.ins = []
        · rcases h.lists.fewer hi with ⟨-, h2⟩ | h2
          · obtain ⟨a, l, e⟩ := List.exists_cons_of_ne_nil hc
            have := h2 a (by rw [e]; exact .head _)
            exact .inr (.inl (by rintro e'; rw [e'] at this; cases this))
          · exact absurd h2 hc
        · exact .inl (h.lists.more hi).1
      · rcases h.limits with ⟨e1, e2, e3, e4⟩ | ⟨e1, e2, e3, e4⟩ <;> rcases h.const with e5 | e5 <;>
          simp only [e1, e2, e3, e4, e5] at hc <;> simp_all <;> grind
    obtain ⟨h1, h2, h3, h4⟩ := ha hc'
    refine ⟨h1, kept h.const h2, ?_, lists (lists_map _ h.lists) h4⟩
    rcases h.limits with ⟨e1, e2, e3, e4⟩ | ⟨e1, e2, e3, e4⟩
    · unfold durUpper durLower at h3 ⊢
      rw [e1, e2, e3, e4]
      exact h3
    · unfold durUpper durLower
      rw [e1, e2, e3, e4]
      trivial

theorem timestamp {now : Int} {r r' : TimestampRules} {t : Option PTime} (h : Timestamps r r') (ha : TimestampOk now r t) :
    TimestampOk now r' t := by
  cases t with
  | none => exact fun hr => ha (h.required hr)
  | some t =>
    intro hc
    have hc' : TsConstrained r := by
      unfold TsConstrained at hc ⊢
      rcases h.limits with ⟨e1, e2, e3, e4⟩ | ⟨e1, e2, e3, e4, e6, e7, e8⟩ <;> rcases h.const with e5 | e5 <;>
        rcases h.present with ⟨p1, p2, p3 | ⟨p3, p4⟩⟩ | ⟨p1, p2, p3⟩ <;>
        simp_all <;> grind
    obtain ⟨h1, h2, h3, h4⟩ := ha hc'
    refine ⟨h1, kept h.const h2, ?_, ?_⟩
    · rcases h.limits with ⟨e1, e2, e3, e4⟩ | ⟨e1, e2, e3, e4, -⟩
      · unfold tsUpper tsLower at h3 ⊢
        rw [e1, e2, e3, e4]
        exact h3
      · unfold tsUpper tsLower
        rw [e1, e2, e3, e4]
        trivial
    · intro hu hl
      rcases h.limits with ⟨e1, e2, e3, e4⟩ | ⟨e1, e2, e3, e4, p1, p2, p3⟩
      · have h4 := h4 (by unfold tsUpper at hu ⊢; rwa [e1, e2] at hu) (by unfold tsLower at hl ⊢; rwa [e3, e4] at hl)
        unfold NowOk at h4 ⊢
        rcases h.present with ⟨p1, p2, p3 | ⟨p3, p4⟩⟩ | ⟨p1, p2, p3⟩
        · rw [p1, p2, p3]; exact h4
        · rw [p1, p2, p3]
          cases hlt : r.ltNow <;> cases hgt : r.gtNow <;> cases hw : r.within <;> simp_all
        · rw [p1, p2, p3]; trivial
      · unfold NowOk
        rw [p1, p2, p3]
        trivial

theorem scalar {E : Env} {e : ElemT} {t t' : TypeRules} {s : Scalar} (h : Typ t t') (ha : ScalarOk E e t s) :
    ScalarOk E e t' s := by
  cases h with
  | num h => cases s <;> first | trivial | exact num h ha
  | bool h => cases s <;> first | trivial | exact kept h ha
  | string h => cases s <;> first | trivial | exact string h ha
  | bytes h => cases s <;> first | trivial | exact bytes h ha
  | enum h =>
    cases s <;> first | trivial | (cases e <;> first | trivial | exact enum h ha)
  | _ => cases s <;> trivial

variable {E : Env} {S S' : Schema} {ok ok' : Val → Prop}

theorem typ_wrapper {t t' : TypeRules} (h : Typ t t') : WrapperKind t' ↔ WrapperKind t := by
  cases h <;> simp [WrapperKind]

/-- Rules of the kinds that are not about well-known messages other than wrappers. -/
def PlainOk (E : Env) (e : ElemT) (t : TypeRules) (m : Option MessageRules) (v : Val) : Prop :=
  (e.isEmbed = true ∧ WrapperKind t →
    match v with
    | .wrapper s => ScalarOk E e t s
    | .null => msgRequired m = false
    | _ => True) ∧
  (¬ (e.isEmbed = true ∧ WrapperKind t) →
    match v with
    | .sc s => ScalarOk E e t s
    | _ => True)

theorem plainOk {e : ElemT} {t t' : TypeRules} {m m' : Option MessageRules} {v : Val} (ht : Typ t t') (hm : Msg m m') :
    PlainOk E e t m v → PlainOk E e t' m' v := by
  rintro ⟨h1, h2⟩
  unfold PlainOk
  rw [typ_wrapper ht]
  refine ⟨fun hh => ?_, fun hh => ?_⟩
  · have := h1 hh
    cases v with
    | wrapper s => exact scalar ht this
    | null =>
      dsimp only at this ⊢
      cases hr : msgRequired m' with
      | false => rfl
      | true => exact absurd (hm.required hr) (by rw [this]; decide)
    | _ => trivial
  · have := h2 hh
    cases v with
    | sc s => exact scalar ht this
    | _ => trivial

theorem value {e : ElemT} {r r' : FieldRules} {v : Val} (h : Elem e r r')
    (hc : e.isEmbed = true → v ≠ .null → EmbeddedOk E S ok v → EmbeddedOk E S' ok' v)
    (ha : ValueOk E S ok e r v) : ValueOk E S' ok' e r' v := by
  cases h with
  | dropped h1 h2 =>
    unfold ValueOk
    rw [h2]
    intro he
    rw [h1] at he
    cases he
  | rules ht hm =>
    unfold ValueOk at ha ⊢
    generalize r.type = t, r.message = m at ht hm ha
    generalize r'.type = t', r'.message = m' at ht hm ⊢
    cases ht with
    | unset =>
      intro he
      refine ⟨fun hr => (ha he).1 (hm.required hr), fun hs => ?_⟩
      by_cases hn : v = .null
      · subst hn; trivial
      · refine hc he hn ((ha he).2 ?_)
        cases hs' : msgSkip m with
        | false => rfl
        | true => rw [hm.skip hs'] at hs; cases hs
    | any h => cases v <;> first | trivial | exact any h ha
    | duration h => cases v <;> first | trivial | exact duration h ha
    | timestamp h => cases v <;> first | trivial | exact timestamp h ha
    | num h => exact plainOk (.num h) hm ha
    | bool h => exact plainOk (.bool h) hm ha
    | string h => exact plainOk (.string h) hm ha
    | bytes h => exact plainOk (.bytes h) hm ha
    | enum h => exact plainOk (.enum h) hm ha

theorem key {e : ElemT} {r r' : FieldRules} {s : Scalar} (h : Elem e r r') (ha : ScalarOk E e r.type s) :
    ScalarOk E e r'.type s := by
  cases h with
  | dropped h1 h2 => rw [h2]; cases s <;> trivial
  | rules ht hm => exact scalar ht ha

theorem count {a b a' b' : Option Nat} {n : Nat} (h1 : Lower a a') (h2 : Higher b b') (ha : CountOk a b n) :
    CountOk a' b' n := ⟨lower h1 ha.1, higher h2 ha.2⟩

/-- An item or a value satisfies no rules: it is acceptable if it is a message. -/
theorem plain {e : ElemT} {r : FieldRules} {v : Val} (h : Elem e r .absent)
    (hc : e.isEmbed = true → v ≠ .null → EmbeddedOk E S ok v → EmbeddedOk E S' ok' v)
    (ha : ValueOk E S ok e r v) (he : e.isEmbed = true) : EmbeddedOk E S' ok' v :=
  (value h hc ha he).2 rfl

theorem field {f f' : FieldDesc} {v : Val} (ht : f.typ = f'.typ) (hr : Field f.typ f.rules f'.rules)
    (hc : ∀ w, Called f'.typ w v → EmbeddedOk E S ok w → EmbeddedOk E S' ok' w) (ha : FieldOk E S ok f v) :
    FieldOk E S' ok' f' v := by
  obtain ⟨name, ft, rules⟩ := f
  obtain ⟨name', ft', rules'⟩ := f'
  dsimp only at ht hr hc
  subst ht
  cases hr with
  | same => exact Evolution.Go.field (f := ⟨name', ft, rules⟩) hc ha
  | one h => exact value h (fun he hn => hc v (.one he hn)) ha
  | list h1 h2 h3 h4 h5 =>
    cases v with
    | list vs =>
      rcases ha with ha | ⟨a1, a2, a3⟩
      · exact .inl ⟨h4 ha.1, ha.2⟩
      · exact .inr ⟨count h1 h2 a1, fun hu => a2 (h3 hu),
          fun v hv => value h5 (fun _ hn => hc v (.item hv hn)) (a3 v hv)⟩
    | _ => trivial
  | listDropped h1 h2 =>
    cases v with
    | list vs =>
      unfold FieldOk
      dsimp only
      rw [h2]
      intro v hv he
      rcases ha with ha | ⟨a1, a2, a3⟩
      · rw [ha.2] at hv; cases hv
      · exact plain h1 (fun _ hn => hc v (.item hv hn)) (a3 v hv) he
    | _ => trivial
  | map h1 h2 h3 h4 h5 h6 =>
    cases v with
    | map kvs =>
      rcases ha with ha | ⟨a1, a2⟩
      · exact .inl ⟨h4 ha.1, ha.2⟩
      · exact .inr ⟨count h1 h2 a1, fun kv hv => ⟨fun hs => (a2 kv hv).1 (h3 hs), key h5 (a2 kv hv).2.1,
          value h6 (fun _ hn => hc kv.2 (.entry hv hn)) (a2 kv hv).2.2⟩⟩
    | _ => trivial
  | mapDropped h1 h2 =>
    cases v with
    | map kvs =>
      unfold FieldOk
      dsimp only
      rw [h2]
      intro kv hv he
      rcases ha with ha | ⟨a1, a2⟩
      · rw [ha.2] at hv; cases hv
      · exact plain h1 (fun _ hn => hc kv.2 (.entry hv hn)) (a2 kv hv).2.2 he
    | _ => trivial

theorem part {v w : Val} (h : Schemas S S' v) (hp : Part w v) : Schemas S S' w :=
  fun typ fs os hw => h typ fs os (Local.part_trans hw hp)

theorem valid {S S' : Schema} : ∀ n v, depth v ≤ n → Schemas S S' v → PGV.Go.validate E S false v = none →
    PGV.Go.validate E S' false v = none := by
  intro n
  induction n with
  | zero => intro v hv; have := PGV.Go.depth_pos v; omega
  | succ n ih =>
    intro v hv hS ha
    rw [validate_spec] at ha ⊢
    cases v with
    | msg typ fs os =>
      unfold MessageOk at ha ⊢
      dsimp only at ha ⊢
      rcases hS typ fs os .self with ⟨d, d', h1, h2, h3⟩ | ⟨h1, h2⟩
      · rw [h1] at ha
        rw [h2]
        intro hd
        obtain ⟨hf, ho⟩ := ha (by
          cases hdis : d.disabled with
          | false => rfl
          | true => rw [h3.disabled hdis] at hd; cases hd)
        have emb : ∀ f' u, Active d' fs os f' u → ∀ w, Called f'.typ w u →
            EmbeddedOk E S (fun w => PGV.Go.validate E S false w = none) w →
            EmbeddedOk E S' (fun w => PGV.Go.validate E S' false w = none) w := by
          intro f' u hact w hw hok
          obtain ⟨hp, hlt⟩ := Evolution.called_part (typ := typ) hact hw
          have hw' := part hS hp
          cases w with
          | msg t fs' os' =>
            unfold EmbeddedOk at hok ⊢
            dsimp only at hok ⊢
            rcases hw' t fs' os' .self with ⟨e, e', g1, g2, g3⟩ | ⟨g1, g2⟩
            · rw [g1] at hok
              rw [g2]
              refine fun hi => ih _ (by omega) hw' (hok ?_)
              cases hdis : e.ignored with
              | false => rfl
              | true => rw [g3.ignored hdis] at hi; cases hi
            · rw [← g1]
              revert hok
              cases hg : S t with
              | generated d => exact (g2 d hg).elim
              | _ => exact id
          | _ => exact hok
        refine ⟨fun f' hf' => ?_, fun o' ho' => ?_⟩
        · obtain ⟨f, hm, hn, ht, hr⟩ := h3.fields f' hf'
          have hu : getField fs f = getField fs f' := by unfold getField; rw [hn, ht]
          have := hf f hm
          rw [hu] at this
          exact field ht hr (emb f' _ (.field hf')) this
        · obtain ⟨o, hm, hn, hreq, hnd, hfs⟩ := h3.oneofs o' ho'
          have h1 := ho o hm
          rw [hn] at h1
          cases hl : os.lookup o'.name with
          | none =>
            rw [hl] at h1
            have h1 : o.required = false := h1
            show o'.required = false
            cases hr : o'.required with
            | false => rfl
            | true => rw [hreq hr] at h1; cases h1
          | some mu =>
            obtain ⟨m, u⟩ := mu
            rw [hl] at h1
            intro f' hfind
            obtain ⟨f, hfm, hfn, ht, hr⟩ := hfs f' (List.mem_of_find?_eq_some hfind)
            have hname : f'.name = m := by simpa using List.find?_some hfind
            have := h1 f (by rw [← hname, ← hfn]; exact Py.find_of_nodup hnd hfm)
            exact field ht hr (emb f' u (.member ho' hl hfind)) this
      · rw [← h1]
        cases hg : S typ with
        | generated d => exact (h2 d hg).elim
        | _ => trivial
    | _ => trivial

end PGV.Looser
