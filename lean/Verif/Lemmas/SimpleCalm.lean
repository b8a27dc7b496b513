import Verif.Lemmas.SimpleMsg

/-!
The Python text of simple rules raises nothing but `ValidationFailed` on well-typed messages.
-/

set_option linter.unusedSimpArgs false

namespace PGV.Simple
open PGV PGV.Spec PGV.Spec.Simple PGV.Py PGV.Py.Code
open PGV.Go (depth allFields)

/-- The code returns or raises `ValidationFailed`. -/
def Calm {α : Type} (c : Code α) (x : α) : Prop := c.run x ≠ .error .crash

namespace Calm
variable {α β : Type} {nm : String} {x : α}

protected theorem nothing : Calm (nothing : Code α) x := by simp [Calm]

protected theorem stmt {s : α → Run} (h : s x ≠ .error .crash) : Calm (stmt s) x := by simpa [Calm] using h

protected theorem raiseIf {why : Text} {t : α → Bool} : Calm (raiseIf nm why t) x := by
  refine Calm.stmt ?_
  split <;> simp

theorem runAll_append {l m : List (α → Run)} (hl : runAll l x ≠ .error .crash) (hm : runAll m x ≠ .error .crash) :
    runAll (l ++ m) x ≠ .error .crash := by
  induction l with
  | nil => exact hm
  | cons s l ih =>
    simp only [List.cons_append, runAll] at hl ⊢
    cases h : s x with
    | ok u => rw [h] at hl; exact ih hl
    | error e => rw [h] at hl; exact hl

protected theorem seq {a b : Code α} (ha : Calm a x) (hb : Calm b x) : Calm (a ;; b) x := by
  cases a with
  | none => exact absurd rfl ha
  | some l =>
    cases b with
    | none => exact absurd rfl hb
    | some m => exact runAll_append ha hb

protected theorem gen {g : Bool} {c : Code α} (h : g = true → Calm c x) : Calm (gen g c) x := by
  cases g
  · exact Calm.nothing
  · exact h rfl

protected theorem genOpt {γ : Type} {o : Option γ} {k : γ → Code α} (h : ∀ a, o = some a → Calm (k a) x) :
    Calm (genOpt o k) x := by
  cases o
  · exact Calm.nothing
  · exact h _ rfl

protected theorem genPos {o : Option Nat} {k : Nat → Code α} (h : ∀ n, Calm (k n) x) : Calm (genPos o k) x :=
  Calm.gen fun _ => h _

protected theorem on {g : β → α} {c : Code α} {y : β} (h : Calm c (g y)) : Calm (on g c) y := by
  unfold Calm
  rw [run_on]
  exact h

protected theorem loop {c : Code α} {xs : List α} (hs : c.isSome = true) (h : ∀ x ∈ xs, Calm c x) : Calm (loop c) xs := by
  cases c with
  | none => cases hs
  | some l =>
    refine Calm.stmt ?_
    induction xs with
    | nil => simp [forEach]
    | cons y ys ih =>
      simp only [forEach]
      have hy := h y List.mem_cons_self
      cases hr : runAll l y with
      | ok u => exact ih fun z hz => h z (List.mem_cons_of_mem _ hz)
      | error e =>
        have : runAll l y ≠ .error .crash := hy
        rwa [hr] at this

protected theorem block {t : α → Bool} {c : Code α} (hs : (block t c).isSome = true) (h : t x = true → Calm c x) :
    Calm (block t c) x := by
  cases c with
  | none => simp [block] at hs
  | some l =>
    cases l with
    | nil => simp [block] at hs
    | cons s l =>
      have e : (block t (some (s :: l))).run x = if t x then runAll (s :: l) x else .ok () := run_stmt _ x
      unfold Calm
      rw [e]
      split
      · exact h ‹_›
      · simp

protected theorem onScalar {γ : Type} {get : Scalar → Option γ} {c : Code γ} {s : Scalar} {a : γ} (hs : get s = some a)
    (h : Calm c a) : Calm (onScalar get c) (.sc s) := by
  unfold Calm
  rw [run_onScalar hs]
  exact h

protected theorem seqAll {l : List β} {k : β → Code α} (h : ∀ a ∈ l, Calm (k a) x) : Calm (seqAll l k) x := by
  induction l with
  | nil => exact Calm.nothing
  | cons a l ih => exact Calm.seq (h a List.mem_cons_self) (ih fun b hb => h b (List.mem_cons_of_mem _ hb))

end Calm

section
variable {P : Py.PEnv} {nm : String}

theorem calm_numTest {l : List Num} {why : Text} {t : Num → Bool} {x : Num} (h : ∀ b ∈ l, finite b = true) :
    Calm (numTest nm l why t) x := by
  refine Calm.stmt ?_
  rw [if_pos (List.all_eq_true.2 h)]
  split <;> simp

theorem calm_num {k : NumKind} {r : NumRules} (h : SimpleNum k r) (x : Num) : Calm (numCode nm r) x := by
  have fin : ∀ b ∈ numbersOf r, finite b = true := by
    intro b hb
    obtain ⟨i, rfl, _⟩ := h.numbers b hb
    rfl
  have hr : Calm (numRange nm r) x := by
    unfold numRange
    dsimp only
    repeat' split
    all_goals first
      | exact Calm.nothing
      | (refine calm_numTest fun b hb => fin b (mem_numbers.2 ?_)
         simp only [List.mem_cons, List.not_mem_nil, or_false] at hb
         grind)
  unfold numCode numIn
  simp only [h.no_ignore, Option.isSome_none, Bool.false_eq_true, if_false]
  refine Calm.seq (Calm.genOpt fun c hc => calm_numTest fun b hb => fin b (mem_numbers.2 ?_))
    (Calm.seq (Calm.seq (Calm.gen fun _ => calm_numTest fun b hb => fin b (mem_numbers.2 ?_))
      (Calm.gen fun _ => calm_numTest fun b hb => fin b (mem_numbers.2 ?_))) hr)
  · cases List.mem_singleton.1 hb; exact .inl (.inl hc)
  · exact .inr (.inl hb)
  · exact .inr (.inr hb)

theorem calm_bool (r : BoolRules) (x : Bool) : Calm (boolCode nm r) x := Calm.gen fun _ => Calm.raiseIf

theorem calm_in {α : Type} [BEq α] {sh : α → PItem} {p : Bool} (hp : p = true) {ins notIns : List α} {x : α} :
    Calm (inCode nm sh p ins notIns) x := by
  subst hp
  exact Calm.seq (Calm.gen fun _ => Calm.raiseIf) (Calm.gen fun _ => Calm.raiseIf)

theorem calm_enum (l : List Int) (r : EnumRules) (x : Int) : Calm (enumCode nm l r) x :=
  Calm.seq (Calm.gen fun _ => Calm.raiseIf) (Calm.seq (calm_in rfl) (Calm.gen fun _ => Calm.raiseIf))

theorem calm_genText {o : Option Bytes} {k : PStr → Code PStr} {x : PStr} (hk : ∀ l, Calm (k l) x)
    (h : ∀ s, o = some s → Word s) : Calm (genText P o k) x := by
  unfold genText
  cases o with
  | none => exact Calm.nothing
  | some s =>
    have hl : literal P (optS (some s)) = some (pstr s) := literal_safe P (word_python (h s rfl))
    rw [hl]
    exact Calm.gen fun _ => hk _

theorem calm_str {r : StringRules} (h : SimpleString r) (x : PStr) : Calm (strCode P nm r) x := by
  have hl : listOk P (r.ins ++ r.notIns) = true := by
    unfold listOk
    rw [List.all_eq_true]
    intro s hs
    rw [plain_of_safe (word_python (h.words s (by
      rcases List.mem_append.1 hs with hs | hs <;> simp [hs])))]
    rfl
  have hp : Calm (strPattern P nm r) x := by
    have hr : r.getRegex = .unknown := by
      unfold StringRules.getRegex
      rw [h.no_format]
    unfold strPattern
    rw [hr]
    simp only [knownRegex, h.no_pattern, optS]
    exact Calm.gen fun h => by cases h
  have ha : Calm (strAffix P nm r) x := by
    unfold strAffix
    refine Calm.seq ?_ (Calm.seq ?_ (Calm.seq ?_ ?_)) <;>
      refine calm_genText (fun _ => Calm.raiseIf) fun s hs => h.words s ?_ <;> simp [hs]
  have hf : Calm (strFormat P nm r) x := by
    have hno : r.getEmail = false ∧ r.getUri = false ∧ r.getUriRef = false := by
      unfold StringRules.getEmail StringRules.getUri StringRules.getUriRef
      rw [h.no_format]
      exact ⟨rfl, rfl, rfl⟩
    unfold strFormat
    exact Calm.seq (Calm.gen fun h => by rw [hno.1] at h; cases h) (Calm.seq (Calm.gen fun _ => Calm.raiseIf)
      (Calm.seq (Calm.gen fun _ => Calm.raiseIf) (Calm.seq (Calm.gen fun _ => Calm.raiseIf)
      (Calm.seq (Calm.gen fun _ => Calm.raiseIf) (Calm.seq (Calm.gen fun _ => Calm.raiseIf)
      (Calm.seq (Calm.gen fun h => by rw [hno.2.1] at h; cases h) (Calm.seq (Calm.gen fun h => by rw [hno.2.2] at h; cases h)
      (Calm.gen fun _ => Calm.raiseIf))))))))
  have hn : Calm (strLen nm r) x := by
    unfold strLen
    refine Calm.seq ?_ (Calm.seq ?_ (Calm.seq ?_ (Calm.seq ?_ (Calm.seq ?_ ?_)))) <;>
      exact Calm.genPos fun _ => Calm.raiseIf
  unfold strCode
  simp only [h.no_ignore, optB, Option.getD_none, Bool.false_eq_true, if_false]
  refine Calm.seq (Calm.genOpt fun c hc => ?_) (Calm.seq (calm_in hl) (Calm.seq hn (Calm.seq hp (Calm.seq ha hf))))
  rw [literal_safe P (word_python (h.words c (.inl hc)))]
  exact Calm.raiseIf

theorem calm_switcher (rec : Val → Run) {e : ElemT} {rules : FieldRules} (h : SimpleElem P e rules) {v : Val}
    (hv : HasType e v) : Calm (switcher P rec nm e rules) v := by
  cases h with
  | free => exact Calm.nothing
  | ruled h =>
    have ht := simple_text h
    unfold switcher
    simp only [ht, if_true]
    cases h with
    | num h => cases hv with | num => exact Calm.onScalar rfl (calm_num h _)
    | bool => cases hv with | bool => exact Calm.onScalar rfl (calm_bool _ _)
    | string h =>
      cases hv with
      | string =>
        refine Calm.onScalar rfl ?_
        simp only [Py.inline, h.no_ignore, optB, Option.getD_none, Bool.false_eq_true, if_false]
        exact calm_str h _
    | enum => cases hv with | enum => exact Calm.onScalar rfl (calm_enum _ _ _)

theorem calm_key {e : ElemT} {rules : FieldRules} (h : SimpleElem P e rules) {k : Scalar} (hv : HasType e (.sc k)) :
    Calm (keyCode P rules) (.sc k) := by
  cases h with
  | free => exact Calm.nothing
  | ruled h =>
    unfold keyCode
    cases h with
    | num h =>
      cases hv with
      | num =>
        simp only [FieldRules.type]
        split
        · exact Calm.nothing
        · rename_i h2
          cases h2
          exact Calm.gen fun _ => Calm.onScalar rfl (calm_num h _)
        · rename_i h2; cases h2
        · rename_i h2; cases h2
        · exact Calm.nothing
    | bool => cases hv with | bool => exact Calm.gen fun _ => Calm.onScalar rfl (calm_bool _ _)
    | string h =>
      cases hv with
      | string =>
        simp only [FieldRules.type]
        refine Calm.gen fun _ => Calm.onScalar rfl ?_
        simp only [Py.inline, h.no_ignore, optB, Option.getD_none, Bool.false_eq_true, if_false]
        exact calm_str h _
    | enum => exact Calm.nothing

theorem calm_unique {vs : List Val} (h : ∀ v ∈ vs, hashable v = true) (seen : List Val) :
    uniqueLoop nm seen vs ≠ .error .crash := by
  induction vs generalizing seen with
  | nil => simp [uniqueLoop]
  | cons v vs ih =>
    unfold uniqueLoop
    rw [h v List.mem_cons_self]
    simp only [Bool.not_true, Bool.false_eq_true, if_false]
    split
    · simp
    · exact ih (fun w hw => h w (List.mem_cons_of_mem _ hw)) _

theorem calm_repeated (rec : Val → Run) {e : ElemT} {r : RepeatedRules} {items : FieldRules} (h : SimpleElem P e items)
    (hi : r.ignoreEmpty = none) (hu : r.unique = some true → Comparable e) {vs : List Val} (hv : ∀ v ∈ vs, HasType e v)
    (hr : e.isEmbed = true → ∀ v ∈ vs, rec v ≠ .error .crash) : Calm (repeatedCode P rec nm e r items) vs := by
  unfold repeatedCode ignoreBlock
  simp only [hi, optB, Option.getD_none, Bool.false_eq_true, if_false]
  refine Calm.seq (Calm.genPos fun _ => Calm.raiseIf) (Calm.seq (Calm.genPos fun _ => Calm.raiseIf)
    (Calm.seq (Calm.gen fun h => Calm.stmt (calm_unique (fun v hm => ?_) _)) (Calm.seq (Calm.gen fun he => ?_)
      (Calm.gen fun _ => ?_))))
  · have hc := hu (by cases h2 : r.unique <;> simp_all)
    have ht := hv v hm
    cases hc <;> cases ht <;> rfl
  · refine Calm.loop (by simp; intro; rfl) fun v hm => Calm.gen fun _ => Calm.stmt (hr he v hm)
  · exact Calm.loop (some_switcher rec h) fun v hm => calm_switcher rec h (hv v hm)

theorem calm_map (rec : Val → Run) {kt vt : ElemT} {r : MapRules} {keys values : FieldRules}
    (hk : SimpleElem P kt keys) (hv : SimpleElem P vt values) (hi : r.ignoreEmpty = none) {kvs : List (Scalar × Val)}
    (ht : ∀ kv ∈ kvs, HasType kt (.sc kv.1) ∧ HasType vt kv.2) (hr : vt.isEmbed = true → ∀ kv ∈ kvs, rec kv.2 ≠ .error .crash) :
    Calm (mapCode P rec nm vt r keys values) kvs := by
  have mem : ∀ kv, kv ∈ P.order kvs → kv ∈ kvs := fun kv h => (P.order_perm kvs).mem_iff.1 h
  unfold mapCode ignoreBlock
  simp only [hi, optB, Option.getD_none, Bool.false_eq_true, if_false]
  refine Calm.seq (Calm.genPos fun _ => Calm.raiseIf) (Calm.seq (Calm.genPos fun _ => Calm.raiseIf) ?_)
  split
  · refine Calm.on (Calm.loop (by simp [some_keyCode hk, some_switcher rec hv]) fun kv hm => ?_)
    exact Calm.seq (Calm.on (calm_key hk (ht kv (mem kv hm)).1)) (Calm.on (calm_switcher rec hv (ht kv (mem kv hm)).2))
  · exact Calm.gen fun he => Calm.on (Calm.loop rfl fun kv hm => Calm.on (Calm.stmt (hr he kv (mem kv hm))))

theorem calm_field (rec : Val → Run) (b : Bool) {f : FieldDesc} (h : SimpleField P f.typ f.rules) {v : Val}
    (hv : HasFieldType f.typ v) (hr : ∀ w, Called f.typ w v → rec w ≠ .error .crash) :
    Calm (fieldCode P rec b f) v := by
  obtain ⟨name, typ, rules⟩ := f
  dsimp only at h hv hr
  cases h with
  | @one e rules he =>
    cases hv with
    | one hv =>
      cases he with
      | free ho =>
        cases e with
        | embed n w =>
          simp only [fieldCode, messageField, messageCode, requiredCode]
          split
          · exact Calm.nothing
          · split
            · exact Calm.nothing
            · refine Calm.seq (Calm.gen fun h => by cases h) ?_
              simp only [msgSkip, Bool.false_eq_true, if_false]
              refine Calm.stmt ?_
              split
              · rename_i hg
                exact hr v (.one (by rintro rfl; cases hg))
              · simp
        | _ => exact Calm.nothing
      | @ruled t h' =>
        have ht := simple_text h'
        have hp : (fieldCode P rec b ⟨name, .one e, .mk none t⟩) = scalarField P b ⟨name, .one e, .mk none t⟩ e false := by
          cases h' <;> rfl
        rw [hp]
        unfold scalarField
        simp only [ht, messageText, Bool.not_false, Bool.and_true, Bool.true_or, if_true]
        cases h' with
        | num g => cases hv with | num => exact Calm.onScalar rfl (calm_num g _)
        | bool => cases hv with | bool => exact Calm.onScalar rfl (calm_bool _ _)
        | string g =>
          cases hv with
          | string =>
            refine Calm.onScalar rfl ?_
            cases b
            · exact calm_str g _
            · simp only [oneofText, Py.inline, g.no_ignore, optB, Option.getD_none, Bool.false_eq_true, if_false, if_true]
              exact calm_str g _
        | enum => cases hv with | enum => exact Calm.onScalar rfl (calm_enum _ _ _)
  | required ho =>
    cases hv with
    | one hv =>
      simp only [fieldCode, unruled, Bool.false_and, Bool.false_eq_true, if_false, messageField, typeText,
        messageField.messageOr]
      rw [if_pos (by rfl)]
      refine Calm.seq (Calm.gen fun _ => Calm.raiseIf) ?_
      simp only [msgSkip, optB, Option.getD_none, Bool.false_eq_true, if_false]
      refine Calm.stmt ?_
      split
      · rename_i hg
        exact hr v (.one (by rintro rfl; cases hg))
      · simp
  | @list e ho hl =>
    cases hv with
    | list hv =>
      cases e with
      | embed n w =>
        have hw : w = none := ho.1
        subst hw
        have hm : isMap P n = false := by
          unfold isMap
          split
          · rename_i k v heq
            have := hl n none rfl
            by_cases hk : k.1 = "key" ∧ v.1 = "value"
            · exact absurd ⟨k.2, v.2, by rw [heq, ← hk.1, ← hk.2]⟩ this
            · simp only [Bool.and_eq_false_iff, beq_eq_false_iff_ne]
              grind
          · rfl
        simp only [fieldCode, hm, Bool.and_false, Bool.false_eq_true, if_false]
        split
        · exact Calm.nothing
        · unfold messageList
          simp only [Option.isSome_none, Bool.false_eq_true, if_false]
          exact Calm.on (calm_repeated rec (.free ho) rfl (by simp) hv fun _ v hm => hr v (.item hm))
      | _ => exact Calm.nothing
  | @listRules e r items he hne hm hi hu =>
    cases hv with
    | list hv =>
      have ht : typeText (.repeated r items) = true := by
        simp only [typeText, Bool.or_eq_true, bne_iff_ne, ne_eq]
        rcases hne with h | h
        · exact .inl h
        · cases items with
          | absent => exact absurd rfl h
          | mk => exact .inr rfl
      cases e with
      | embed n w =>
        simp only [fieldCode, unruled, Bool.false_and, Bool.false_eq_true, if_false]
        unfold messageList
        simp only [messageText, Bool.false_eq_true, if_false, ht, if_true]
        exact Calm.on (calm_repeated rec he hi hu hv fun _ v hm => hr v (.item hm))
      | _ =>
        simp only [fieldCode]
        unfold scalarField
        simp only [ht, messageText, Bool.not_false, Bool.and_true, Bool.true_or, if_true]
        exact Calm.on (calm_repeated _ he hi hu hv fun he => by cases he)
  | @map kt vt ho =>
    cases hv with
    | map hv =>
      simp only [fieldCode]
      unfold mapField
      refine Calm.on ?_
      unfold mapCode ignoreBlock
      simp only [optB, Option.getD_none, Bool.false_eq_true, if_false]
      refine Calm.seq (Calm.genPos fun _ => Calm.raiseIf) (Calm.seq (Calm.genPos fun _ => Calm.raiseIf) ?_)
      exact Calm.gen fun he => Calm.on (Calm.loop rfl fun kv hm =>
        Calm.on (Calm.stmt (hr _ (.entry ((P.order_perm _).mem_iff.1 hm)))))
  | @mapRules kt vt r keys values hk hke hne hw hr' hm hn hi he =>
    cases hv with
    | map hv =>
      have ht : typeText (.map r keys values) = true := by
        simp only [typeText, Bool.or_eq_true, bne_iff_ne, ne_eq]
        rcases hr' with h | h | h
        · exact .inl (.inl h)
        · cases keys with
          | absent => exact absurd rfl h
          | mk => exact .inl (.inr rfl)
        · cases values with
          | absent => exact absurd rfl h
          | mk => exact .inr rfl
      simp only [fieldCode]
      unfold mapField
      simp only [messageText, Bool.false_eq_true, if_false, ht, if_true]
      exact Calm.on (calm_map rec hk hw hi hv fun _ kv hm => hr _ (.entry hm))

theorem calm_members (rec : Val → Run) (o : OneofDesc) {c : Content} : ∀ fs : List FieldDesc,
    (∀ f ∈ fs, (fieldCode P rec true f).isSome = true) →
    (∀ f ∈ fs, ∀ u, c.2.lookup o.name = some (f.name, u) → Calm (fieldCode P rec true f) u) →
    Calm (memberCode P rec o fs) c
  | [], _, _ => Calm.nothing
  | f :: fs, hs, h => by
    unfold memberCode
    refine Calm.seq (Calm.block (some_block_stmt _ _ _ ?_) fun ht => Calm.seq (Calm.stmt (by simp)) (Calm.on ?_))
      (calm_members rec o fs (fun g hg => hs g (List.mem_cons_of_mem _ hg)) fun g hg => h g (List.mem_cons_of_mem _ hg))
    · rw [some_on]
      exact hs f List.mem_cons_self
    · cases hl : c.2.lookup o.name with
      | none => rw [hl] at ht; cases ht
      | some mv =>
        obtain ⟨m, u⟩ := mv
        rw [hl] at ht
        have : m = f.name := by simpa using ht
        subst this
        exact h f List.mem_cons_self u hl

theorem calm_validate {S : Schema} (hO : ∀ w, Spec.Outside S w → P.other w ≠ .error .crash) :
    ∀ n v, depth v ≤ n → Simple P S v → WellTyped S v → Py.validate P S v ≠ .error .crash := by
  intro n
  induction n with
  | zero => intro v hv; have := Go.depth_pos v; omega
  | succ n ih =>
    intro v hv hs ht
    rw [validate_eq]
    cases v with
    | msg typ fs os =>
      unfold validateStep
      dsimp only
      cases hg : S typ with
      | generated d =>
        dsimp only
        have h0 := hs typ fs os d .self hg
        obtain ⟨h1, h2⟩ := ht typ fs os d .self hg
        have body : Calm (Py.seqAll d.oneofs (oneofCode P (Py.validate P S)) ;;
            Py.seqAll d.fields (fun f => Code.on (fun c => getField c.1 f) (fieldCode P (Py.validate P S) false f))) (fs, os) := by
          have key : ∀ (f : FieldDesc) u, ((Part u (.msg typ fs os) ∧ depth u ≤ n) ∨ u = f.typ.zero) → ∀ w, Called f.typ w u →
              Py.validate P S w ≠ .error .crash := by
            intro f u hu w hw
            rcases hu with ⟨hu, hd⟩ | rfl
            · have hp : Part w (.msg typ fs os) := Local.part_trans (Local.Py.called_part hw) hu
              exact ih w (by have := hw.depth_le; omega) (fun t fs os d hp' => hs t fs os d (Local.part_trans hp' hp))
                fun t fs os d hp' => ht t fs os d (Local.part_trans hp' hp)
            · exact hw.zero.elim
          refine Calm.seq (Calm.seqAll fun o ho => ?_) (Calm.seqAll fun f hf => Calm.on ?_)
          · unfold oneofCode
            refine Calm.seq (calm_members _ o _ (fun f hf => ?_) fun f hf u hl => ?_) (Calm.gen fun _ => Calm.raiseIf)
            · exact some_fieldCode _ _ (h0 f (List.mem_append_right _ (List.mem_flatMap.2 ⟨o, ho, hf⟩)))
            · have hl : os.lookup o.name = some (f.name, u) := hl
              have hd := PGV.Go.depthOneofs_lookup hl
              simp only [depth] at hv
              obtain ⟨g, hg, hn, hu⟩ := (h2 o ho).2 _ u hl
              have hfg : g = f := by
                have e1 := Py.find_of_nodup (h2 o ho).1 hf
                have e2 := Py.find_of_nodup (h2 o ho).1 hg
                rw [hn, e1] at e2
                exact (Option.some.inj e2).symm
              subst hfg
              exact calm_field _ _ (h0 g (List.mem_append_right _ (List.mem_flatMap.2 ⟨o, ho, hf⟩))) hu
                (key g u (.inl ⟨.member (Local.mem_of_lookup' hl) .self, by omega⟩))
          · refine calm_field _ _ (h0 f (List.mem_append_left _ hf)) (h1 f hf) (key f _ ?_)
            unfold getField
            cases hl : fs.lookup f.name with
            | none => exact .inr rfl
            | some u =>
              have hd := PGV.Go.depthFields_lookup hl
              simp only [depth] at hv
              exact .inl ⟨.field (Local.mem_of_lookup' hl) .self, by simp only [Option.getD_some]; omega⟩
        unfold Py.msgCode
        dsimp only
        split
        · revert body
          generalize (Py.seqAll d.oneofs (oneofCode P (Py.validate P S)) ;;
            Py.seqAll d.fields (fun f => Code.on (fun c : Content => getField c.1 f) (fieldCode P (Py.validate P S) false f))) = c
          intro body
          cases c with
          | none => exact absurd rfl body
          | some l => simp [Code.run, runAll]
        · exact body
      | _ =>
        refine hO _ fun t fs' os' d' e hd => ?_
        cases e
        rw [hg] at hd
        cases hd
    | _ => exact hO _ fun t fs' os' d' e hd => by cases e

end

end PGV.Simple
