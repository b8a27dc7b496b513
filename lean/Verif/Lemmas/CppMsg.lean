import Verif.Lemmas.CppTpl
import Verif.Lemmas.JavaMsg

/-!
Generated C++ code for elements, lists, maps, fields and messages.
-/

set_option linter.unusedSimpArgs false
set_option autoImplicit false

namespace PGV.Cpp
open PGV PGV.Spec.Cpp
open PGV.Go (Ctx Env resolve elemTypNotNone depth Idx)
open PGV.Spec (ScalarOk EmbeddedOk ValueOk WrapperKind CountOk SameItem RepeatedOk MapOk FieldOk OneofOk
  MessageOk Part OnlyField numSame)
open PGV.Java (pairwise_congr mem_of_lookup Called numSame_symm)

theorem bool_decides (c : Ctx) (r : BoolRules) (b : Bool) :
    Decides (boolTpl c r b) (∀ k, r.const = some k → b = k) :=
  Decides.withOpt fun k _ => Decides.check (by cases b <;> cases k <;> simp)

theorem scalar_decides {E : Env} {P : CEnv} {S : Schema} (hL : LibsAgree E P S) (c : Ctx) (e : ElemT)
    (t : TypeRules) (s : Scalar) (hp : PortType P t) (hf : FitsScalar E P t s) :
    Decides (scalarTpl P c e t s) (ScalarOk E e t s) := by
  have triv : Decides (.ok ()) True := Decides.ok
  cases t with
  | num k r =>
    cases s with
    | num n => exact num_decides hL c k r n hp hf.1 hf.2
    | _ => exact triv
  | bool r =>
    cases s with
    | bool b => exact bool_decides c r b
    | _ => exact triv
  | string r =>
    cases s with
    | str s => exact string_decides hL c r s hp hf
    | _ => exact triv
  | bytes r =>
    cases s with
    | bytes s => exact bytes_decides hL c r s hp hf
    | _ => exact triv
  | enum r =>
    cases s with
    | enum i =>
      cases e with
      | enum declared => exact enum_decides c declared r i
      | _ => exact triv
    | _ => exact triv
  | _ => cases s <;> exact triv

theorem isNull_iff (v : Val) : isNull v = true ↔ v = .null := by cases v <;> simp [isNull]

theorem message_decides {E : Env} {S : Schema} (rec : Val → Run) (ok : Val → Prop) (c : Ctx)
    (m : Option MessageRules) (v : Val) (hrec : v ≠ .null → Decides (rec v) (EmbeddedOk E S ok v)) :
    Decides (messageTpl rec c m v)
      ((msgRequired m = true → v ≠ .null) ∧ (msgSkip m = false → EmbeddedOk E S ok v)) := by
  unfold messageTpl
  refine Decides.seq (p := msgRequired m = true → v ≠ .null) ?_ fun _ => ?_
  · refine Decides.check ?_
    rw [← Bool.not_eq_true, Bool.and_eq_true, Bool.not_eq_true', ne_eq, ← isNull_iff]
    cases isNull v <;> simp
  · cases hs : msgSkip m with
    | true => exact Decides.ok.iff (by simp)
    | false =>
      simp only [Bool.false_eq_true, if_false, true_implies]
      by_cases hn : v = .null
      · subst hn
        exact Decides.ok.iff (by simp [EmbeddedOk])
      · have hn' : isNull v = false := by rw [← Bool.not_eq_true, isNull_iff]; exact hn
        rw [hn']
        obtain ⟨h1, h2⟩ := hrec hn
        simp only [Bool.false_eq_true, if_false]
        cases hr : rec v with
        | ok u => rw [hr] at h1; exact Decides.ok.iff (by rw [← h1]; simp)
        | error x =>
          rw [hr] at h1 h2
          cases x with
          | invalid e => exact (Decides.failIdx _ _ _ _).iff (by rw [← h1]; simp)
          | unimplemented w => exact absurd rfl (h2 w)

theorem wrapper_decides {E : Env} {P : CEnv} {S : Schema} (hL : LibsAgree E P S) (c : Ctx) (e : ElemT)
    (t : TypeRules) (m : Option MessageRules) (v : Val) (hp : PortType P t) (hf : FitsVal E P t v) :
    Decides (wrapperTpl P c e t m v)
      (match (generalizing := false) v with
       | .wrapper s => ScalarOk E e t s
       | .null => msgRequired m = false
       | _ => True) := by
  cases v with
  | wrapper s =>
    have : FitsScalar E P t s := by cases t <;> simpa [FitsVal] using hf
    exact scalar_decides hL _ e t s hp this
  | null => exact Decides.check Iff.rfl
  | _ => exact Decides.ok

theorem elem_decides {E : Env} {P : CEnv} {S : Schema} (hL : LibsAgree E P S)
    (rec : Val → Run) (ok : Val → Prop) (c : Ctx) (e : ElemT) (rules : FieldRules) (v : Val)
    (hrec : v ≠ .null → e.isEmbed = true → Decides (rec v) (EmbeddedOk E S ok v))
    (hp : PortType P rules.type) (hf : FitsVal E P rules.type v) :
    Decides (elemTpl P rec c e rules v) (ValueOk E S ok e rules v) := by
  have plain : ∀ t, PortType P t → FitsVal E P t v →
      (∀ r, t ≠ .any r) → (∀ r, t ≠ .duration r) → (∀ r, t ≠ .timestamp r) →
      Decides (match (generalizing := false) t, v with
        | .any r, .any url _ => anyTpl P c r (some url)
        | .any r, .null => anyTpl P c r none
        | .duration r, .dur d => durationTpl c r (some d)
        | .duration r, .null => durationTpl c r none
        | .timestamp r, .ts t => timestampTpl c r (some t)
        | .timestamp r, .null => timestampTpl c r none
        | t, .sc s => scalarTpl P c e t s
        | _, _ => .ok ())
      (match (generalizing := false) v with
       | .sc s => ScalarOk E e t s
       | _ => True) := by
    intro t ht hf h1 h2 h3
    cases v with
    | sc s =>
      have hs : FitsScalar E P t s := by cases t <;> simpa [FitsVal] using hf
      have := scalar_decides hL c e t s ht hs
      cases t <;> first | exact this | exact absurd rfl (h1 _) | exact absurd rfl (h2 _) |
        exact absurd rfl (h3 _)
    | _ =>
      cases t <;> first | exact absurd rfl (h1 _) | exact absurd rfl (h2 _) |
        exact absurd rfl (h3 _) | exact Decides.ok
  have W := fun t ht hf => wrapper_decides hL c e t rules.message v ht hf
  unfold elemTpl resolve ValueOk
  cases ht : rules.type with
  | unset =>
    cases he : e.isEmbed with
    | true =>
      have := message_decides rec ok c rules.message v (fun h => hrec h he)
      exact this.iff (by simp)
    | false => exact Decides.ok.iff (by simp)
  | any r =>
    rw [ht] at hp hf
    cases v with
    | any url val => exact any_decides hL c r (some url) hp
    | null => exact any_decides hL c r none hp
    | sc s => cases s <;> exact Decides.ok
    | _ => exact Decides.ok
  | duration r =>
    rw [ht] at hp hf
    cases v with
    | dur d => exact duration_decides c r (some d) hp (by rintro _ ⟨⟩; exact hf)
    | null => exact duration_decides c r none hp (by simp)
    | sc s => cases s <;> exact Decides.ok
    | _ => exact Decides.ok
  | timestamp r =>
    rw [ht] at hp hf
    cases v with
    | ts d => exact timestamp_decides E.now c r (some d) hp
    | null => exact timestamp_decides E.now c r none hp
    | sc s => cases s <;> exact Decides.ok
    | _ => exact Decides.ok
  | enum r =>
    rw [ht] at hp hf
    refine (plain (.enum r) hp hf (by simp) (by simp) (by simp)).iff ?_
    cases v <;> simp [WrapperKind]
  | repeated r i =>
    rw [ht] at hp hf
    refine (plain (.repeated r i) hp hf (by simp) (by simp) (by simp)).iff ?_
    cases v <;> simp [WrapperKind]
  | map r i j =>
    rw [ht] at hp hf
    refine (plain (.map r i j) hp hf (by simp) (by simp) (by simp)).iff ?_
    cases v <;> simp [WrapperKind]
  | bool r =>
    rw [ht] at hp hf
    cases he : e.isEmbed with
    | true => refine (W (.bool r) hp hf).iff ?_; cases v <;> simp [WrapperKind]
    | false =>
      refine (plain (.bool r) hp hf (by simp) (by simp) (by simp)).iff ?_
      cases v <;> simp
  | string r =>
    rw [ht] at hp hf
    cases he : e.isEmbed with
    | true => refine (W (.string r) hp hf).iff ?_; cases v <;> simp [WrapperKind]
    | false =>
      refine (plain (.string r) hp hf (by simp) (by simp) (by simp)).iff ?_
      cases v <;> simp
  | bytes r =>
    rw [ht] at hp hf
    cases he : e.isEmbed with
    | true => refine (W (.bytes r) hp hf).iff ?_; cases v <;> simp [WrapperKind]
    | false =>
      refine (plain (.bytes r) hp hf (by simp) (by simp) (by simp)).iff ?_
      cases v <;> simp
  | num k r =>
    rw [ht] at hp hf
    have P := plain (.num k r) hp hf (by simp) (by simp) (by simp)
    have W := W (.num k r) hp hf
    cases he : e.isEmbed with
    | true =>
      cases k <;> first
        | exact W.iff (by cases v <;> simp [WrapperKind])
        | exact P.iff (by cases v <;> simp [WrapperKind])
    | false => cases k <;> exact P.iff (by cases v <;> simp)

/-! ### Lists and maps -/

theorem count_decides (what : String) (c : Ctx) (min max : Option Nat) (n : Nat) :
    Decides (countTpl what c min max n) (CountOk min max n) := by
  have nlt : ∀ a b : Nat, decide (a < b) = false ↔ b ≤ a := fun a b =>
    decide_eq_false_iff_not.trans Nat.not_lt
  have hmax : ∀ b, max = some b → (decide (n > b) = false ↔ CountOk none max n) := by
    rintro b rfl
    simp only [gt_iff_lt, nlt]
    simp [CountOk]
  have hnone : ∀ k, min = some k → k = 0 → (CountOk none max n ↔ CountOk min max n) := by
    rintro k rfl rfl
    simp [CountOk]
  unfold countTpl
  by_cases h0 : optN min = 0
  · have e : CountOk none max n ↔ CountOk min max n := by
      cases hm : min with
      | none => exact Iff.rfl
      | some k => rw [← hm]; exact hnone k hm (by simpa [optN, hm] using h0)
    simp only [h0, bne_self_eq_false, Bool.false_eq_true, if_false]
    refine Decides.iff ?_ e
    cases hm : max with
    | none => exact Decides.ok.iff (by simp [CountOk])
    | some b =>
      simp only [Option.isSome_some, if_true]
      refine Decides.check ?_
      rw [← hm]
      exact (by rw [hm]; rfl : decide (n > optN max) = decide (n > b)) ▸ hmax b hm
  · have hb : (optN min != 0) = true := by simpa using h0
    rw [hb]
    simp only [if_true]
    obtain ⟨a, rfl⟩ : ∃ a, min = some a := by
      cases min with
      | none => exact absurd rfl h0
      | some a => exact ⟨a, rfl⟩
    simp only [optN, Option.getD_some, beq_iff_eq] at h0 ⊢
    cases max with
    | none =>
      simp only [Option.getD_none, h0, if_false, Option.isSome_none, Bool.false_eq_true]
      exact Decides.check ((nlt n a).trans (by simp [CountOk]))
    | some b =>
      simp only [Option.getD_some, Option.isSome_some, if_true]
      refine Decides.ite (fun h => Decides.check ?_) (fun h => Decides.check ?_)
      · subst h; simp [CountOk]; omega
      · rw [Bool.or_eq_false_iff]
        exact (and_congr (nlt n a) (nlt b n)).trans (by simp [CountOk])

theorem itemEq_iff {e : ElemT} {a b : Val} (ha : FitsItem e a) (hb : FitsItem e b) :
    itemEq e a b = true ↔ SameItem a b := by
  unfold FitsItem at ha hb
  split at ha
  · rename_i k n
    obtain ⟨m, rfl⟩ : ∃ m, b = .sc (.num m) := by
      rcases b with ⟨⟨m⟩⟩ | _ <;> first | exact hb.elim | exact ⟨_, rfl⟩
    simp only [itemEq, SameItem]
    cases n with
    | int i =>
      cases m with
      | int j =>
        have := compares_field ha.1 ha.2.1 ha.2.2 hb.2.2
        simp only [cnum]
        rw [this.eq]
        simp [numSame, PGV.Spec.numVal, eq_comm]
      | f32 b => exact absurd hb ha.1
      | f64 b => exact absurd hb ha.2.1
    | f32 x =>
      cases m with
      | int j => exact absurd ha hb.1
      | f32 y =>
        simp only [cnum, numSame, PGV.Spec.numVal]
        cases hy : PGV.Spec.f32Val y with
        | none => simp [val32_eq, hy, CNum.eq, CNum.cmp]
        | some v =>
          have := compares_f32 (b := x) hy
          rw [show val32 y = some (lift v) by rw [val32_eq, hy]; rfl, this.eq]
          cases PGV.Spec.f32Val x <;> simp [eq_comm]
      | f64 b => exact absurd (ha.symm.trans hb) (by simp)
    | f64 x =>
      cases m with
      | int j => exact absurd ha hb.2.1
      | f32 b => exact absurd (ha.symm.trans hb) (by simp)
      | f64 y =>
        simp only [cnum, numSame, PGV.Spec.numVal]
        cases hy : PGV.Spec.f64Val y with
        | none =>
          have : val64 y = none := hy
          simp [this, CNum.eq, CNum.cmp]
        | some v =>
          have e : val64 y = some v := hy
          have := compares_flt (x := val64 x) (y := v)
          rw [e, this.eq]
          show _ ↔ ∃ z, val64 x = some z ∧ _
          cases val64 x <;> simp [eq_comm]
  · rcases b with ⟨⟨b⟩⟩ | _ <;> try exact hb.elim
    simp only [itemEq, SameItem, beq_iff_eq]
  · rcases b with ⟨⟨b⟩⟩ | _ <;> try exact hb.elim
    simp only [itemEq, SameItem, beq_iff_eq]
  · rcases b with ⟨⟨b⟩⟩ | _ <;> try exact hb.elim
    simp only [itemEq, SameItem, beq_iff_eq]
  · rcases b with ⟨⟨b⟩⟩ | _ <;> try exact hb.elim
    simp only [itemEq, SameItem, beq_iff_eq]
  · exact ha.elim

/-- The loop over items: all items pass, and with `unique` none is the same as an earlier one. -/
theorem repLoop_decides (u : Bool) (same : Val → Val → Bool) (c : Ctx) (item : Nat → Val → Run)
    (p : Val → Prop) (vs : List Val) : ∀ (i : Nat) (seen : List Val),
    (∀ i, ∀ v ∈ vs, Decides (item i v) (p v)) →
    Decides (repLoop u same c item i seen vs)
      ((u = true → (∀ v ∈ vs, ∀ w ∈ seen, same w v = false) ∧
        vs.Pairwise (fun a b => same a b = false)) ∧ ∀ v ∈ vs, p v) := by
  induction vs with
  | nil => intro i seen _; exact Decides.ok.iff (by simp)
  | cons v vs ih =>
    intro i seen h
    unfold repLoop
    refine (Decides.seq (p := u = true → ∀ w ∈ seen, same w v = false) ?_ fun _ =>
      Decides.seq (h i v (by simp)) fun _ =>
      ih (i + 1) _ fun i w hw => h i w (by simp [hw])).iff ?_
    · refine Decides.when (fun _ => Decides.failIdx _ _ _ _) ?_
      cases u <;> simp
    · cases u with
      | false => simp
      | true =>
        simp only [true_implies, if_true, List.mem_cons, forall_eq_or_imp, List.pairwise_cons]
        constructor
        · rintro ⟨h1, h2, ⟨h3, h4⟩, h5⟩
          exact ⟨⟨⟨h1, fun a ha w hw => (h3 a ha).2 w hw⟩, fun a ha => (h3 a ha).1, h4⟩, h2, h5⟩
        · rintro ⟨⟨⟨h1, h3⟩, h6, h4⟩, h2, h5⟩
          exact ⟨h1, h2, ⟨fun a ha => ⟨h6 a ha, h3 a ha⟩, h4⟩, h5⟩

theorem rep_decides {E : Env} {P : CEnv} {S : Schema} (rec : Val → Run) (ok : Val → Prop) (c : Ctx)
    (e : ElemT) (r : RepeatedRules) (items : FieldRules) (vs : List Val)
    (hel : ∀ c, ∀ v ∈ vs, Decides (elemTpl P rec c e items v) (ValueOk E S ok e items v))
    (hu : r.unique = some true → ∀ v ∈ vs, FitsItem e v) :
    Decides (repTpl P rec c e r items vs) (RepeatedOk E S ok e r items vs) := by
  unfold repTpl RepeatedOk
  refine Decides.ignore ?_ (by simp)
  refine (count_decides "item" c _ _ _).seq fun _ => ?_
  refine Decides.ite (fun h => ?_) (fun h => ?_)
  · refine (repLoop_decides (optB r.unique) (itemEq e) c _ (ValueOk E S ok e items) vs 0 []
      fun i v hv => hel _ v hv).iff ?_
    rw [optB_iff]
    refine and_congr_left fun _ => imp_congr_right fun h' => ?_
    simp only [List.not_mem_nil, false_implies, implies_true, true_and]
    refine pairwise_congr fun a ha b hb => ?_
    rw [← Bool.not_eq_true]
    exact not_congr (itemEq_iff (hu h' a ha) (hu h' b hb))
  · simp only [Bool.or_eq_true, not_or, Bool.not_eq_true] at h
    obtain ⟨h1, h2⟩ := h
    rw [optB_false_iff] at h1
    obtain ⟨ht, he⟩ := Go.elemTypNotNone_false h2
    exact Decides.ok.iff (by simp [h1, ValueOk, ht, he])

theorem key_decides {E : Env} {P : CEnv} {S : Schema} (hL : LibsAgree E P S) (c : Ctx) (e : ElemT)
    (rules : FieldRules) (k : Scalar) (hp : PortType P rules.type) (hf : FitsScalar E P rules.type k) :
    Decides (keyTpl P c e rules k) (ScalarOk E e rules.type k) := by
  have h := scalar_decides hL c e rules.type k hp hf
  unfold keyTpl
  split
  · rename_i ht; exact Decides.ok.iff (by simp [ht, ScalarOk])
  · exact h

theorem map_decides {E : Env} {P : CEnv} {S : Schema} (rec : Val → Run) (ok : Val → Prop) (c : Ctx)
    (kt vt : ElemT) (r : MapRules) (keys values : FieldRules) (kvs : List (Scalar × Val))
    (hkey : ∀ c, ∀ kv ∈ kvs, Decides (keyTpl P c kt keys kv.1) (ScalarOk E kt keys.type kv.1))
    (hval : ∀ c, ∀ kv ∈ kvs, Decides (elemTpl P rec c vt values kv.2) (ValueOk E S ok vt values kv.2))
    (hs : r.noSparse ≠ some true) :
    Decides (mapTpl P rec c kt vt r keys values kvs) (MapOk E S ok kt vt r keys values kvs) := by
  have hs' : optB r.noSparse = false := by rw [optB_false_iff]; exact hs
  unfold mapTpl MapOk
  refine Decides.ignore ?_ (by simp)
  refine (count_decides "pair" c _ _ _).seq fun _ => ?_
  refine Decides.ite (fun h => ?_) (fun h => ?_)
  · refine (Decides.seq (Decides.forEach (p := fun kv => ScalarOk E kt keys.type kv.1 ∧
      ValueOk E S ok vt values kv.2) fun kv hkv => ?_) fun _ =>
      (?_ : Decides (when (optB r.noSparse) _) True)).iff ?_
    · have hm := (P.order_perm kvs).mem_iff.1 hkv
      exact (hkey _ kv hm).seq fun _ => hval _ kv hm
    · rw [hs']; exact Decides.ok
    · simp only [(P.order_perm kvs).mem_iff]
      simp [hs]
  · simp only [hs', Bool.false_or, Bool.or_eq_true, not_or, Bool.not_eq_true] at h
    obtain ⟨h2, h3⟩ := h
    obtain ⟨ht, he⟩ := Go.elemTypNotNone_false h2
    obtain ⟨ht', he'⟩ := Go.elemTypNotNone_false h3
    exact Decides.ok.iff (by simp [hs, ValueOk, ht, he, ht', ScalarOk])

/-! ### Fields, oneofs and messages -/

theorem fits_unset (E : Env) (P : CEnv) (v : Val) : FitsVal E P .unset v := by
  cases v <;> simp [FitsVal, FitsScalar]

open PGV.Go (Inside) in
theorem renderField_decides {E : Env} {P : CEnv} {S : Schema} (hL : LibsAgree E P S)
    (rec : Val → Run) (ok : Val → Prop) (msg : String) (f : FieldDesc) (v : Val)
    (hrec : ∀ w, Inside w v → w ≠ .null → Decides (rec w) (EmbeddedOk E S ok w))
    (hp : PortField E P f v) : Decides (renderField P rec msg f v) (FieldOk E S ok f v) := by
  obtain ⟨name, typ, rules⟩ := f
  have hu : FieldRules.absent.type = .unset := rfl
  have hm1 : msgRequired FieldRules.absent.message = false := rfl
  have hm2 : msgSkip FieldRules.absent.message = false := rfl
  cases typ with
  | one e => exact elem_decides hL rec ok _ e rules v (fun h _ => hrec v (.self v) h) hp.1 hp.2
  | rep e =>
    cases v with
    | list vs =>
      unfold PortField at hp
      unfold renderField FieldOk
      have hr : ∀ v ∈ vs, v ≠ .null → e.isEmbed = true → Decides (rec v) (EmbeddedOk E S ok v) :=
        fun v hv h _ => hrec v (.list hv) h
      cases ht : rules.type with
      | repeated r items =>
        simp only [ht] at hp
        exact rep_decides rec ok _ e r items vs
          (fun c v hv => elem_decides hL rec ok c e items v (hr v hv) hp.1 (hp.2.1 v hv)) hp.2.2
      | unset =>
        refine (rep_decides (E := E) (S := S) rec ok _ e {} .absent vs
          (fun c v hv => elem_decides hL rec ok c e .absent v (hr v hv) trivial (fits_unset E P v))
          (by simp)).iff ?_
        simp [RepeatedOk, CountOk, ValueOk, hu, hm1, hm2]
      | _ => exact Decides.ok
    | _ => exact Decides.ok
  | map kt vt =>
    cases v with
    | map kvs =>
      unfold PortField at hp
      unfold renderField FieldOk
      have hr : ∀ kv ∈ kvs, kv.2 ≠ .null → vt.isEmbed = true →
          Decides (rec kv.2) (EmbeddedOk E S ok kv.2) := fun v hv h _ => hrec v.2 (.map hv) h
      cases ht : rules.type with
      | map r keys values =>
        simp only [ht] at hp
        obtain ⟨h1, h2, h3, h4⟩ := hp
        exact map_decides rec ok _ kt vt r keys values kvs
          (fun c kv hkv => key_decides hL c kt keys kv.1 h2 (h4 kv hkv).1)
          (fun c kv hkv => elem_decides hL rec ok c vt values kv.2 (hr kv hkv) h3 (h4 kv hkv).2) h1
      | unset =>
        cases he : vt.isEmbed with
        | true =>
          simp only [he, if_true]
          refine (map_decides (E := E) (S := S) rec ok _ kt vt {} .absent .absent kvs
            (fun c kv hkv => key_decides hL c kt .absent kv.1 trivial (by simp [FitsScalar, hu]))
            (fun c kv hkv => elem_decides hL rec ok c vt .absent kv.2 (hr kv hkv) trivial
              (fits_unset E P kv.2)) (by simp)).iff ?_
          simp [MapOk, CountOk, ValueOk, hu, hm1, hm2, he, ScalarOk]
        | false =>
          have e : True ↔ ∀ kv ∈ kvs, false = true → EmbeddedOk E S ok kv.2 := by simp
          simp only [he]
          exact Decides.ok.iff e
      | _ => exact Decides.ok
    | _ => exact Decides.ok

theorem fuel_nonmsg {E : Env} {P : CEnv} {S : Schema} (hL : LibsAgree E P S) (n : Nat)
    (v : Val) (h : ∀ t fs os, v ≠ .msg t fs os) : checkFuel P S n v = .ok () := by
  cases n with
  | zero => rfl
  | succ n =>
    have hO : Outside S v := fun t fs os d e => absurd e (h t fs os)
    have e : checkFuel P S (n + 1) v = P.other v := by
      unfold checkFuel checkStep
      cases v <;> first | rfl | exact absurd rfl (h _ _ _)
    rw [e, hL.other v hO]
    cases v <;> first | trivial | exact absurd rfl (h _ _ _)

theorem part_inside {E : Env} {P : CEnv} {S : Schema} {u w v : Val} (hi : Go.Inside w u)
    (h : ∀ x, Part x u → Part x v) (hP : Portable E P S v) : Portable E P S w := by
  intro typ fs os d hp
  refine hP typ fs os d (h _ ?_)
  cases hi with
  | self => exact hp
  | list hm => exact .item hm hp
  | map hm => exact .entry hm hp

/-- Enough fuel gives exactly the declarative meaning. -/
theorem fuel_decides {E : Env} {P : CEnv} {S : Schema} (hL : LibsAgree E P S) (n : Nat) :
    ∀ v, depth v ≤ n → Portable E P S v →
      Decides (checkFuel P S n v) (EmbeddedOk E S (fun w => Go.validate E S false w = none) v) := by
  have nonmsg : ∀ n v, (∀ t fs os, v ≠ .msg t fs os) →
      Decides (checkFuel P S n v) (EmbeddedOk E S (fun w => Go.validate E S false w = none) v) := by
    intro n v hm
    rw [fuel_nonmsg hL n v hm]
    exact Decides.ok.iff (by cases v <;> first | exact absurd rfl (hm _ _ _) | simp [EmbeddedOk])
  induction n with
  | zero => intro v hv; have := Go.depth_pos v; omega
  | succ n ih =>
    intro v hv hP
    by_cases hm : ∀ t fs os, v ≠ .msg t fs os
    · exact nonmsg (n + 1) v hm
    · obtain ⟨typ, fs, os, rfl⟩ : ∃ t fs os, v = .msg t fs os := by
        simp only [Classical.not_forall] at hm
        obtain ⟨t, fs, os, h⟩ := hm
        exact ⟨t, fs, os, Classical.not_not.1 h⟩
      have hout : Outside S (.msg typ fs os) → Decides (P.other (.msg typ fs os))
          (EmbeddedOk E S (fun w => Go.validate E S false w = none) (.msg typ fs os)) := by
        intro hO
        refine ⟨?_, fun w => hL.other_calm _ w hO⟩
        rw [hL.other _ hO]
        unfold EmbeddedOk
        cases hS : S typ with
        | generated d =>
          have := hO typ fs os d rfl hS
          simp only [hS, implies_true, true_iff]
          intro hi
          rw [Go.validate_spec]
          simp only [MessageOk, hS]
          intro hd
          simp [hi, hd] at this
        | _ => simp [hS]
      have hrec : ∀ u, (∀ x, Part x u → Part x (.msg typ fs os)) → depth u ≤ n →
          ∀ w, Go.Inside w u → w ≠ .null → Decides (checkFuel P S n w)
            (EmbeddedOk E S (fun w => Go.validate E S false w = none) w) := by
        intro u hu hd w hw _
        refine ih w ?_ (part_inside hw hu hP)
        have := hw.depth_le
        omega
      unfold checkFuel checkStep
      cases hS : S typ with
      | generated d =>
        simp only [hS]
        by_cases hig : (d.ignored || d.disabled) = true
        · rw [if_pos hig]
          refine hout ?_
          intro t fs' os' d' e hS'
          cases e
          rw [hS] at hS'
          cases hS'
          simpa using hig
        · rw [if_neg hig]
          simp only [Bool.or_eq_true, not_or, Bool.not_eq_true] at hig
          obtain ⟨hig, hdis⟩ := hig
          refine Decides.iff (p := MessageOk E S (fun w => Go.validate E S false w = none)
            (.msg typ fs os)) ?_ (by simp only [EmbeddedOk, hS, hig, true_implies]; rw [Go.validate_spec])
          obtain ⟨hF, hO⟩ := hP typ fs os d .self hS hdis
          unfold validateMsg
          simp only [MessageOk, hS, hdis, Bool.false_eq_true, if_false, true_implies]
          refine Decides.seq (Decides.forEach fun f hf => ?_) fun _ => Decides.forEach fun o ho => ?_
          · refine renderField_decides hL _ _ _ f _ ?_ (hF f hf)
            intro w hw hnn
            unfold getField at hw
            cases hl : fs.lookup f.name with
            | some u =>
              rw [hl] at hw
              refine hrec u (fun x hx => .field (mem_of_lookup hl) hx) ?_ w hw hnn
              have := Go.depthFields_lookup hl
              simp only [depth] at hv
              omega
            | none =>
              rw [hl] at hw
              exact nonmsg n w (Go.zero_not_msg hw)
          · unfold oneofTpl OneofOk
            cases hl : os.lookup o.name with
            | none =>
              refine Decides.when (p := False) (fun _ => ⟨by simp, by simp⟩) ?_
              cases o.required <;> simp
            | some mu =>
              obtain ⟨m, u⟩ := mu
              simp only
              cases hfind : o.fields.find? (fun f => f.name == m) with
              | none => exact Decides.ok.iff (by simp)
              | some f =>
                simp only [Option.some.injEq, forall_eq']
                refine renderField_decides hL _ _ _ f u ?_ (hO o ho m u f hl hfind)
                refine hrec u (fun x hx => .member (mem_of_lookup hl) hx) ?_
                have := Go.depthOneofs_lookup hl
                simp only [depth] at hv
                omega
      | _ =>
        simp only [hS]
        refine hout ?_
        intro t fs' os' d' e hS'
        cases e
        rw [hS] at hS'
        cases hS'

/-! ### The recursion equation -/

theorem forEach_congr {α : Type} {f g : α → Run} (xs : List α) (h : ∀ x ∈ xs, f x = g x) :
    forEach xs f = forEach xs g := by
  induction xs with
  | nil => rfl
  | cons x xs ih =>
    unfold forEach
    rw [h x (by simp), ih (fun y hy => h y (by simp [hy]))]

theorem elemTpl_congr {P : CEnv} {rec rec' : Val → Run} {c : Ctx} {e : ElemT} {rules : FieldRules}
    {v : Val} (h : e.isEmbed = true → v ≠ .null → rec v = rec' v) :
    elemTpl P rec c e rules v = elemTpl P rec' c e rules v := by
  unfold elemTpl
  cases hr : resolve e rules with
  | message m =>
    have he : e.isEmbed = true := by
      unfold resolve at hr
      cases ht : rules.type with
      | unset => cases he : e.isEmbed <;> simp_all
      | num k r => cases he : e.isEmbed <;> cases k <;> simp_all
      | _ => cases he : e.isEmbed <;> simp_all
    unfold messageTpl
    by_cases hn : v = .null
    · subst hn; rfl
    · simp only [h he hn]
  | _ => rfl

theorem repLoop_congr (u : Bool) (same : Val → Val → Bool) (c : Ctx) (f g : Nat → Val → Run)
    (vs : List Val) : ∀ i seen, (∀ i, ∀ v ∈ vs, f i v = g i v) →
    repLoop u same c f i seen vs = repLoop u same c g i seen vs := by
  induction vs with
  | nil => intros; rfl
  | cons v vs ih =>
    intro i seen h
    unfold repLoop
    rw [h i v (by simp), ih _ _ fun i w hw => h i w (by simp [hw])]

theorem repTpl_congr {P : CEnv} {rec rec' : Val → Run} {c : Ctx} {e : ElemT} {r : RepeatedRules}
    {items : FieldRules} {vs : List Val} (h : ∀ v ∈ vs, v ≠ .null → rec v = rec' v) :
    repTpl P rec c e r items vs = repTpl P rec' c e r items vs := by
  unfold repTpl
  rw [repLoop_congr _ _ _ _ (fun i v => elemTpl P rec' { c with index := some (.pos i) } e items v) vs _ _
    fun i v hv => elemTpl_congr fun _ => h v hv]

theorem mapTpl_congr {P : CEnv} {rec rec' : Val → Run} {c : Ctx} {kt vt : ElemT} {r : MapRules}
    {keys values : FieldRules} {kvs : List (Scalar × Val)}
    (h : ∀ kv ∈ kvs, kv.2 ≠ .null → rec kv.2 = rec' kv.2) :
    mapTpl P rec c kt vt r keys values kvs = mapTpl P rec' c kt vt r keys values kvs := by
  unfold mapTpl
  rw [forEach_congr (g := mapEntry P rec' c kt vt keys values) (P.order kvs) fun kv hkv => by
    unfold mapEntry
    rw [elemTpl_congr fun _ => h kv ((P.order_perm kvs).mem_iff.1 hkv)]]

theorem renderField_congr {P : CEnv} {rec rec' : Val → Run} {msg : String} {f : FieldDesc} {v : Val}
    (h : ∀ w, Called f.typ w v → rec w = rec' w) :
    renderField P rec msg f v = renderField P rec' msg f v := by
  obtain ⟨name, typ, rules⟩ := f
  cases typ with
  | one e => exact elemTpl_congr fun he hn => h v (.one he hn)
  | rep e =>
    cases v with
    | list vs =>
      have : ∀ v ∈ vs, v ≠ .null → rec v = rec' v := fun v hv hn => h v (.item hv hn)
      unfold renderField
      simp only [repTpl_congr this]
    | _ => rfl
  | map kt vt =>
    cases v with
    | map kvs =>
      have : ∀ kv ∈ kvs, kv.2 ≠ .null → rec kv.2 = rec' kv.2 :=
        fun kv hv hn => h kv.2 (.entry hv hn)
      unfold renderField
      simp only [mapTpl_congr this]
    | _ => rfl

theorem checkStep_congr {P : CEnv} {S : Schema} {rec rec' : Val → Run} {v : Val}
    (h : ∀ w, depth w < depth v → rec w = rec' w) : checkStep P S rec v = checkStep P S rec' v := by
  cases v with
  | msg typ fs os =>
    unfold checkStep
    cases hS : S typ with
    | generated d =>
      have h1 : forEach d.fields (fun f => renderField P rec d.name f (getField fs f)) =
          forEach d.fields (fun f => renderField P rec' d.name f (getField fs f)) := by
        refine forEach_congr _ fun f _ => renderField_congr fun w hw => ?_
        unfold getField at hw
        cases hf : fs.lookup f.name with
        | some v =>
          rw [hf] at hw
          have h1 := hw.depth_le
          have h2 := Go.depthFields_lookup hf
          refine h w ?_
          simp only [Option.getD_some] at h1
          simp only [depth]; omega
        | none =>
          rw [hf] at hw
          exact hw.zero.elim
      have h2 : forEach d.oneofs (fun o => oneofTpl P rec d.name o (os.lookup o.name)) =
          forEach d.oneofs (fun o => oneofTpl P rec' d.name o (os.lookup o.name)) := by
        refine forEach_congr _ fun o _ => ?_
        cases ho : os.lookup o.name with
        | none => rfl
        | some mv =>
          obtain ⟨m, v⟩ := mv
          unfold oneofTpl
          have hd := Go.depthOneofs_lookup ho
          have : ∀ f, renderField P rec d.name f v = renderField P rec' d.name f v := by
            intro f
            refine renderField_congr fun w hw => h w ?_
            have := hw.depth_le
            simp only [depth]; omega
          simp only [this]
      simp only [hS, validateMsg, h1, h2]
    | _ => simp only [hS]
  | _ => rfl

theorem fuel_enough (P : CEnv) (S : Schema) (n m : Nat) (v : Val) (hn : depth v ≤ n)
    (hm : depth v ≤ m) : checkFuel P S n v = checkFuel P S m v := by
  induction n generalizing m v with
  | zero => have := Go.depth_pos v; omega
  | succ n ih =>
    cases m with
    | zero => have := Go.depth_pos v; omega
    | succ m => exact checkStep_congr fun w hw => ih m w (by omega) (by omega)

/-- The recursion equation of the generated validators. -/
theorem checkMessage_eq (P : CEnv) (S : Schema) (v : Val) :
    checkMessage P S v = checkStep P S (checkMessage P S) v := by
  unfold checkMessage
  have hp := Go.depth_pos v
  obtain ⟨n, hn⟩ : ∃ n, depth v = n + 1 := ⟨depth v - 1, by omega⟩
  rw [hn]
  exact checkStep_congr fun w hw => fuel_enough P S n (depth w) w (by omega) (Nat.le_refl _)

/-- A one-field message. -/
theorem check_single {P : CEnv} {S : Schema} {typ : String} {d : MsgDesc} {f : FieldDesc}
    (hS : S typ = .generated d) (hd : d.disabled = false) (hi : d.ignored = false)
    (hf : d.fields = [f]) (ho : d.oneofs = []) (v : Val) :
    checkMessage P S (.msg typ [(f.name, v)] []) = renderField P (checkMessage P S) d.name f v := by
  rw [checkMessage_eq]
  simp only [checkStep, hS, hd, hi, validateMsg, hf, ho, forEach, Go.getField_single, Bool.or_self,
    Bool.false_eq_true, if_false]
  cases renderField P (checkMessage P S) d.name f v <;> rfl

end PGV.Cpp
