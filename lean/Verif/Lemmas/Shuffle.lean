import Verif.Lemmas.Rep

/-!
The iteration order of maps only affects the order of errors.
-/

set_option linter.unusedSimpArgs false

namespace PGV.Go
open PGV Exec PGV.Spec

theorem _root_.PGV.Spec.ShuffledList.refl (l : List Err) : ShuffledList l l := by
  induction l with
  | nil => exact .nil
  | cons e l ih => exact .cons (.same e) ih

theorem _root_.PGV.Spec.ShuffledList.append_left (l : List Err) {a b : List Err} (h : ShuffledList a b) :
    ShuffledList (l ++ a) (l ++ b) := by
  induction l with
  | nil => exact h
  | cons e l ih => exact .cons (.same e) ih

theorem _root_.PGV.Spec.ShuffledList.append_right {a b : List Err} (h : ShuffledList a b) (l : List Err) :
    ShuffledList (a ++ l) (b ++ l) := by
  exact ShuffledList.rec (motive_1 := fun _ _ _ => True)
    (motive_2 := fun a b _ => ShuffledList (a ++ l) (b ++ l))
    (fun _ => trivial) (fun _ _ => trivial) (fun _ _ => trivial) (ShuffledList.refl l)
    (fun h1 _ _ ih => .cons h1 ih) .swap (fun _ _ ih1 ih2 => .trans ih1 ih2) h

theorem _root_.PGV.Spec.ShuffledList.append {a b c d : List Err} (h1 : ShuffledList a b) (h2 : ShuffledList c d) :
    ShuffledList (a ++ c) (b ++ d) :=
  .trans (h1.append_right c) (h2.append_left b)

theorem _root_.PGV.Spec.ShuffledList.of_perm {a b : List Err} (h : a.Perm b) : ShuffledList a b := by
  induction h with
  | nil => exact .nil
  | cons x _ ih => exact .cons (.same x) ih
  | swap x y l => exact .swap
  | trans _ _ ih1 ih2 => exact .trans ih1 ih2

theorem _root_.PGV.Spec.ShuffledList.flatMap {α : Type} {f g : α → List Err} (l : List α)
    (h : ∀ a ∈ l, ShuffledList (f a) (g a)) : ShuffledList (l.flatMap f) (l.flatMap g) := by
  induction l with
  | nil => exact .nil
  | cons a l ih =>
    simp only [List.flatMap_cons]
    exact (h a (by simp)).append (ih fun b hb => h b (by simp [hb]))

theorem _root_.PGV.Spec.ShuffledList.length {a b : List Err} (h : ShuffledList a b) : a.length = b.length := by
  exact ShuffledList.rec (motive_1 := fun _ _ _ => True)
    (motive_2 := fun a b _ => a.length = b.length)
    (fun _ => trivial) (fun _ _ => trivial) (fun _ _ => trivial) rfl
    (fun _ _ _ ih => by simp [ih]) rfl (fun _ _ ih1 ih2 => ih1.trans ih2) h

/-- Results that differ in the order of errors only. -/
def SameUpTo : Option Err → Option Err → Prop
  | none, none => True
  | some e, some e' => Shuffled e e'
  | _, _ => False

theorem required_any (c : Ctx) (a b : Bool) :
    Ok (fun _ => True) (fun all => requiredTpl all c a b) (a = true → b = false) :=
  (required_ok c a b).any

theorem message_shuffle {E : Env} {S : Schema} {rec rec' : Rec}
    (c : Ctx) (m : Option MessageRules) (v : Val) (h : SameUpTo (rec true v) (rec' true v)) :
    ShuffledList (allErrs fun all => messageTpl E S all rec c m v)
      (allErrs fun all => messageTpl E S all rec' c m v) := by
  by_cases hm : msgSkip m = false ∧ methods S v = .both
  · obtain ⟨hs, hb⟩ := hm
    have key : ∀ rec : Rec, allErrs (fun all => messageTpl E S all rec c m v) =
        allErrs (fun all => requiredTpl all c (msgRequired m) (Val.isNull v)) ++
        (match rec true v with
          | some e => [errCause c e [.s "embedded message failed validation"]]
          | none => []) := by
      intro rec
      have hq := (required_any c (msgRequired m) (Val.isNull v)).all []
      rw [List.nil_append] at hq
      generalize allErrs (fun all => requiredTpl all c (msgRequired m) (Val.isNull v)) = q at hq ⊢
      simp only [allErrs, messageTpl, Exec.seq, hq, hs, hb, Bool.false_eq_true, if_false, if_true]
      cases rec true v <;> simp [append, skip]
    rw [key, key]
    refine ShuffledList.append_left _ ?_
    cases h1 : rec true v <;> cases h2 : rec' true v <;> simp [h1, h2, SameUpTo] at h ⊢
    · exact .nil
    · exact .cons (.viol h) .nil
  · have : (fun all => messageTpl E S all rec c m v) = (fun all => messageTpl E S all rec' c m v) := by
      funext all
      unfold messageTpl
      cases hs : msgSkip m with
      | true => rfl
      | false =>
        cases hb : methods S v with
        | both => exact absurd ⟨hs, hb⟩ hm
        | validateOnly => simp only [hb]
        | none => simp only [hb]
    rw [this]
    exact .refl _

theorem elem_shuffle {E : Env} {S : Schema} {rec rec' : Rec}
    (c : Ctx) (e : ElemT) (rules : FieldRules) (v : Val)
    (h : SameUpTo (rec true v) (rec' true v)) :
    ShuffledList (allErrs fun all => elemTpl E S all rec c e rules v)
      (allErrs fun all => elemTpl E S all rec' c e rules v) := by
  unfold elemTpl
  cases resolve e rules with
  | message m => exact message_shuffle c m v h
  | _ => exact .refl _

theorem repLoop_shuffle (unique : Bool) (c : Ctx) (item item' : Nat → Val → Bool → Exec)
    (P P' : Val → Prop) (vs : List Val)
    (hi : ∀ i, ∀ v ∈ vs, Ok (fun _ => True) (item i v) (P v))
    (hi' : ∀ i, ∀ v ∈ vs, Ok (fun _ => True) (item' i v) (P' v))
    (h : ∀ i, ∀ v ∈ vs, ShuffledList (allErrs (item i v)) (allErrs (item' i v)))
    (idx : Nat) (seen : List Val) :
    ShuffledList (allErrs fun all => repLoop all unique c (fun i v => item i v all) idx seen vs)
      (allErrs fun all => repLoop all unique c (fun i v => item' i v all) idx seen vs) := by
  induction vs generalizing idx seen with
  | nil => exact .nil
  | cons v vs ih =>
    let dup := unique && seen.any (fun w => keyEq w v)
    let seen' := if unique && !dup then v :: seen else seen
    have key : ∀ (item : Nat → Val → Bool → Exec) (P : Val → Prop),
        (∀ i, ∀ w ∈ v :: vs, Ok (fun _ => True) (item i w) (P w)) →
        allErrs (fun all => repLoop all unique c (fun i v => item i v all) idx seen (v :: vs)) =
        (if dup then [errIdx c (.pos idx) [.s "repeated value must contain unique items"]] else []) ++
        (allErrs (item idx v) ++
          allErrs (fun all => repLoop all unique c (fun i v => item i v all) (idx + 1) seen' vs)) := by
      intro item P hi
      have hrest := repLoop_ok (W := fun _ => True) unique c item P (fun _ => trivial) vs
        (fun i w hw => hi i w (by simp [hw])) (idx + 1) seen'
      have e1 := Ok.seq_all (hi idx v (by simp)) hrest
      have e2 := Ok.seq_all (Ok.check (W := fun _ => True) (b := dup)
        (e := errIdx c (.pos idx) [.s "repeated value must contain unique items"]) trivial)
        (Ok.seq (hi idx v (by simp)) hrest)
      rw [← check_all, ← e1, ← e2]
      rfl
    rw [key item P hi, key item' P' hi']
    refine ShuffledList.append_left _ ((h idx v (by simp)).append ?_)
    exact ih (fun i w hw => hi i w (by simp [hw])) (fun i w hw => hi' i w (by simp [hw]))
      (fun i w hw => h i w (by simp [hw])) (idx + 1) seen'

/-- Fragments under `ignore_empty`. -/
theorem ignoreEmpty_shuffle {x y : Bool → Exec} (a b : Bool)
    (h : ShuffledList (allErrs x) (allErrs y)) :
    ShuffledList (allErrs fun all => if a then Exec.when b (x all) else x all)
      (allErrs fun all => if a then Exec.when b (y all) else y all) := by
  cases a
  · exact h
  · cases b
    · exact .refl _
    · exact h

theorem ite_shuffle {x y : Bool → Exec} (c : Bool) (h : ShuffledList (allErrs x) (allErrs y)) :
    ShuffledList (allErrs fun all => if c then x all else Exec.skip)
      (allErrs fun all => if c then y all else Exec.skip) := by
  cases c
  · exact .refl _
  · exact h

theorem seq_shuffle {W W' : Err → Prop} {x y z : Bool → Exec} {P Q Q' : Prop} (hx : Ok W x P)
    (hy : Ok W' y Q) (hz : Ok W' z Q') (h : ShuffledList (allErrs y) (allErrs z)) :
    ShuffledList (allErrs fun all => Exec.seq (x all) (y all))
      (allErrs fun all => Exec.seq (x all) (z all)) := by
  rw [Ok.seq_all hx.any hy.any, Ok.seq_all hx.any hz.any]
  exact h.append_left _

theorem rep_shuffle {E : Env} {S : Schema} {rec rec' : Rec} (hr : RecOk rec) (hr' : RecOk rec')
    (c : Ctx) (e : ElemT) (r : RepeatedRules) (items : FieldRules) (vs : List Val)
    (h : ∀ v ∈ vs, SameUpTo (rec true v) (rec' true v)) :
    ShuffledList (allErrs fun all => repTpl E S all rec c e r items vs)
      (allErrs fun all => repTpl E S all rec' c e r items vs) := by
  have hitem : ∀ rec : Rec, RecOk rec → ∀ i, ∀ v ∈ vs, Ok (fun _ => True)
      (fun all => elemTpl E S all rec { c with index := some (.pos i) } e items v) _ :=
    fun rec hr i v _ => (elem_ok E S rec hr { c with index := some (.pos i) } e items v).any
  have hloop := fun (rec : Rec) (hr : RecOk rec) => repLoop_ok (W := fun _ => True) (optB r.unique) c
    (fun idx v all => elemTpl E S all rec { c with index := some (.pos idx) } e items v) _
    (fun _ => trivial) vs (hitem rec hr) 0 []
  unfold repTpl
  refine ignoreEmpty_shuffle _ _ ?_
  refine seq_shuffle (repLen_ok c r vs.length) (Ok.ite (hloop rec hr) Ok.skip)
    (Ok.ite (hloop rec' hr') Ok.skip) ?_
  exact ite_shuffle _ (repLoop_shuffle (optB r.unique) c _ _ _ _ vs (hitem rec hr) (hitem rec' hr')
    (fun i v hv => elem_shuffle _ e items v (h v hv)) 0 [])

theorem mapEntry_all (E : Env) (S : Schema) (rec : Rec) (hr : RecOk rec) (c : Ctx) (kt vt : ElemT)
    (r : MapRules) (keys values : FieldRules) (kv : Scalar × Val) :
    allErrs (fun all => mapEntry E S all rec c kt vt r keys values kv) =
      (if optB r.noSparse && Val.isNull kv.2 then
        [errIdx c (.key kv.1) [.s "value cannot be sparse, all pairs must be non-nil"]] else []) ++
      (allErrs (fun all => keyTpl E all { c with index := some (.key kv.1) } kt keys kv.1) ++
       allErrs (fun all => elemTpl E S all rec { c with index := some (.key kv.1) } vt values kv.2)) := by
  have h1 := (keyTpl_ok E { c with index := some (.key kv.1) } kt keys kv.1).any
  have h2 := (elem_ok E S rec hr { c with index := some (.key kv.1) } vt values kv.2).any
  rw [← check_all, ← Ok.seq_all h1 h2, ← Ok.seq_all (Ok.check (W := fun _ => True) trivial) (Ok.seq h1 h2)]
  rfl

theorem map_shuffle {E : Env} {S : Schema} {rec rec' : Rec} (hr : RecOk rec) (hr' : RecOk rec')
    (o : List (Scalar × Val) → List (Scalar × Val)) (ho : ∀ l, (o l).Perm l)
    (c : Ctx) (hk : c.onKey = false) (kt vt : ElemT) (r : MapRules) (keys values : FieldRules)
    (kvs : List (Scalar × Val)) (h : ∀ kv ∈ kvs, SameUpTo (rec true kv.2) (rec' true kv.2)) :
    ShuffledList (allErrs fun all => mapTpl E S all rec c kt vt r keys values kvs)
      (allErrs fun all => mapTpl (withOrder E o ho) S all rec' c kt vt r keys values kvs) := by
  unfold mapTpl
  refine ignoreEmpty_shuffle _ _ ?_
  have hl := fun (E : Env) (rec : Rec) (hr : RecOk rec) => Ok.forEach_aux (W := fun _ => True)
    (f := fun kv all => mapEntry E S all rec c kt vt r keys values kv)
    (E.order kvs) (fun kv _ => (mapEntry_ok E S rec hr c hk kt vt r keys values kv).any)
  refine seq_shuffle (mapLen_ok c r kvs.length) (Ok.ite (hl E rec hr).1 Ok.skip)
    (Ok.ite (hl (withOrder E o ho) rec' hr').1 Ok.skip) (ite_shuffle _ ?_)
  have e1 := (hl E rec hr).2.1
  have e2 := (hl (withOrder E o ho) rec' hr').2.1
  have p1 : ((E.order kvs).flatMap fun kv =>
        allErrs fun all => mapEntry E S all rec c kt vt r keys values kv).Perm
      (kvs.flatMap fun kv => allErrs fun all => mapEntry E S all rec c kt vt r keys values kv) :=
    (E.order_perm kvs).flatMap_right _
  have p2 : (kvs.flatMap fun kv =>
        allErrs fun all => mapEntry (withOrder E o ho) S all rec' c kt vt r keys values kv).Perm
      (((withOrder E o ho).order kvs).flatMap fun kv =>
        allErrs fun all => mapEntry (withOrder E o ho) S all rec' c kt vt r keys values kv) :=
    ((withOrder E o ho).order_perm kvs).symm.flatMap_right _
  refine Eq.mpr (congr (congrArg ShuffledList e1) e2) ?_
  refine .trans (.of_perm p1) (.trans ?_ (.of_perm p2))
  refine ShuffledList.flatMap kvs fun kv hkv => ?_
  rw [mapEntry_all E S rec hr, mapEntry_all (withOrder E o ho) S rec' hr']
  refine ShuffledList.append_left _ (ShuffledList.append (.refl _) ?_)
  exact elem_shuffle _ vt values kv.2 (h kv hkv)

theorem field_shuffle {E : Env} {S : Schema} {rec rec' : Rec} (hr : RecOk rec) (hr' : RecOk rec')
    (o : List (Scalar × Val) → List (Scalar × Val)) (ho : ∀ l, (o l).Perm l)
    (msg : String) (f : FieldDesc) (v : Val)
    (h : ∀ w, Inside w v → SameUpTo (rec true w) (rec' true w)) :
    ShuffledList (allErrs fun all => renderField E S all rec msg f v)
      (allErrs fun all => renderField (withOrder E o ho) S all rec' msg f v) := by
  obtain ⟨name, typ, rules⟩ := f
  cases typ with
  | one e => exact elem_shuffle _ e rules v (h v (.self v))
  | rep e =>
    cases v with
    | list vs =>
      have h' : ∀ v ∈ vs, SameUpTo (rec true v) (rec' true v) := fun v hv => h v (.list hv)
      unfold renderField
      cases ht : rules.type with
      | repeated r items => exact rep_shuffle (E := E) hr hr' _ e r items vs h'
      | unset => exact rep_shuffle (E := E) hr hr' _ e {} .absent vs h'
      | _ => exact .refl _
    | _ => exact .refl _
  | map kt vt =>
    cases v with
    | map kvs =>
      have h' : ∀ kv ∈ kvs, SameUpTo (rec true kv.2) (rec' true kv.2) :=
        fun kv hv => h kv.2 (.map hv)
      unfold renderField
      cases ht : rules.type with
      | map r keys values =>
        exact map_shuffle hr hr' o ho { msg := msg, field := name } rfl kt vt r keys values kvs h'
      | unset =>
        exact ite_shuffle vt.isEmbed (map_shuffle hr hr' o ho { msg := msg, field := name } rfl kt vt {}
          .absent .absent kvs h')
      | _ => exact .refl _
    | _ => exact .refl _

theorem validate_notmsg (E : Env) (S : Schema) (a : Bool) (v : Val)
    (h : ∀ t fs os, v ≠ .msg t fs os) : validate E S a v = none := by
  rw [validate_eq]
  cases v <;> simp [validateStep] at h ⊢

theorem validate_shuffle (E : Env) (S : Schema) (o : List (Scalar × Val) → List (Scalar × Val))
    (ho : ∀ l, (o l).Perm l) (v : Val) :
    SameUpTo (validate E S true v) (validate (withOrder E o ho) S true v) := by
  have key : ∀ n, ∀ v, depth v ≤ n →
      SameUpTo (validate E S true v) (validate (withOrder E o ho) S true v) := by
    intro n
    induction n with
    | zero => intro v hv; have := depth_pos v; omega
    | succ n ih =>
      intro v hv
      cases v with
      | msg typ fs os =>
        cases hS : S typ with
        | generated d =>
          cases hd : d.disabled with
          | true => rw [validate_eq, validate_eq]; simp [validateStep, hS, hd, SameUpTo]
          | false =>
            rw [validate_all_msg hS hd, validate_all_msg hS hd]
            have hF : ShuffledList
                (d.fields.flatMap (fun f => allErrs fun all =>
                  renderField E S all (validate E S) d.name f (getField fs f)))
                (d.fields.flatMap (fun f => allErrs fun all =>
                  renderField (withOrder E o ho) S all (validate (withOrder E o ho) S) d.name f
                    (getField fs f))) := by
              refine ShuffledList.flatMap _ fun f _ => ?_
              refine field_shuffle (validate_recOk E S) (validate_recOk _ S) o ho d.name f _ ?_
              intro w hw
              unfold getField at hw
              cases hl : fs.lookup f.name with
              | some x =>
                rw [hl] at hw
                have h1 := depthFields_lookup hl
                have h2 := hw.depth_le
                simp only [Option.getD_some] at h2
                refine ih w ?_
                simp only [depth] at hv; omega
              | none =>
                rw [hl] at hw
                have hn := zero_not_msg hw
                rw [validate_notmsg E S true w hn, validate_notmsg _ S true w hn]
                trivial
            have hO : ShuffledList
                (d.oneofs.flatMap (fun o => allErrs fun all =>
                  oneofTpl E S all (validate E S) d.name o (os.lookup o.name)))
                (d.oneofs.flatMap (fun x => allErrs fun all =>
                  oneofTpl (withOrder E o ho) S all (validate (withOrder E o ho) S) d.name x
                    (os.lookup x.name))) := by
              refine ShuffledList.flatMap _ fun x _ => ?_
              unfold oneofTpl
              cases hl : os.lookup x.name with
              | none => exact .refl _
              | some mv =>
                obtain ⟨m, v⟩ := mv
                cases hf : x.fields.find? (fun f => f.name == m) with
                | none => simp only [hf]; exact .refl _
                | some f =>
                  simp only [hf]
                  refine field_shuffle (validate_recOk E S) (validate_recOk _ S) o ho d.name f _ ?_
                  intro w hw
                  have h1 := depthOneofs_lookup hl
                  have h2 := hw.depth_le
                  refine ih w ?_
                  simp only [depth] at hv; omega
            have hA := hF.append hO
            have hlen := hA.length
            simp only
            split
            · rename_i hn
              rw [hn] at hlen
              have hn' := List.length_eq_zero_iff.1 hlen.symm
              rw [if_pos hn']
              trivial
            · rename_i hn
              rw [if_neg]
              · exact .multi hA
              · intro hn'
                rw [hn'] at hlen
                exact hn (List.length_eq_zero_iff.1 hlen)
        | legacy => rw [validate_eq, validate_eq]; simp [validateStep, hS, SameUpTo]
        | foreign => rw [validate_eq, validate_eq]; simp [validateStep, hS, SameUpTo]
      | _ => rw [validate_eq, validate_eq]; simp [validateStep, SameUpTo]
  exact key (depth v) v (Nat.le_refl _)

/-- The errors of a map field that is not skipped by `ignore_empty`. -/
theorem map_mem (E : Env) (S : Schema) (rec : Rec) (hr : RecOk rec) (c : Ctx) (hk : c.onKey = false)
    (kt vt : ElemT) (r : MapRules) (keys values : FieldRules) (kvs : List (Scalar × Val))
    (hne : r.ignoreEmpty ≠ some true ∨ kvs ≠ []) (x : Err) :
    x ∈ allErrs (fun all => mapTpl E S all rec c kt vt r keys values kvs) ↔
      x ∈ allErrs (fun all => mapLenTpl all c r kvs.length) ∨
      ∃ kv ∈ kvs, x ∈ allErrs (fun all => mapEntry E S all rec c kt vt r keys values kv) := by
  let cond := optB r.noSparse || elemTypNotNone vt values || elemTypNotNone kt keys
  let loop : Bool → Exec := fun all => forEach (E.order kvs) (mapEntry E S all rec c kt vt r keys values)
  have hl := Ok.forEach_aux (W := fun _ => True)
    (f := fun kv all => mapEntry E S all rec c kt vt r keys values kv)
    (E.order kvs) (fun kv _ => (mapEntry_ok E S rec hr c hk kt vt r keys values kv).any)
  have hcond : allErrs (fun all => if cond then loop all else skip) = allErrs loop := by
    cases hc : cond with
    | true => rfl
    | false =>
      refine Eq.trans (Ok.skip_eq) (hl.1.specAll.2 ?_).symm
      simp only [cond, Bool.or_eq_false_iff] at hc
      obtain ⟨⟨h1, h2⟩, h3⟩ := hc
      obtain ⟨ht, he⟩ := elemTypNotNone_false h2
      obtain ⟨ht', he'⟩ := elemTypNotNone_false h3
      rw [optB_false_iff] at h1
      simp [ValueOk, ht, he, ht', ScalarOk, h1]
  have hseq := Ok.seq_all (mapLen_ok c r kvs.length).any
    (Ok.ite (c := cond = true) hl.1 Ok.skip : Ok (fun _ => True)
      (fun all => if cond then loop all else skip) _)
  have hbody : allErrs (fun all => mapTpl E S all rec c kt vt r keys values kvs) =
      allErrs (fun all => Exec.seq (mapLenTpl all c r kvs.length)
        (if cond then loop all else skip)) := by
    by_cases hi : r.ignoreEmpty = some true
    · have hv : kvs ≠ [] := by rcases hne with h | h; exact absurd hi h; exact h
      have : decide (kvs.length > 0) = true := by
        cases kvs <;> simp_all
      unfold mapTpl
      simp only [hi, optB, Option.getD_some, if_true, this, Exec.when]
      rfl
    · have : optB r.ignoreEmpty = false := (optB_false_iff _).2 hi
      unfold mapTpl
      simp only [this, Bool.false_eq_true, if_false]
      rfl
  have hloop : allErrs loop = (E.order kvs).flatMap fun kv =>
      allErrs fun all => mapEntry E S all rec c kt vt r keys values kv := hl.2.1
  rw [hbody, hseq, hcond, List.mem_append, hloop, List.mem_flatMap]
  refine or_congr_right ?_
  simp only [(E.order_perm kvs).mem_iff]

end PGV.Go
