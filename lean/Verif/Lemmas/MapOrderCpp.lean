import Verif.Lemmas.MapOrder

/-!
C++ verdicts do not depend on the order of the entries of maps.
-/

set_option linter.unusedSimpArgs false

namespace PGV.MapOrder
open PGV PGV.Spec
open PGV.Go (resolve elemTypNotNone)

/-! ### C++ -/

namespace Cpp
open PGV.Cpp

variable {P : CEnv} {S : Schema} {rec : Val → Run}

theorem seq_ok {a b : Run} : (a ⊳ b) = .ok () ↔ a = .ok () ∧ b = .ok () := by
  unfold seq
  cases a <;> simp

theorem when_ok {c : Bool} {x : Run} : when c x = .ok () ↔ (c = true → x = .ok ()) := by
  unfold when
  cases c <;> simp

theorem forEach_ok {α : Type} {xs : List α} {k : α → Run} : forEach xs k = .ok () ↔ ∀ x ∈ xs, k x = .ok () := by
  induction xs with
  | nil => simp [forEach]
  | cons x xs ih => simp [forEach, seq_ok, ih]

theorem message_ok {c : Go.Ctx} {m : Option MessageRules} {v : Val} :
    messageTpl rec c m v = .ok () ↔ requiredTpl c (msgRequired m) (!isNull v) = .ok () ∧
      (msgSkip m = false → isNull v = false → rec v = .ok ()) := by
  unfold messageTpl
  rw [seq_ok]
  refine and_congr Iff.rfl ?_
  cases msgSkip m with
  | true => simp
  | false =>
    cases isNull v with
    | true => simp
    | false =>
      cases hr : rec v with
      | ok u => simp
      | error e => cases e <;> simp [failIdx]

theorem elem_big {f : Go.Ctx} {e : ElemT} {rules : FieldRules} {u u' : Val} (h : Big u) (h' : Big u')
    (hk : rec u = .ok () ↔ rec u' = .ok ()) : elemTpl P rec f e rules u = .ok () ↔ elemTpl P rec f e rules u' = .ok () := by
  unfold elemTpl
  cases resolve e rules with
  | none => rfl
  | message m =>
    have n1 : isNull u = false := by rcases big_cases h with ⟨_, _, _, rfl⟩ | ⟨_, rfl⟩ | ⟨_, rfl⟩ <;> rfl
    have n2 : isNull u' = false := by rcases big_cases h' with ⟨_, _, _, rfl⟩ | ⟨_, rfl⟩ | ⟨_, rfl⟩ <;> rfl
    simp only [message_ok, n1, n2, hk]
  | wrapper t m =>
    rcases big_cases h with ⟨_, _, _, rfl⟩ | ⟨_, rfl⟩ | ⟨_, rfl⟩ <;>
    rcases big_cases h' with ⟨_, _, _, rfl⟩ | ⟨_, rfl⟩ | ⟨_, rfl⟩ <;> rfl
  | plain t =>
    rcases big_cases h with ⟨_, _, _, rfl⟩ | ⟨_, rfl⟩ | ⟨_, rfl⟩ <;>
    rcases big_cases h' with ⟨_, _, _, rfl⟩ | ⟨_, rfl⟩ | ⟨_, rfl⟩ <;> cases t <;> rfl

theorem itemEq_big {e : ElemT} {u w : Val} (h : Big u) : itemEq e u w = false ∧ itemEq e w u = false := by
  rcases big_cases h with ⟨_, _, _, rfl⟩ | ⟨_, rfl⟩ | ⟨_, rfl⟩ <;> (constructor <;> (unfold itemEq; split <;> simp_all))

theorem loop_seen {b : Bool} {same : Val → Val → Bool} {c : Go.Ctx} {item : Nat → Val → Run} :
    ∀ {vs s t : List Val} {i : Nat}, (∀ v, s.any (fun w => same w v) = t.any (fun w => same w v)) →
      repLoop b same c item i s vs = repLoop b same c item i t vs
  | [], _, _, _, _ => rfl
  | v :: vs, s, t, i, h => by
    unfold repLoop
    rw [h v, loop_seen (s := if b then v :: s else s) (t := if b then v :: t else t) (vs := vs)]
    intro x
    split <;> simp [h x]

theorem loop_alike {b : Bool} {same : Val → Val → Bool} {c : Go.Ctx} {item item' : Nat → Val → Run}
    (hi : ∀ i v, item i v = .ok () ↔ item' i v = .ok ()) :
    ∀ {vs s : List Val} {i : Nat}, repLoop b same c item i s vs = .ok () ↔ repLoop b same c item' i s vs = .ok ()
  | [], _, _ => Iff.rfl
  | v :: vs, s, i => by
    unfold repLoop
    simp only [seq_ok, hi, loop_alike hi (vs := vs)]

theorem loop_big {b : Bool} {e : ElemT} {c : Go.Ctx} {item : Nat → Val → Run} {u u' : Val} (h : Big u) (h' : Big u')
    (hi : ∀ i, item i u = .ok () ↔ item i u' = .ok ()) :
    ∀ {l r seen : List Val} {i : Nat}, repLoop b (itemEq e) c item i seen (l ++ u :: r) = .ok () ↔
      repLoop b (itemEq e) c item i seen (l ++ u' :: r) = .ok ()
  | [], r, seen, i => by
    show repLoop b (itemEq e) c item i seen (u :: r) = .ok () ↔ repLoop b (itemEq e) c item i seen (u' :: r) = .ok ()
    unfold repLoop
    have any_big : ∀ {x : Val}, Big x → (seen.any fun w => itemEq e w x) = false := fun hx => by simp [(itemEq_big hx).2]
    rw [any_big h, any_big h', loop_seen (s := if b then u :: seen else seen) (t := if b then u' :: seen else seen)]
    · simp only [seq_ok, hi]
    · intro v
      split <;> simp [(itemEq_big h).1, (itemEq_big h').1]
  | v :: l, r, seen, i => by
    show repLoop b (itemEq e) c item i seen (v :: (l ++ u :: r)) = .ok () ↔
      repLoop b (itemEq e) c item i seen (v :: (l ++ u' :: r)) = .ok ()
    unfold repLoop
    simp only [seq_ok, loop_big h h' hi (l := l)]

theorem order_mem (P : CEnv) {kvs : List (Scalar × Val)} {p : Scalar × Val → Prop} :
    (∀ x ∈ P.order kvs, p x) ↔ ∀ x ∈ kvs, p x := by
  simp only [(P.order_perm kvs).mem_iff]

theorem map_ok {c : Go.Ctx} {kt vt : ElemT} {r : MapRules} {keys values : FieldRules}
    {kvs kvs' : List (Scalar × Val)} (hl : kvs.length = kvs'.length)
    (hv : (∀ kv ∈ kvs, mapEntry P rec c kt vt keys values kv = .ok ()) ↔
      ∀ kv ∈ kvs', mapEntry P rec c kt vt keys values kv = .ok ()) :
    mapTpl P rec c kt vt r keys values kvs = .ok () ↔ mapTpl P rec c kt vt r keys values kvs' = .ok () := by
  unfold mapTpl
  simp only [hl]
  split <;> split <;> simp only [seq_ok, when_ok, forEach_ok, order_mem, hv]

theorem compositional (P : CEnv) (S : Schema) (hP : Respects fun v => P.other v = .ok ()) :
    Compositional (fun (i : String) f v => renderField P (checkMessage P S) i f v = .ok ())
      (fun v => checkMessage P S v = .ok ()) where
  plain i f u u' hs hs' h h' hk := by
    unfold renderField
    cases ht : f.typ with
    | one e => exact elem_big h h' hk
    | rep e =>
      rcases big_cases h with ⟨_, _, _, rfl⟩ | ⟨_, rfl⟩ | ⟨_, rfl⟩ <;>
      rcases big_cases h' with ⟨_, _, _, rfl⟩ | ⟨_, rfl⟩ | ⟨_, rfl⟩ <;> simp_all [Sorted]
    | map kt vt =>
      rcases big_cases h with ⟨_, _, _, rfl⟩ | ⟨_, rfl⟩ | ⟨_, rfl⟩ <;>
      rcases big_cases h' with ⟨_, _, _, rfl⟩ | ⟨_, rfl⟩ | ⟨_, rfl⟩ <;> simp_all [Sorted]
  perm i f kt vt kvs kvs' ht hp := by
    unfold renderField
    simp only [ht]
    have key : ∀ {r keys values}, mapTpl P (checkMessage P S) { msg := i, field := f.name } kt vt r keys values kvs = .ok () ↔
        mapTpl P (checkMessage P S) { msg := i, field := f.name } kt vt r keys values kvs' = .ok () :=
      map_ok hp.length_eq (by simp only [hp.mem_iff])
    split
    · exact key
    · split
      · exact key
      · rfl
    · rfl
  entry i f kt vt l k u u' r ht hr hk := by
    obtain ⟨h, h'⟩ := reorder_big hr
    unfold renderField
    simp only [ht]
    have key : ∀ {rr keys values},
        mapTpl P (checkMessage P S) { msg := i, field := f.name } kt vt rr keys values (l ++ (k, u) :: r) = .ok () ↔
        mapTpl P (checkMessage P S) { msg := i, field := f.name } kt vt rr keys values (l ++ (k, u') :: r) = .ok () :=
      map_ok (by simp) (forall_mem_subst (by
        unfold mapEntry
        simp only [seq_ok, elem_big h h' hk]))
    split
    · exact key
    · split
      · exact key
      · rfl
    · rfl
  item i f e l u u' r ht hr hk := by
    obtain ⟨h, h'⟩ := reorder_big hr
    unfold renderField
    simp only [ht]
    have key : ∀ {rr items},
        repTpl P (checkMessage P S) { msg := i, field := f.name } e rr items (l ++ u :: r) = .ok () ↔
        repTpl P (checkMessage P S) { msg := i, field := f.name } e rr items (l ++ u' :: r) = .ok () := by
      intro rr items
      unfold repTpl
      have hl : (l ++ u :: r).length = (l ++ u' :: r).length := by simp
      simp only [hl]
      split <;> split <;> simp only [seq_ok, when_ok] <;>
        first
        | rw [loop_big h h' (fun i => elem_big h h' hk)]
        | skip
    split
    · exact key
    · exact key
    · rfl
  field typ l n u u' r os hr hf := by
    rw [checkMessage_eq, checkMessage_eq]
    unfold checkStep
    dsimp only
    cases S typ with
    | generated d =>
      dsimp only
      split
      · exact hP _ _ (.field hr)
      · unfold validateMsg
        split
        · rfl
        · simp only [seq_ok, forEach_ok]
          refine and_congr ?_ Iff.rfl
          refine forall_congr' fun f => imp_congr Iff.rfl ?_
          rcases getField_subst (l := l) (n := n) (u := u) (u' := u') (r := r) (f := f) with he | ⟨h1, h2⟩
          · rw [he]
          · rw [h1, h2]; exact hf _ _
    | _ => exact hP _ _ (.field hr)
  member typ fs l n m u u' r hr hf := by
    rw [checkMessage_eq, checkMessage_eq]
    unfold checkStep
    dsimp only
    cases S typ with
    | generated d =>
      dsimp only
      split
      · exact hP _ _ (.member hr)
      · unfold validateMsg
        split
        · rfl
        · simp only [seq_ok, forEach_ok]
          refine and_congr Iff.rfl ?_
          refine forall_congr' fun o => imp_congr Iff.rfl ?_
          rcases lookup_subst (l := l) (n := n) (u := (m, u)) (u' := (m, u')) (r := r) (x := o.name) with he | ⟨h1, h2⟩
          · rw [he]
          · rw [h1, h2]
            unfold oneofTpl
            dsimp only
            cases o.fields.find? (fun f => f.name == m) with
            | none => rfl
            | some f => exact hf _ _
    | _ => exact hP _ _ (.member hr)
  other u u' hr hn := by
    have hn' : ∀ typ fs os, u' ≠ .msg typ fs os := fun typ fs os he => (reorder_not_msg hr hn) typ fs os he
    rw [checkMessage_eq, checkMessage_eq]
    have e1 : checkStep P S (checkMessage P S) u = P.other u := by
      cases u <;> first | rfl | exact absurd rfl (hn _ _ _)
    have e2 : checkStep P S (checkMessage P S) u' = P.other u' := by
      cases u' <;> first | rfl | exact absurd rfl (hn' _ _ _)
    rw [e1, e2]
    exact hP _ _ hr

/-- The libraries with another order of iteration. -/
def ordered (P : CEnv) (o : List (Scalar × Val) → List (Scalar × Val)) (ho : ∀ l, (o l).Perm l) : CEnv :=
  { P with order := o, order_perm := ho }

theorem elem_ordered {o ho} {rec' : Val → Run} (hr : ∀ v, rec v = .ok () ↔ rec' v = .ok ()) {f : Go.Ctx} {e : ElemT}
    {rules : FieldRules} {v : Val} :
    elemTpl (ordered P o ho) rec f e rules v = .ok () ↔ elemTpl P rec' f e rules v = .ok () := by
  unfold elemTpl
  cases resolve e rules with
  | message m => simp only [message_ok, hr]
  | _ => rfl

theorem field_ordered {o ho} {rec' : Val → Run} (hr : ∀ v, rec v = .ok () ↔ rec' v = .ok ()) {i : String} {f : FieldDesc}
    {v : Val} : renderField (ordered P o ho) rec i f v = .ok () ↔ renderField P rec' i f v = .ok () := by
  have hm : ∀ {c : Go.Ctx} {kt vt : ElemT} {r : MapRules} {keys values : FieldRules} {kvs : List (Scalar × Val)},
      mapTpl (ordered P o ho) rec c kt vt r keys values kvs = .ok () ↔ mapTpl P rec' c kt vt r keys values kvs = .ok () := by
    intro c kt vt r keys values kvs
    unfold mapTpl
    have he : ∀ kv, mapEntry (ordered P o ho) rec c kt vt keys values kv = .ok () ↔
        mapEntry P rec' c kt vt keys values kv = .ok () := by
      intro kv
      unfold mapEntry
      have hk : ∀ c k, keyTpl (ordered P o ho) c kt keys k = keyTpl P c kt keys k := fun _ _ => rfl
      simp only [seq_ok, elem_ordered hr, hk]
    split <;> split <;> simp only [seq_ok, when_ok, forEach_ok, order_mem, he]
  have hl : ∀ {c : Go.Ctx} {e : ElemT} {r : RepeatedRules} {items : FieldRules} {vs : List Val},
      repTpl (ordered P o ho) rec c e r items vs = .ok () ↔ repTpl P rec' c e r items vs = .ok () := by
    intro c e r items vs
    unfold repTpl
    split <;> split <;> simp only [seq_ok, when_ok] <;>
      first
      | rw [loop_alike (fun i v => elem_ordered hr)]
      | skip
  unfold renderField
  split
  · exact elem_ordered hr
  · split
    · exact hl
    · exact hl
    · rfl
  · split
    · exact hm
    · split
      · exact hm
      · rfl
    · rfl
  · rfl

theorem fuel_ordered {o ho} : ∀ (n : Nat) (v : Val), checkFuel (ordered P o ho) S n v = .ok () ↔ checkFuel P S n v = .ok ()
  | 0, _ => Iff.rfl
  | n + 1, v => by
    have hf : ∀ {i : String} {f : FieldDesc} {v : Val},
        renderField (ordered P o ho) (checkFuel (ordered P o ho) S n) i f v = .ok () ↔
        renderField P (checkFuel P S n) i f v = .ok () := field_ordered (fuel_ordered n)
    simp only [checkFuel]
    unfold checkStep
    split
    · split
      · split
        · rfl
        · unfold validateMsg
          split
          · rfl
          · simp only [seq_ok, forEach_ok, hf]
            refine and_congr Iff.rfl (forall_congr' fun oo => imp_congr Iff.rfl ?_)
            unfold oneofTpl
            split
            · split
              · exact hf
              · rfl
            · rfl
      · rfl
    · rfl

theorem verdict (P : CEnv) (S : Schema) (hP : Respects fun v => P.other v = .ok ()) (o ho) {v w : Val} (h : Reorder v w) :
    checkMessage (ordered P o ho) S v = .ok () ↔ checkMessage P S w = .ok () :=
  (fuel_ordered _ v).trans ((compositional P S hP).verdict h).2

end Cpp

end PGV.MapOrder
