import Verif.Spec.MapOrder
import Verif.Spec.Rules
import Verif.Lemmas.Fix
import Verif.Lemmas.JavaMsg
import Verif.Lemmas.CppMsg
import Verif.Lemmas.CppErr
import Verif.Lemmas.PyMsg
import Verif.Lemmas.PyKnot

/-!
Verdicts do not depend on the order of the entries of maps.
-/

set_option linter.unusedSimpArgs false

namespace PGV.MapOrder
open PGV PGV.Spec
open PGV.Go (resolve elemTypNotNone)

/-- Messages, lists and maps: where entries of maps can be. -/
def Big : Val → Prop
  | .msg _ _ _ | .list _ | .map _ => True
  | _ => False

/-- The value is of the sort of the field: a list for a list, a map for a map. -/
def Sorted (f : FieldDesc) (v : Val) : Prop :=
  match f.typ, v with
  | .rep _, .list _ => True
  | .map _ _, .map _ => True
  | _, _ => False

theorem reorder_big {u u' : Val} (h : Reorder u u') : Big u ∧ Big u' := by
  induction h with
  | trans _ _ h1 h2 => exact ⟨h1.1, h2.2⟩
  | _ => exact ⟨trivial, trivial⟩

theorem lookup_subst {α β : Type} [BEq α] {l r : List (α × β)} {n x : α} {u u' : β} :
    (l ++ (n, u) :: r).lookup x = (l ++ (n, u') :: r).lookup x ∨
    ((l ++ (n, u) :: r).lookup x = some u ∧ (l ++ (n, u') :: r).lookup x = some u') := by
  induction l with
  | nil =>
    simp only [List.nil_append, List.lookup]
    cases x == n with
    | true => exact .inr ⟨rfl, rfl⟩
    | false => exact .inl rfl
  | cons p l ih =>
    obtain ⟨a, b⟩ := p
    simp only [List.cons_append, List.lookup]
    cases x == a with
    | true => exact .inl rfl
    | false => exact ih

theorem getField_subst {l r : List (String × Val)} {n : String} {u u' : Val} {f : FieldDesc} :
    getField (l ++ (n, u) :: r) f = getField (l ++ (n, u') :: r) f ∨
    (getField (l ++ (n, u) :: r) f = u ∧ getField (l ++ (n, u') :: r) f = u') := by
  unfold getField
  rcases lookup_subst (l := l) (r := r) (n := n) (x := f.name) (u := u) (u' := u') with h | ⟨h1, h2⟩
  · exact .inl (by rw [h])
  · exact .inr (by rw [h1, h2]; exact ⟨rfl, rfl⟩)

/-- What is needed of a validator: `F` tells which values a field accepts, `K` which messages are. -/
structure Compositional {ι : Type} (F : ι → FieldDesc → Val → Prop) (K : Val → Prop) : Prop where
  plain : ∀ i f u u', ¬ Sorted f u → ¬ Sorted f u' → Big u → Big u' → (K u ↔ K u') → (F i f u ↔ F i f u')
  perm : ∀ i f kt vt kvs kvs', f.typ = .map kt vt → kvs.Perm kvs' → (F i f (.map kvs) ↔ F i f (.map kvs'))
  entry : ∀ i f kt vt l k u u' r, f.typ = .map kt vt → Reorder u u' → (K u ↔ K u') →
    (F i f (.map (l ++ (k, u) :: r)) ↔ F i f (.map (l ++ (k, u') :: r)))
  item : ∀ i f e l u u' r, f.typ = .rep e → Reorder u u' → (K u ↔ K u') →
    (F i f (.list (l ++ u :: r)) ↔ F i f (.list (l ++ u' :: r)))
  field : ∀ typ l n u u' r os, Reorder u u' → (∀ i f, F i f u ↔ F i f u') →
    (K (.msg typ (l ++ (n, u) :: r) os) ↔ K (.msg typ (l ++ (n, u') :: r) os))
  member : ∀ typ fs l n m u u' r, Reorder u u' → (∀ i f, F i f u ↔ F i f u') →
    (K (.msg typ fs (l ++ (n, m, u) :: r)) ↔ K (.msg typ fs (l ++ (n, m, u') :: r)))
  other : ∀ u u', Reorder u u' → (∀ typ fs os, u ≠ .msg typ fs os) → (K u ↔ K u')

theorem Compositional.verdict {ι : Type} {F : ι → FieldDesc → Val → Prop} {K : Val → Prop}
    (C : Compositional F K) {u u' : Val} (h : Reorder u u') : (∀ i f, F i f u ↔ F i f u') ∧ (K u ↔ K u') := by
  induction h with
  | @map kvs kvs' hp =>
    have hK := C.other _ _ (.map hp) (by simp)
    refine ⟨fun i f => ?_, hK⟩
    cases ht : f.typ with
    | map kt vt => exact C.perm i f kt vt _ _ ht hp
    | _ => exact C.plain i f _ _ (by simp [Sorted, ht]) (by simp [Sorted, ht]) trivial trivial hK
  | @entry l k u u' r hu ih =>
    have hK := C.other _ _ (.entry (l := l) (k := k) (r := r) hu) (by simp)
    refine ⟨fun i f => ?_, hK⟩
    cases ht : f.typ with
    | map kt vt => exact C.entry i f kt vt _ _ _ _ _ ht hu ih.2
    | _ => exact C.plain i f _ _ (by simp [Sorted, ht]) (by simp [Sorted, ht]) trivial trivial hK
  | @item l u u' r hu ih =>
    have hK := C.other _ _ (.item (l := l) (r := r) hu) (by simp)
    refine ⟨fun i f => ?_, hK⟩
    cases ht : f.typ with
    | rep e => exact C.item i f e _ _ _ _ ht hu ih.2
    | _ => exact C.plain i f _ _ (by simp [Sorted, ht]) (by simp [Sorted, ht]) trivial trivial hK
  | @field typ l n u u' r os hu ih =>
    have hK := C.field typ l n u u' r os hu ih.1
    refine ⟨fun i f => C.plain i f _ _ ?_ ?_ trivial trivial hK, hK⟩ <;>
      (unfold Sorted; cases f.typ <;> simp)
  | @member typ fs l n m u u' r hu ih =>
    have hK := C.member typ fs l n m u u' r hu ih.1
    refine ⟨fun i f => C.plain i f _ _ ?_ ?_ trivial trivial hK, hK⟩ <;>
      (unfold Sorted; cases f.typ <;> simp)
  | trans _ _ ih1 ih2 => exact ⟨fun i f => (ih1.1 i f).trans (ih2.1 i f), ih1.2.trans ih2.2⟩

theorem big_cases {u : Val} (h : Big u) : (∃ t fs os, u = .msg t fs os) ∨ (∃ vs, u = .list vs) ∨ ∃ kvs, u = .map kvs := by
  cases u with
  | msg t fs os => exact .inl ⟨_, _, _, rfl⟩
  | list vs => exact .inr (.inl ⟨_, rfl⟩)
  | map kvs => exact .inr (.inr ⟨_, rfl⟩)
  | _ => cases h

theorem reorder_not_msg {u u' : Val} (h : Reorder u u') :
    (∀ typ fs os, u ≠ .msg typ fs os) → ∀ typ fs os, u' ≠ .msg typ fs os := by
  induction h with
  | trans _ _ h1 h2 => exact fun h => h2 (h1 h)
  | field => exact fun h => absurd rfl (h _ _ _)
  | member => exact fun h => absurd rfl (h _ _ _)
  | _ => simp

theorem forall_mem_subst {α : Type} {p : α → Prop} {l r : List α} {a b : α} (h : p a ↔ p b) :
    (∀ x ∈ l ++ a :: r, p x) ↔ ∀ x ∈ l ++ b :: r, p x := by
  simp only [List.mem_append, List.mem_cons]
  constructor <;> intro hh x hx
  · rcases hx with hx | rfl | hx
    · exact hh x (.inl hx)
    · exact h.1 (hh a (.inr (.inl rfl)))
    · exact hh x (.inr (.inr hx))
  · rcases hx with hx | rfl | hx
    · exact hh x (.inl hx)
    · exact h.2 (hh b (.inr (.inl rfl)))
    · exact hh x (.inr (.inr hx))

/-! ### Java -/

namespace Java
open PGV.Java

variable {J : JEnv} {S : Schema} {rec : Val → Run}

theorem elem_big {f : String} {e : ElemT} {rules : FieldRules} {u u' : Val} (h : Big u) (h' : Big u')
    (hk : rec u = .ok () ↔ rec u' = .ok ()) : elemTpl J rec f e rules u = .ok () ↔ elemTpl J rec f e rules u' = .ok () := by
  unfold elemTpl
  cases resolve e rules with
  | none => rfl
  | message m =>
    have n1 : isNull u = false := by rcases big_cases h with ⟨_, _, _, rfl⟩ | ⟨_, rfl⟩ | ⟨_, rfl⟩ <;> rfl
    have n2 : isNull u' = false := by rcases big_cases h' with ⟨_, _, _, rfl⟩ | ⟨_, rfl⟩ | ⟨_, rfl⟩ <;> rfl
    simp only [messageTpl, n1, n2]
    split
    · rfl
    · simp only [seq_ok, when_ok, hk]
  | wrapper t m =>
    rcases big_cases h with ⟨_, _, _, rfl⟩ | ⟨_, rfl⟩ | ⟨_, rfl⟩ <;>
    rcases big_cases h' with ⟨_, _, _, rfl⟩ | ⟨_, rfl⟩ | ⟨_, rfl⟩ <;> rfl
  | plain t =>
    rcases big_cases h with ⟨_, _, _, rfl⟩ | ⟨_, rfl⟩ | ⟨_, rfl⟩ <;>
    rcases big_cases h' with ⟨_, _, _, rfl⟩ | ⟨_, rfl⟩ | ⟨_, rfl⟩ <;> cases t <;> rfl

theorem itemEq_big {e : ElemT} {u w : Val} (h : Big u) : itemEq e u w = false ∧ itemEq e w u = false := by
  rcases big_cases h with ⟨_, _, _, rfl⟩ | ⟨_, rfl⟩ | ⟨_, rfl⟩ <;> (constructor <;> (unfold itemEq; split <;> simp_all))

theorem unique_seen_any {α : Type} {f : String} {eq : α → α → Bool} :
    ∀ {vs s t : List α}, (∀ v, s.any (fun w => eq v w) = t.any (fun w => eq v w)) → unique f eq vs s = unique f eq vs t
  | [], _, _, _ => rfl
  | v :: vs, s, t, h => by
    unfold unique
    rw [h v]
    split
    · rfl
    · exact unique_seen_any (vs := vs) (fun x => by simp [h x])

theorem unique_big {f : String} {e : ElemT} {u u' : Val} (h : Big u) (h' : Big u') :
    ∀ {l r seen : List Val}, unique f (itemEq e) (l ++ u :: r) seen = unique f (itemEq e) (l ++ u' :: r) seen
  | [], r, seen => by
    show unique f (itemEq e) (u :: r) seen = unique f (itemEq e) (u' :: r) seen
    unfold unique
    have any_big : ∀ {x : Val}, Big x → (seen.any fun w => itemEq e x w) = false := fun hx => by simp [(itemEq_big hx).1]
    rw [any_big h, any_big h', if_neg Bool.false_ne_true, if_neg Bool.false_ne_true]
    exact unique_seen_any (fun v => by simp [(itemEq_big h).2, (itemEq_big h').2])
  | v :: l, r, seen => by
    show unique f (itemEq e) (v :: (l ++ u :: r)) seen = unique f (itemEq e) (v :: (l ++ u' :: r)) seen
    unfold unique
    rw [unique_big h h' (l := l)]

theorem order_mem (J : JEnv) {kvs : List (Scalar × Val)} {p : Scalar × Val → Prop} :
    (∀ x ∈ J.order kvs, p x) ↔ ∀ x ∈ kvs, p x := by
  simp only [(J.order_perm kvs).mem_iff]

theorem map_ok {f : String} {kt vt : ElemT} {r : MapRules} {keys values : FieldRules}
    {kvs kvs' : List (Scalar × Val)} (hl : kvs.length = kvs'.length)
    (hk : (∀ kv ∈ kvs, keyTpl J f kt keys kv.1 = .ok ()) ↔ ∀ kv ∈ kvs', keyTpl J f kt keys kv.1 = .ok ())
    (hv : (∀ kv ∈ kvs, elemTpl J rec f vt values kv.2 = .ok ()) ↔ ∀ kv ∈ kvs', elemTpl J rec f vt values kv.2 = .ok ()) :
    mapTpl J rec f kt vt r keys values kvs = .ok () ↔ mapTpl J rec f kt vt r keys values kvs' = .ok () := by
  have he : kvs.isEmpty = kvs'.isEmpty := by
    cases kvs <;> cases kvs' <;> simp_all
  unfold mapTpl
  simp only [hl, he]
  split <;> simp only [seq_ok, when_ok, forEach_ok, order_mem, hk, hv]

theorem compositional (J : JEnv) (S : Schema) (hJ : Respects fun v => J.other v = .ok ()) :
    Compositional (fun (i : String) f v => renderField J (assertValid J S) i f v = .ok ())
      (fun v => assertValid J S v = .ok ()) where
  plain i f u u' hs hs' h h' hk := by
    unfold renderField
    cases ht : f.typ with
    | one e => exact elem_big h h' hk
    | rep e =>
      rcases big_cases h with ⟨_, _, _, rfl⟩ | ⟨_, rfl⟩ | ⟨_, rfl⟩ <;>
      rcases big_cases h' with ⟨_, _, _, rfl⟩ | ⟨_, rfl⟩ | ⟨_, rfl⟩ <;> simp_all [Sorted]
    | map kt vt =>
      rcases big_cases h with ⟨_, _, _, rfl⟩ | ⟨_, rfl⟩ | ⟨_, rfl⟩ <;>
      rcases big_cases h' with ⟨_, _, _, rfl⟩ | ⟨_, rfl⟩ | ⟨_, rfl⟩ <;> simp_all [Sorted]
  perm i f kt vt kvs kvs' ht hp := by
    unfold renderField
    simp only [ht]
    have key : ∀ {r keys values}, mapTpl J (assertValid J S) (fullyQualified i f.name) kt vt r keys values kvs = .ok () ↔
        mapTpl J (assertValid J S) (fullyQualified i f.name) kt vt r keys values kvs' = .ok () :=
      map_ok hp.length_eq (by simp only [hp.mem_iff]) (by simp only [hp.mem_iff])
    split
    · exact key
    · split
      · exact key
      · rfl
    · rfl
  entry i f kt vt l k u u' r ht hr hk := by
    obtain ⟨h, h'⟩ := reorder_big hr
    unfold renderField
    simp only [ht]
    have key : ∀ {rr keys values},
        mapTpl J (assertValid J S) (fullyQualified i f.name) kt vt rr keys values (l ++ (k, u) :: r) = .ok () ↔
        mapTpl J (assertValid J S) (fullyQualified i f.name) kt vt rr keys values (l ++ (k, u') :: r) = .ok () :=
      map_ok (by simp) (forall_mem_subst (p := fun kv : Scalar × Val => keyTpl J _ _ _ kv.1 = .ok ()) Iff.rfl)
        (forall_mem_subst (p := fun kv : Scalar × Val => elemTpl J _ _ _ _ kv.2 = .ok ()) (elem_big h h' hk))
    split
    · exact key
    · split
      · exact key
      · rfl
    · rfl
  item i f e l u u' r ht hr hk := by
    obtain ⟨h, h'⟩ := reorder_big hr
    unfold renderField
    simp only [ht]
    have key : ∀ {rr items},
        repeatedTpl J (assertValid J S) (fullyQualified i f.name) e rr items (l ++ u :: r) = .ok () ↔
        repeatedTpl J (assertValid J S) (fullyQualified i f.name) e rr items (l ++ u' :: r) = .ok () := by
      intro rr items
      unfold repeatedTpl
      have hl : (l ++ u :: r).length = (l ++ u' :: r).length := by simp
      have he : (l ++ u :: r).isEmpty = (l ++ u' :: r).isEmpty := by cases l <;> rfl
      simp only [hl, he, unique_big h h']
      have hf := forall_mem_subst (l := l) (r := r) (p := fun v => elemTpl J (assertValid J S) (fullyQualified i f.name) e items v = .ok ())
        (elem_big (J := J) (f := fullyQualified i f.name) (e := e) (rules := items) h h' hk)
      split <;> simp only [seq_ok, when_ok, forEach_ok, hf]
    split
    · exact key
    · exact key
    · rfl
  field typ l n u u' r os hr hf := by
    rw [assertValid_eq, assertValid_eq]
    unfold assertStep
    dsimp only
    cases S typ with
    | generated d =>
      dsimp only
      split
      · exact hJ _ _ (.field hr)
      · split
        · rfl
        · simp only [seq_ok, forEach_ok]
          refine and_congr ?_ Iff.rfl
          refine forall_congr' fun f => imp_congr Iff.rfl ?_
          rcases getField_subst (l := l) (n := n) (u := u) (u' := u') (r := r) (f := f) with he | ⟨h1, h2⟩
          · rw [he]
          · rw [h1, h2]; exact hf _ _
    | _ => exact hJ _ _ (.field hr)
  member typ fs l n m u u' r hr hf := by
    rw [assertValid_eq, assertValid_eq]
    unfold assertStep
    dsimp only
    cases S typ with
    | generated d =>
      dsimp only
      split
      · exact hJ _ _ (.member hr)
      · split
        · rfl
        · simp only [seq_ok, forEach_ok]
          refine and_congr Iff.rfl ?_
          refine forall_congr' fun o => imp_congr Iff.rfl ?_
          rcases lookup_subst (l := l) (n := n) (u := (m, u)) (u' := (m, u')) (r := r) (x := o.name) with he | ⟨h1, h2⟩
          · rw [he]
          · rw [h1, h2]
            unfold oneofTpl
            dsimp only
            cases o.fields.find? (fun f => f.name == m) with
            | none => rfl
            | some f => exact hf _ _
    | _ => exact hJ _ _ (.member hr)
  other u u' hr hn := by
    have hn' : ∀ typ fs os, u' ≠ .msg typ fs os := fun typ fs os he => (reorder_not_msg hr hn) typ fs os he
    rw [assertValid_eq, assertValid_eq]
    have e1 : assertStep J S (assertValid J S) u = J.other u := by
      cases u <;> first | rfl | exact absurd rfl (hn _ _ _)
    have e2 : assertStep J S (assertValid J S) u' = J.other u' := by
      cases u' <;> first | rfl | exact absurd rfl (hn' _ _ _)
    rw [e1, e2]
    exact hJ _ _ hr

/-- The libraries with another order of iteration. -/
def ordered (J : JEnv) (o : List (Scalar × Val) → List (Scalar × Val)) (ho : ∀ l, (o l).Perm l) : JEnv :=
  { J with order := o, order_perm := ho }

theorem elem_ordered {o ho} {rec' : Val → Run} (hr : ∀ v, rec v = .ok () ↔ rec' v = .ok ()) {f : String} {e : ElemT}
    {rules : FieldRules} {v : Val} :
    elemTpl (ordered J o ho) rec f e rules v = .ok () ↔ elemTpl J rec' f e rules v = .ok () := by
  unfold elemTpl
  cases resolve e rules with
  | message m =>
    simp only [messageTpl]
    split
    · rfl
    · simp only [seq_ok, when_ok, hr]
  | _ => rfl

theorem field_ordered {o ho} {rec' : Val → Run} (hr : ∀ v, rec v = .ok () ↔ rec' v = .ok ()) {i : String} {f : FieldDesc}
    {v : Val} : renderField (ordered J o ho) rec i f v = .ok () ↔ renderField J rec' i f v = .ok () := by
  have hm : ∀ {f : String} {kt vt : ElemT} {r : MapRules} {keys values : FieldRules} {kvs : List (Scalar × Val)},
      mapTpl (ordered J o ho) rec f kt vt r keys values kvs = .ok () ↔ mapTpl J rec' f kt vt r keys values kvs = .ok () := by
    intro f kt vt r keys values kvs
    unfold mapTpl
    have hk : ∀ k, keyTpl (ordered J o ho) f kt keys k = keyTpl J f kt keys k := fun _ => rfl
    split <;> simp only [seq_ok, when_ok, forEach_ok, order_mem, elem_ordered hr, hk]
  have hl : ∀ {f : String} {e : ElemT} {r : RepeatedRules} {items : FieldRules} {vs : List Val},
      repeatedTpl (ordered J o ho) rec f e r items vs = .ok () ↔ repeatedTpl J rec' f e r items vs = .ok () := by
    intro f e r items vs
    unfold repeatedTpl
    split <;> simp only [seq_ok, when_ok, forEach_ok, elem_ordered hr]
  unfold renderField
  split
  · exact elem_ordered hr
  · split
    · exact hl
    · exact hl
    · rfl
  · split
    · exact hm
    · split
      · exact hm
      · rfl
    · rfl
  · rfl

theorem fuel_ordered {o ho} : ∀ (n : Nat) (v : Val), assertFuel (ordered J o ho) S n v = .ok () ↔ assertFuel J S n v = .ok ()
  | 0, _ => Iff.rfl
  | n + 1, v => by
    have hf : ∀ {i : String} {f : FieldDesc} {v : Val},
        renderField (ordered J o ho) (assertFuel (ordered J o ho) S n) i f v = .ok () ↔
        renderField J (assertFuel J S n) i f v = .ok () := field_ordered (fuel_ordered n)
    simp only [assertFuel]
    unfold assertStep
    split
    · split
      · split
        · rfl
        · split
          · rfl
          · simp only [seq_ok, forEach_ok, hf]
            refine and_congr Iff.rfl (forall_congr' fun oo => imp_congr Iff.rfl ?_)
            unfold oneofTpl
            split
            · split
              · exact hf
              · rfl
            · rfl
      · rfl
    · rfl

theorem verdict (J : JEnv) (S : Schema) (hJ : Respects fun v => J.other v = .ok ()) (o ho) {v w : Val} (h : Reorder v w) :
    assertValid (ordered J o ho) S v = .ok () ↔ assertValid J S w = .ok () :=
  (fuel_ordered _ v).trans ((compositional J S hJ).verdict h).2

end Java

end PGV.MapOrder
