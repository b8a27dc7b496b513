import Verif.Lemmas.Shuffle
import Verif.Props.Fixtures
import Verif.Lemmas.GenFails

/-!
C21 (repeated rules) and C22 (map rules).
-/

set_option linter.unusedSimpArgs false

namespace PGV.Props
open PGV PGV.Go PGV.Spec PGV.Checker

theorem accepts_value {E : Env} {S : Schema} {typ : String} {f : FieldDesc} (h : OnlyField S typ f)
    {e : ElemT} (hT : f.typ = .one e) (v : Val) :
    Accepts E S typ f v ↔ ValueOk E S (fun w => validate E S false w = none) e f.rules v := by
  rw [accepts_iff h]
  unfold FieldOk
  rw [hT]

theorem valueOk_sc {E : Env} {S : Schema} {ok : Val → Prop} {e : ElemT} (he : e.isEmbed = false)
    (rules : FieldRules) (s : Scalar) :
    ValueOk E S ok e rules (.sc s) ↔ ScalarOk E e rules.type s := by
  unfold ValueOk
  cases ht : rules.type <;> simp [he, ScalarOk]

/-! ### C21 -/

/-- **C21** A repeated field is accepted exactly when (it is empty and `ignore_empty` is set, or) its
length is within the limits, `unique` implies that no two elements are equal, and every element
would be accepted as the value of a singular field `fi` of the element type with the item rules. -/
theorem C21_accepts (E : Env) (S : Schema) (typ ti : String) (f fi : FieldDesc)
    (h : OnlyField S typ f) (hi : OnlyField S ti fi) (m : Option MessageRules) (e : ElemT)
    (r : RepeatedRules) (hT : f.typ = .rep e) (hr : f.rules = .mk m (.repeated r fi.rules))
    (hTi : fi.typ = .one e) (vs : List Val) :
    Accepts E S typ f (.list vs) ↔
      (r.ignoreEmpty = some true ∧ vs = []) ∨
      ((∀ k, r.minItems = some k → k ≤ vs.length) ∧ (∀ k, r.maxItems = some k → vs.length ≤ k) ∧
       (r.unique = some true →
          ∀ (i j : Nat) (a b : Val), vs[i]? = some a → vs[j]? = some b → i < j → ¬ SameItem a b) ∧
       ∀ v ∈ vs, Accepts E S ti fi v) := by
  rw [accepts_iff h]
  unfold FieldOk
  rw [hT, hr]
  simp only [FieldRules.type, RepeatedOk, CountOk, accepts_value hi hTi, and_assoc]
  have : (vs.Pairwise fun a b => ¬ SameItem a b) ↔
      ∀ (i j : Nat) (a b : Val), vs[i]? = some a → vs[j]? = some b → i < j → ¬ SameItem a b := by
    rw [List.pairwise_iff_getElem]
    constructor
    · intro hp i j a b ha hb hij
      obtain ⟨hi', rfl⟩ := List.getElem?_eq_some_iff.1 ha
      obtain ⟨hj', rfl⟩ := List.getElem?_eq_some_iff.1 hb
      exact hp i j hi' hj' hij
    · intro hp i j hi' hj' hij
      exact hp i j _ _ (List.getElem?_eq_getElem hi') (List.getElem?_eq_getElem hj') hij
  rw [this]

/-- What is wrong with element `i` of a list: it violates the item rules (as a singular field `fi`
would), or `unique` is set and an earlier element equals it. -/
def BadItem (E : Env) (S : Schema) (ti : String) (fi : FieldDesc) (r : RepeatedRules)
    (vs : List Val) (i : Nat) : Prop :=
  ∃ v, vs[i]? = some v ∧ (¬ Accepts E S ti fi v ∨
    (r.unique = some true ∧ ∃ j w, j < i ∧ vs[j]? = some w ∧ SameItem w v))

/-- **C21** The errors of a repeated field carry the index of the offending element: there is an error
with index `i` exactly when element `i` is bad, and an error without index exactly when the number of items
is wrong. `hg` says that the generator writes code for the field at all, see `C21_wrapper_items_fail`. -/
theorem C21_index (E : Env) (S : Schema) (typ ti : String) (f fi : FieldDesc)
    (h : OnlyField S typ f) (hi : OnlyField S ti fi) (m : Option MessageRules) (e : ElemT)
    (r : RepeatedRules) (hT : f.typ = .rep e) (hr : f.rules = .mk m (.repeated r fi.rules))
    (hTi : fi.typ = .one e) (hg : renderFails f = false) (vs : List Val)
    (hne : r.ignoreEmpty ≠ some true ∨ vs ≠ []) :
    (∀ i, (∃ x ∈ errorsFor E S typ f (.list vs), indexOf x = some (.pos i)) ↔
      BadItem E S ti fi r vs i) ∧
    ((∃ x ∈ errorsFor E S typ f (.list vs), indexOf x = none) ↔
      ¬ ((∀ k, r.minItems = some k → k ≤ vs.length) ∧ (∀ k, r.maxItems = some k → vs.length ≤ k))) ∧
    (∀ x ∈ errorsFor E S typ f (.list vs),
      fieldOf x = some f.name ∧ (indexOf x = none ∨ ∃ i, indexOf x = some (.pos i))) := by
  have hw : ¬ (e.isEmbed = true ∧ WrapperKind fi.rules.type) := by
    rw [← elemFails_kind]
    unfold renderFails at hg
    rw [hT, hr] at hg
    simpa [FieldRules.type] using hg
  obtain ⟨d, hS, hd, hf, ho⟩ := h
  have hrec := validate_recOk E S
  let c : Ctx := { msg := d.name, field := f.name }
  have heq : errorsFor E S typ f (.list vs) =
      allErrs (fun all => repTpl E S all (validate E S) c e r fi.rules vs) := by
    rw [errorsFor_eq hS hd hf ho]
    congr 1
    funext all; unfold renderField; rw [hT, hr]; rfl
  have hmem := rep_mem E S (validate E S) hrec c e r fi.rules vs hne
  rw [← heq] at hmem
  have hlen := repLen_ok c r vs.length
  have helem : ∀ i v, Ok (From { c with index := some (.pos i) })
      (fun all => elemTpl E S all (validate E S) { c with index := some (.pos i) } e fi.rules v)
      (Accepts E S ti fi v) := fun i v => by
    have h1 := elem_ok E S (validate E S) hrec { c with index := some (.pos i) } e fi.rules v
    exact ⟨h1.all, h1.fast, h1.agree, h1.spec.trans (accepts_value hi hTi v).symm,
      Raises.allErrs (elem_from E S true (validate E S) _ e fi.rules v hw)⟩
  have hcases : ∀ x ∈ errorsFor E S typ f (.list vs),
      (∃ rs cs, x = .viol d.name ⟨f.name, none⟩ rs cs false) ∧
        x ∈ allErrs (fun all => repLenTpl all c r vs.length) ∨
      ∃ i, (∃ rs cs, x = .viol d.name ⟨f.name, some (.pos i)⟩ rs cs false) ∧
        BadItem E S ti fi r vs i := by
    intro x hx
    rcases (hmem x).1 hx with h | ⟨i, v, hv, ⟨h1, h2, h3⟩ | h⟩
    · exact .inl ⟨hlen.shape x h, h⟩
    · refine .inr ⟨i, ⟨_, _, h3⟩, v, hv, .inr ⟨h1, h2⟩⟩
    · refine .inr ⟨i, (helem i v).shape x h, v, hv, .inl ?_⟩
      rw [← (helem i v).specAll]
      intro hn; rw [hn] at h; simp at h
  refine ⟨fun i => ⟨?_, ?_⟩, ⟨?_, ?_⟩, ?_⟩
  · rintro ⟨x, hx, hidx⟩
    rcases hcases x hx with ⟨⟨rs, cs, rfl⟩, -⟩ | ⟨j, ⟨rs, cs, rfl⟩, hb⟩
    · simp [indexOf] at hidx
    · simp [indexOf] at hidx; subst hidx; exact hb
  · rintro ⟨v, hv, hb⟩
    rcases hb with hb | ⟨h1, h2⟩
    · rw [← (helem i v).specAll] at hb
      obtain ⟨x, l, hx⟩ := List.exists_cons_of_ne_nil hb
      have hx' : x ∈ allErrs (fun all => elemTpl E S all (validate E S)
          { c with index := some (.pos i) } e fi.rules v) := by rw [hx]; simp
      obtain ⟨rs, cs, hxe⟩ := (helem i v).shape x hx'
      exact ⟨x, (hmem x).2 (.inr ⟨i, v, hv, .inr hx'⟩), by rw [hxe]; rfl⟩
    · exact ⟨_, (hmem _).2 (.inr ⟨i, v, hv, .inl ⟨h1, h2, rfl⟩⟩), rfl⟩
  · rintro ⟨x, hx, hidx⟩
    rcases hcases x hx with ⟨-, hm⟩ | ⟨j, ⟨rs, cs, rfl⟩, -⟩
    · intro hok
      rw [hlen.specAll.2 hok] at hm; simp at hm
    · simp [indexOf] at hidx
  · intro hbad
    have hb : allErrs (fun all => repLenTpl all c r vs.length) ≠ [] := fun h => hbad (hlen.specAll.1 h)
    obtain ⟨x, l, hx⟩ := List.exists_cons_of_ne_nil hb
    have hx' : x ∈ allErrs (fun all => repLenTpl all c r vs.length) := by rw [hx]; simp
    obtain ⟨rs, cs, hxe⟩ := hlen.shape x hx'
    exact ⟨x, (hmem x).2 (.inl hx'), by rw [hxe]; rfl⟩
  · intro x hx
    rcases hcases x hx with ⟨⟨rs, cs, rfl⟩, -⟩ | ⟨j, ⟨rs, cs, rfl⟩, -⟩
    · exact ⟨rfl, .inl rfl⟩
    · exact ⟨rfl, .inr ⟨j, rfl⟩⟩

/-- A repeated int32 field, unique, with at most three positive items. -/
def scores : FieldDesc :=
  { name := "Scores", typ := .rep (.scalar .int32),
    rules := .mk none (.repeated { maxItems := some 3, unique := some true }
      (.mk none (.num .int32 { gt := some (.int 0) }))) }

/-- The singular field with the item rules of `scores`. -/
def score : FieldDesc :=
  { name := "X", typ := .one (.scalar .int32),
    rules := .mk none (.num .int32 { gt := some (.int 0) }) }

/-- A schema with both. -/
def scoreSchema : Schema := fun n =>
  if n = "L" then .generated { name := "L", fields := [scores] }
  else .generated { name := "I", fields := [score] }

/-- C21's hypotheses are met; the third element repeats the first one and the second one is not
positive. -/
example : OnlyField scoreSchema "L" scores ∧ OnlyField scoreSchema "I" score ∧ Checked scores ∧
    renderFails scores = false ∧
    scores.rules = .mk none (.repeated { maxItems := some 3, unique := some true } score.rules) ∧
    (errorsFor Fixtures.env scoreSchema "L" scores
      (.list [.sc (.num (.int 1)), .sc (.num (.int 0)), .sc (.num (.int 1))])).map indexOf =
      [some (.pos 1), some (.pos 2)] := by
  refine ⟨⟨_, rfl, rfl, rfl, rfl⟩, ⟨_, rfl, rfl, rfl, rfl⟩, by unfold Checked; decide, rfl, rfl, ?_⟩
  decide

/-- A repeated `google.protobuf.StringValue` field with a rule on the items. -/
def tags : FieldDesc :=
  { name := "Tags", typ := .rep (.embed "google.protobuf.StringValue" (some .stringValue)),
    rules := .mk none (.repeated {} (.mk none (.string { len := some 1 }))) }

/-- **C21** (divergence) Rules on the items of a list of wrapper messages are accepted by the checks, but
then the generator fails and writes nothing. -/
theorem C21_wrapper_items_fail :
    Checked tags ∧ AcceptedMsg (fun _ => true) { name := "M", fields := [tags] } ∧
    genFails { name := "M", fields := [tags] } = true :=
  ⟨by unfold Checked; decide,
    by unfold AcceptedMsg; rw [Option.ne_none_iff_isSome]; decide, by decide⟩

/-! ### C22 -/

/-- **C22** A map field is accepted exactly when (it is empty and `ignore_empty` is set, or) its size
is within the limits, `no_sparse` implies that no value is nil, and every key and every value would
be accepted as the value of a singular field with the key rules (`fk`) and value rules (`fv`). -/
theorem C22_accepts (E : Env) (S : Schema) (typ tk tv : String) (f fk fv : FieldDesc)
    (h : OnlyField S typ f) (hk : OnlyField S tk fk) (hv : OnlyField S tv fv)
    (m : Option MessageRules) (kt vt : ElemT) (hkt : kt.isEmbed = false)
    (r : MapRules) (hT : f.typ = .map kt vt) (hr : f.rules = .mk m (.map r fk.rules fv.rules))
    (hTk : fk.typ = .one kt) (hTv : fv.typ = .one vt) (kvs : List (Scalar × Val)) :
    Accepts E S typ f (.map kvs) ↔
      (r.ignoreEmpty = some true ∧ kvs = []) ∨
      ((∀ k, r.minPairs = some k → k ≤ kvs.length) ∧ (∀ k, r.maxPairs = some k → kvs.length ≤ k) ∧
       ∀ k v, (k, v) ∈ kvs →
        (r.noSparse = some true → v ≠ .null) ∧ Accepts E S tk fk (.sc k) ∧ Accepts E S tv fv v) := by
  rw [accepts_iff h]
  unfold FieldOk
  rw [hT, hr]
  simp only [FieldRules.type, MapOk, CountOk, accepts_value hv hTv, accepts_value hk hTk,
    valueOk_sc hkt, and_assoc, Prod.forall]

/-- **C22** The iteration order does not matter: with another order, `Validate()` gives the same
verdict and `ValidateAll()` the same errors, up to their order (inside nested errors too). -/
theorem C22_order (E : Env) (S : Schema) (o : List (Scalar × Val) → List (Scalar × Val))
    (ho : ∀ l, (o l).Perm l) (v : Val) :
    (validate E S false v = none ↔ validate (withOrder E o ho) S false v = none) ∧
    (validate E S true v = none ↔ validate (withOrder E o ho) S true v = none) ∧
    (∀ e e', validate E S true v = some e → validate (withOrder E o ho) S true v = some e' →
      Shuffled e e') := by
  have h := validate_shuffle E S o ho v
  have hn : validate E S true v = none ↔ validate (withOrder E o ho) S true v = none := by
    cases h1 : validate E S true v <;> cases h2 : validate (withOrder E o ho) S true v <;>
      simp [h1, h2, SameUpTo] at h ⊢
  refine ⟨?_, hn, ?_⟩
  · rw [← validate_modes, ← validate_modes, hn]
  · intro e e' h1 h2
    rw [h1, h2] at h
    exact h

/-- **C22** There is an error for key `k` exactly when the entry of `k` violates the `no_sparse`, key or value
rules; an error without key exactly when the number of pairs is wrong. `hg` says that the generator writes
code for the field at all; it fails, as for lists, for rules on values that are wrapper messages. -/
theorem C22_index (E : Env) (S : Schema) (typ tk tv : String) (f fk fv : FieldDesc)
    (h : OnlyField S typ f) (hk : OnlyField S tk fk) (hv : OnlyField S tv fv)
    (m : Option MessageRules) (kt vt : ElemT) (hkt : kt.isEmbed = false)
    (r : MapRules) (hT : f.typ = .map kt vt) (hr : f.rules = .mk m (.map r fk.rules fv.rules))
    (hTk : fk.typ = .one kt) (hTv : fv.typ = .one vt)
    (hg : renderFails f = false) (kvs : List (Scalar × Val))
    (hne : r.ignoreEmpty ≠ some true ∨ kvs ≠ []) :
    (∀ k, (∃ x ∈ errorsFor E S typ f (.map kvs), indexOf x = some (.key k)) ↔
      ∃ v, (k, v) ∈ kvs ∧ ¬ ((r.noSparse = some true → v ≠ .null) ∧ Accepts E S tk fk (.sc k) ∧
        Accepts E S tv fv v)) ∧
    ((∃ x ∈ errorsFor E S typ f (.map kvs), indexOf x = none) ↔
      ¬ ((∀ k, r.minPairs = some k → k ≤ kvs.length) ∧ (∀ k, r.maxPairs = some k → kvs.length ≤ k))) := by
  have hw : ¬ (vt.isEmbed = true ∧ WrapperKind fv.rules.type) := by
    rw [← elemFails_kind]
    unfold renderFails at hg
    rw [hT, hr] at hg
    simpa [FieldRules.type] using hg
  obtain ⟨d, hS, hd, hf, ho⟩ := h
  have hrec := validate_recOk E S
  let c : Ctx := { msg := d.name, field := f.name }
  have heq : errorsFor E S typ f (.map kvs) =
      allErrs (fun all => mapTpl E S all (validate E S) c kt vt r fk.rules fv.rules kvs) := by
    rw [errorsFor_eq hS hd hf ho]
    congr 1
    funext all; unfold renderField; rw [hT, hr]; rfl
  have hmem := map_mem E S (validate E S) hrec c rfl kt vt r fk.rules fv.rules kvs hne
  rw [← heq] at hmem
  have hlen := mapLen_ok c r kvs.length
  have hentry : ∀ kv, Ok (From { c with index := some (.key kv.1) })
      (fun all => mapEntry E S all (validate E S) c kt vt r fk.rules fv.rules kv)
      ((r.noSparse = some true → kv.2 ≠ .null) ∧ Accepts E S tk fk (.sc kv.1) ∧
        Accepts E S tv fv kv.2) := fun kv => by
    have h1 := mapEntry_ok E S (validate E S) hrec c rfl kt vt r fk.rules fv.rules kv
    rw [← valueOk_sc (S := S) (ok := fun w => validate E S false w = none) hkt,
      ← accepts_value hk hTk, ← accepts_value hv hTv] at h1
    refine ⟨h1.all, h1.fast, h1.agree, h1.spec, ?_⟩
    rw [mapEntry_all E S _ hrec]
    intro x hx
    simp only [List.mem_append] at hx
    rcases hx with hx | hx | hx
    · split at hx
      · simp only [List.mem_singleton] at hx; rw [hx]; exact ⟨_, _, rfl⟩
      · simp at hx
    · exact (keyTpl_ok E { c with index := some (.key kv.1) } kt fk.rules kv.1).shape x hx
    · exact Raises.allErrs (elem_from E S true (validate E S) _ vt fv.rules kv.2 hw) x hx
  refine ⟨fun k => ⟨?_, ?_⟩, ⟨?_, ?_⟩⟩
  · rintro ⟨x, hx, hidx⟩
    rcases (hmem x).1 hx with hx | ⟨kv, hkv, hx⟩
    · obtain ⟨rs, cs, rfl⟩ := hlen.shape x hx
      simp [indexOf, c] at hidx
    · obtain ⟨rs, cs, rfl⟩ := (hentry kv).shape x hx
      simp [indexOf] at hidx
      subst hidx
      refine ⟨kv.2, hkv, fun hok => ?_⟩
      rw [(hentry kv).specAll.2 hok] at hx; simp at hx
  · rintro ⟨v, hkv, hbad⟩
    have hb := mt (hentry (k, v)).specAll.1 hbad
    obtain ⟨x, l, hx⟩ := List.exists_cons_of_ne_nil hb
    have hx' : x ∈ allErrs (fun all => mapEntry E S all (validate E S) c kt vt r fk.rules fv.rules (k, v)) := by
      rw [hx]; simp
    obtain ⟨rs, cs, hxe⟩ := (hentry (k, v)).shape x hx'
    exact ⟨x, (hmem x).2 (.inr ⟨(k, v), hkv, hx'⟩), by rw [hxe]; rfl⟩
  · rintro ⟨x, hx, hidx⟩
    rcases (hmem x).1 hx with hx | ⟨kv, hkv, hx⟩
    · intro hok
      rw [hlen.specAll.2 hok] at hx; simp at hx
    · obtain ⟨rs, cs, rfl⟩ := (hentry kv).shape x hx
      simp [indexOf] at hidx
  · intro hbad
    have hb := mt hlen.specAll.1 hbad
    obtain ⟨x, l, hx⟩ := List.exists_cons_of_ne_nil hb
    have hx' : x ∈ allErrs (fun all => mapLenTpl all c r kvs.length) := by rw [hx]; simp
    obtain ⟨rs, cs, hxe⟩ := hlen.shape x hx'
    exact ⟨x, (hmem x).2 (.inl hx'), by rw [hxe]; rfl⟩

/-- A map from string keys to int32 values with rules on both. -/
def ages : FieldDesc :=
  { name := "Ages", typ := .map .string (.scalar .int32),
    rules := .mk none (.map { minPairs := some 1 }
      (.mk none (.string { minLen := some 2 })) (.mk none (.num .int32 { gt := some (.int 0) }))) }

/-- C22's hypotheses are met: with the reversed iteration order, the same two errors come in the
other order. -/
example : Checked ages ∧ OnlyField (Fixtures.only ages) "M" ages ∧ renderFails ages = false ∧
    (errorsFor Fixtures.env (Fixtures.only ages) "M" ages
      (.map [(.str (asc "a"), .sc (.num (.int 1))), (.str (asc "bb"), .sc (.num (.int 0)))])).map
        indexOf = [some (.key (.str (asc "a"))), some (.key (.str (asc "bb")))] ∧
    (errorsFor (withOrder Fixtures.env List.reverse List.reverse_perm) (Fixtures.only ages) "M" ages
      (.map [(.str (asc "a"), .sc (.num (.int 1))), (.str (asc "bb"), .sc (.num (.int 0)))])).map
        indexOf = [some (.key (.str (asc "bb"))), some (.key (.str (asc "a")))] :=
  ⟨by unfold Checked; decide, Fixtures.only_field _, rfl, by decide, by decide⟩

end PGV.Props
