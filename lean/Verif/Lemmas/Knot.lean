import Verif.Lemmas.Msg

/-!
The generated methods call each other on embedded messages only, so the nesting depth bounds the
recursion: `validate` satisfies the unbounded recursion equation of the generated code.
-/

set_option linter.unusedSimpArgs false

namespace PGV.Go
open PGV Exec PGV.Spec

/-- The two callbacks agree on the value, if it is a message. -/
def SameAt (rec rec' : Rec) (v : Val) : Prop :=
  ∀ t fs os, v = .msg t fs os → ∀ a, rec a v = rec' a v

theorem messageTpl_congr {E : Env} {S : Schema} {all : Bool} {rec rec' : Rec} {c : Ctx}
    {m : Option MessageRules} {v : Val} (h : SameAt rec rec' v) :
    messageTpl E S all rec c m v = messageTpl E S all rec' c m v := by
  unfold messageTpl
  cases v with
  | msg t fs os => simp only [h t fs os rfl]
  | _ => rfl

theorem elemTpl_congr {E : Env} {S : Schema} {all : Bool} {rec rec' : Rec} {c : Ctx} {e : ElemT}
    {rules : FieldRules} {v : Val} (h : SameAt rec rec' v) :
    elemTpl E S all rec c e rules v = elemTpl E S all rec' c e rules v := by
  unfold elemTpl
  rw [show (fun m => messageTpl E S all rec c m v) = (fun m => messageTpl E S all rec' c m v) from
    funext fun m => messageTpl_congr h]

theorem repLoop_congr {all unique : Bool} {c : Ctx} {i1 i2 : Nat → Val → Exec} (vs : List Val)
    (h : ∀ i, ∀ v ∈ vs, i1 i v = i2 i v) (idx : Nat) (seen : List Val) :
    repLoop all unique c i1 idx seen vs = repLoop all unique c i2 idx seen vs := by
  induction vs generalizing idx seen with
  | nil => rfl
  | cons v vs ih =>
    unfold repLoop
    rw [h idx v (by simp)]
    simp only [ih (fun i w hw => h i w (by simp [hw]))]

theorem forEach_congr {α : Type} {f g : α → Exec} (xs : List α) (h : ∀ x ∈ xs, f x = g x) :
    forEach xs f = forEach xs g := by
  induction xs with
  | nil => rfl
  | cons x xs ih =>
    unfold forEach
    rw [h x (by simp), ih (fun y hy => h y (by simp [hy]))]

theorem repTpl_congr {E : Env} {S : Schema} {all : Bool} {rec rec' : Rec} {c : Ctx} {e : ElemT}
    {r : RepeatedRules} {items : FieldRules} {vs : List Val} (h : ∀ v ∈ vs, SameAt rec rec' v) :
    repTpl E S all rec c e r items vs = repTpl E S all rec' c e r items vs := by
  unfold repTpl
  rw [repLoop_congr (i2 := fun idx v =>
    elemTpl E S all rec' { c with index := some (.pos idx) } e items v) vs
    (fun i v hv => elemTpl_congr (h v hv))]

theorem mapTpl_congr {E : Env} {S : Schema} {all : Bool} {rec rec' : Rec} {c : Ctx} {kt vt : ElemT}
    {r : MapRules} {keys values : FieldRules} {kvs : List (Scalar × Val)}
    (h : ∀ kv ∈ kvs, SameAt rec rec' kv.2) :
    mapTpl E S all rec c kt vt r keys values kvs = mapTpl E S all rec' c kt vt r keys values kvs := by
  unfold mapTpl
  rw [forEach_congr (g := mapEntry E S all rec' c kt vt r keys values) (E.order kvs)]
  intro kv hkv
  unfold mapEntry
  rw [elemTpl_congr (h kv ((E.order_perm kvs).mem_iff.1 hkv))]

/-- The messages directly inside a field value: itself, list elements, map values. -/
inductive Inside : Val → Val → Prop
  | self (v) : Inside v v
  | list {v vs} : v ∈ vs → Inside v (.list vs)
  | map {kv : Scalar × Val} {kvs} : kv ∈ kvs → Inside kv.2 (.map kvs)

theorem renderField_congr {E : Env} {S : Schema} {all : Bool} {rec rec' : Rec} {msg : String}
    {f : FieldDesc} {v : Val} (h : ∀ w, Inside w v → SameAt rec rec' w) :
    renderField E S all rec msg f v = renderField E S all rec' msg f v := by
  obtain ⟨name, typ, rules⟩ := f
  cases typ with
  | one e => exact elemTpl_congr (h v (.self v))
  | rep e =>
    cases v with
    | list vs =>
      have : ∀ v ∈ vs, SameAt rec rec' v := fun v hv => h v (.list hv)
      unfold renderField
      simp only [repTpl_congr this]
    | _ => rfl
  | map kt vt =>
    cases v with
    | map kvs =>
      have : ∀ kv ∈ kvs, SameAt rec rec' kv.2 := fun kv hv => h kv.2 (.map hv)
      unfold renderField
      simp only [mapTpl_congr this]
    | _ => rfl

theorem depth_pos (v : Val) : 1 ≤ depth v := by cases v <;> simp [depth]

theorem depthList_mem {v : Val} {vs : List Val} (h : v ∈ vs) : depth v ≤ depthList vs := by
  induction vs with
  | nil => simp at h
  | cons w vs ih =>
    simp only [depthList]
    rcases List.mem_cons.1 h with rfl | h
    · omega
    · have := ih h; omega

theorem depthMap_mem {kv : Scalar × Val} {kvs : List (Scalar × Val)} (h : kv ∈ kvs) :
    depth kv.2 ≤ depthMap kvs := by
  induction kvs with
  | nil => simp at h
  | cons w vs ih =>
    simp only [depthMap]
    rcases List.mem_cons.1 h with rfl | h
    · omega
    · have := ih h; omega

theorem depthFields_lookup {n : String} {v : Val} {fs : List (String × Val)}
    (h : fs.lookup n = some v) : depth v ≤ depthFields fs := by
  induction fs with
  | nil => simp at h
  | cons w fs ih =>
    obtain ⟨k, w⟩ := w
    simp only [depthFields]
    rw [List.lookup_cons] at h
    split at h
    · cases h; omega
    · have := ih h; omega

theorem depthOneofs_lookup {n m : String} {v : Val} {os : List (String × String × Val)}
    (h : os.lookup n = some (m, v)) : depth v ≤ depthOneofs os := by
  induction os with
  | nil => simp at h
  | cons w fs ih =>
    obtain ⟨k, m', w⟩ := w
    simp only [depthOneofs]
    rw [List.lookup_cons] at h
    split at h
    · cases h; omega
    · have := ih h; omega

theorem Inside.depth_le {w v : Val} (h : Inside w v) : depth w ≤ depth v := by
  cases h with
  | self => exact Nat.le_refl _
  | list h => have := depthList_mem h; simp only [depth]; omega
  | map h => have := depthMap_mem h; simp only [depth]; omega

theorem zero_not_msg {typ : FieldT} {w : Val} (h : Inside w typ.zero) :
    ∀ t fs os, w ≠ .msg t fs os := by
  intro t fs os hw
  generalize hz : typ.zero = z at h
  cases h with
  | self =>
    subst hw
    cases typ with
    | one e => cases e <;> cases hz
    | rep e => cases hz
    | map k v => cases hz
  | list h =>
    cases typ with
    | one e => cases e <;> cases hz
    | rep e => cases hz; simp at h
    | map k v => cases hz
  | map h =>
    cases typ with
    | one e => cases e <;> cases hz
    | rep e => cases hz
    | map k v => cases hz; simp at h

theorem validateStep_congr {E : Env} {S : Schema} {rec rec' : Rec} {all : Bool} {v : Val}
    (h : ∀ w, depth w < depth v → ∀ a, rec a w = rec' a w) :
    validateStep E S rec all v = validateStep E S rec' all v := by
  cases v with
  | msg typ fs os =>
    unfold validateStep
    cases hS : S typ with
    | generated d =>
      have hb : bodyExec E S all rec d fs os = bodyExec E S all rec' d fs os := by
        unfold bodyExec
        rw [forEach_congr (g := fun f => renderField E S all rec' d.name f (getField fs f)) d.fields,
          forEach_congr (g := fun o => oneofTpl E S all rec' d.name o (os.lookup o.name)) d.oneofs]
        · intro o _
          cases ho : os.lookup o.name with
          | none => rfl
          | some mv =>
            obtain ⟨m, v⟩ := mv
            unfold oneofTpl
            have hd := depthOneofs_lookup ho
            have : ∀ f, renderField E S all rec d.name f v = renderField E S all rec' d.name f v := by
              intro f
              refine renderField_congr ?_
              intro w hw t fs' os' _ a
              refine h w ?_ a
              have := hw.depth_le
              simp only [depth]; omega
            simp only [this]
        · intro f _
          refine renderField_congr ?_
          intro w hw t fs' os' ht a
          unfold getField at hw
          cases hf : fs.lookup f.name with
          | some v =>
            rw [hf] at hw
            have h1 := hw.depth_le
            have h2 := depthFields_lookup hf
            refine h w ?_ a
            simp only [Option.getD_some] at h1
            simp only [depth]; omega
          | none =>
            rw [hf] at hw
            exact absurd ht (zero_not_msg hw t fs' os')
      simp only [hS, hb]
    | legacy => simp only [hS]
    | foreign => simp only [hS]
  | _ => rfl

theorem fuel_enough (E : Env) (S : Schema) (n m : Nat) (v : Val) (hn : depth v ≤ n)
    (hm : depth v ≤ m) (all : Bool) : validateFuel E S n all v = validateFuel E S m all v := by
  induction n generalizing m v all with
  | zero => have := depth_pos v; omega
  | succ n ih =>
    cases m with
    | zero => have := depth_pos v; omega
    | succ m =>
      refine validateStep_congr ?_
      intro w hw a
      exact ih m w (by omega) (by omega) a

/-- The recursion equation of the generated code. -/
theorem validate_eq (E : Env) (S : Schema) (all : Bool) (v : Val) :
    validate E S all v = validateStep E S (validate E S) all v := by
  unfold validate
  have hp := depth_pos v
  obtain ⟨n, hn⟩ : ∃ n, depth v = n + 1 := ⟨depth v - 1, by omega⟩
  rw [hn]
  refine validateStep_congr ?_
  intro w hw a
  exact fuel_enough E S n (depth w) w (by omega) (Nat.le_refl _) a

end PGV.Go
