import Verif.Lemmas.Raises

/-!
The declarative meaning of messages as a fixed-point equation, and messages with a single field or
oneof.
-/

set_option linter.unusedSimpArgs false

namespace PGV.Go
open PGV Exec PGV.Spec

open Classical in
/-- A callback that accepts exactly the values satisfying a predicate. -/
noncomputable def recOf (ok : Val → Prop) : Rec := fun all v =>
  if ok v then none else if all then some (.multi "" [.lib ""]) else some (.lib "")

theorem recOf_ok (ok : Val → Prop) : RecOk (recOf ok) := by
  intro v
  by_cases h : ok v <;> simp [recOf, h, FirstOf.same]

theorem recOf_none (ok : Val → Prop) (v : Val) : recOf ok false v = none ↔ ok v := by
  by_cases h : ok v <;> simp [recOf, h]

/-- The meaning of a message depends on embedded messages only through strictly smaller values. -/
theorem messageOk_congr {E : Env} {S : Schema} {ok ok' : Val → Prop} {v : Val}
    (h : ∀ w, depth w < depth v → (ok w ↔ ok' w)) : MessageOk E S ok v ↔ MessageOk E S ok' v := by
  have e1 : (fun v => recOf ok false v = none) = ok := by
    funext v; exact propext (recOf_none ok v)
  have e2 : (fun v => recOf ok' false v = none) = ok' := by
    funext v; exact propext (recOf_none ok' v)
  have s1 := step_spec E S (recOf ok) (recOf_ok ok) v
  have s2 := step_spec E S (recOf ok') (recOf_ok ok') v
  rw [e1] at s1
  rw [e2] at s2
  rw [← s1, ← s2]
  rw [validateStep_congr (rec := recOf ok) (rec' := recOf ok')]
  intro w hw
  have := h w hw
  intro a
  unfold recOf
  by_cases hk : ok w
  · simp [hk, this.1 hk]
  · have hk' : ¬ ok' w := fun h' => hk (this.2 h')
    simp [hk, hk']

theorem validate_spec (E : Env) (S : Schema) (v : Val) :
    validate E S false v = none ↔ MessageOk E S (fun w => validate E S false w = none) v := by
  rw [validate_eq]
  exact step_spec E S (validate E S) (validate_recOk E S) v

theorem validate_unique (E : Env) (S : Schema) (P : Val → Prop)
    (hP : ∀ v, P v ↔ MessageOk E S P v) : ∀ v, P v ↔ validate E S false v = none := by
  have key : ∀ n, ∀ v, depth v ≤ n → (P v ↔ validate E S false v = none) := by
    intro n
    induction n with
    | zero => intro v hv; have := depth_pos v; omega
    | succ n ih =>
      intro v hv
      rw [hP, validate_spec]
      exact messageOk_congr fun w hw => ih w (by omega)
  exact fun v => key (depth v) v (Nat.le_refl _)

theorem validate_modes (E : Env) (S : Schema) (v : Val) :
    validate E S true v = none ↔ validate E S false v = none := by
  have h := validate_recOk E S v
  cases h1 : validate E S false v <;> cases h2 : validate E S true v <;> simp [h1, h2] at h ⊢

/-- Errors collected by `ValidateAll`. -/
theorem validate_all_msg {E : Env} {S : Schema} {typ : String} {d : MsgDesc}
    {fs : List (String × Val)} {os : List (String × String × Val)} (hS : S typ = .generated d)
    (hd : d.disabled = false) :
    validate E S true (.msg typ fs os) =
      (let errs := d.fields.flatMap (fun f => allErrs fun all =>
          renderField E S all (validate E S) d.name f (getField fs f)) ++
        d.oneofs.flatMap (fun o => allErrs fun all =>
          oneofTpl E S all (validate E S) d.name o (os.lookup o.name))
       if errs = [] then none else some (.multi d.name errs)) := by
  rw [validate_eq]
  simp only [validateStep, hS, hd, Bool.false_eq_true, if_false]
  have hr := validate_recOk E S
  have hF := Ok.forEach_aux (W := Named d.name)
    (f := fun f all => renderField E S all (validate E S) d.name f (getField fs f)) d.fields
    (fun f _ => (field_ok E S _ hr d.name f _).mono fun _ h => h.named)
  have hO := Ok.forEach_aux (W := Named d.name)
    (f := fun o all => oneofTpl E S all (validate E S) d.name o (os.lookup o.name)) d.oneofs
    (fun o _ => oneof_ok E S _ hr d.name o _)
  have hs := Ok.seq_aux hF.1 hO.1
  have e := finish_all hs.1 d.name
  rw [hs.2.1, hF.2.1, hO.2.1] at e
  exact e

theorem validate_fast_msg {E : Env} {S : Schema} {typ : String} {d : MsgDesc}
    {fs : List (String × Val)} {os : List (String × String × Val)} (hS : S typ = .generated d)
    (hd : d.disabled = false) :
    validate E S false (.msg typ fs os) =
      ((d.fields.findSome? fun f => fastErr fun all =>
          renderField E S all (validate E S) d.name f (getField fs f)).or
        (d.oneofs.findSome? fun o => fastErr fun all =>
          oneofTpl E S all (validate E S) d.name o (os.lookup o.name))) := by
  rw [validate_eq]
  simp only [validateStep, hS, hd, Bool.false_eq_true, if_false]
  have hr := validate_recOk E S
  have hF := Ok.forEach_aux (W := Named d.name)
    (f := fun f all => renderField E S all (validate E S) d.name f (getField fs f)) d.fields
    (fun f _ => (field_ok E S _ hr d.name f _).mono fun _ h => h.named)
  have hO := Ok.forEach_aux (W := Named d.name)
    (f := fun o all => oneofTpl E S all (validate E S) d.name o (os.lookup o.name)) d.oneofs
    (fun o _ => oneof_ok E S _ hr d.name o _)
  have hs := Ok.seq_aux hF.1 hO.1
  have e := finish_fast hs.1 d.name
  rw [hs.2.2, hF.2.2, hO.2.2] at e
  exact e

theorem flatMap_congr' {α β : Type} {l : List α} {f g : α → List β} (h : ∀ a ∈ l, f a = g a) :
    l.flatMap f = l.flatMap g := by
  induction l with
  | nil => rfl
  | cons a l ih =>
    simp only [List.flatMap_cons, h a (by simp), ih fun b hb => h b (by simp [hb])]

theorem findSome_congr {α β : Type} {l : List α} {f g : α → Option β} (h : ∀ a ∈ l, f a = g a) :
    l.findSome? f = l.findSome? g := by
  induction l with
  | nil => rfl
  | cons a l ih =>
    simp only [List.findSome?_cons, h a (by simp), ih fun b hb => h b (by simp [hb])]

theorem heldBy_inside {f : FieldDesc} {v w : Val} {i : Option Idx} {rules : FieldRules}
    (h : HeldBy f v i rules w) : Inside w v := by
  cases h with
  | field => exact .self _
  | item _ _ hn => exact .list (List.mem_of_getElem? hn)
  | value _ _ hm =>
    exact Inside.map (kv := (_, w)) hm

theorem embeds_depth {S : Schema} {v w : Val} {i : FieldRef} (h : Embeds S v i w) :
    depth w < depth v := by
  obtain ⟨hS, hd, hA, hH, ht, hs, typ', fs', os', d', rfl, hS', hi⟩ := h
  rename_i typ fs os d f v i rules
  have hI := heldBy_inside hH
  have hle := hI.depth_le
  cases hA with
  | field hf =>
    unfold getField at hI hle
    cases hl : fs.lookup f.name with
    | some x =>
      rw [hl] at hle
      have := depthFields_lookup hl
      simp only [Option.getD_some] at hle
      simp only [depth] at hle ⊢; omega
    | none =>
      rw [hl] at hI
      exact absurd rfl (zero_not_msg hI typ' fs' os')
  | member ho hl hm =>
    have := depthOneofs_lookup hl
    simp only [depth] at hle ⊢; omega

end PGV.Go
