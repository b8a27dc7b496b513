import Verif.Spec.Checks
import Verif.Lemmas.Pattern
import Verif.Lemmas.Checked

/-!
Lemmas about the rule checks: from messages to the positions inside their rules, and types.
-/

set_option linter.unusedSimpArgs false

namespace PGV.Props
open PGV PGV.Go PGV.Spec PGV.Checker

/-! ### From messages to positions -/

theorem checkFields_mem {c : Bytes → Bool} : ∀ {fs : List FieldDesc}, checkFields c fs ≠ none →
    ∀ f ∈ fs, Accepted c f := by
  intro fs
  induction fs with
  | nil => simp
  | cons g gs ih =>
    intro h f hf
    unfold checkFields at h
    split at h
    · rename_i g' gs' h1 h2
      rcases List.mem_cons.1 hf with rfl | hf
      · unfold Accepted; rw [h1]; simp
      · exact ih (by rw [h2]; simp) f hf
    · exact absurd rfl h

theorem checkOneofs_mem {c : Bytes → Bool} : ∀ {os : List OneofDesc}, checkOneofs c os ≠ none →
    ∀ o ∈ os, ∀ f ∈ o.fields, Accepted c f := by
  intro os
  induction os with
  | nil => simp
  | cons p ps ih =>
    intro h o ho f hf
    unfold checkOneofs at h
    split at h
    · rename_i g' gs' h1 h2
      rcases List.mem_cons.1 ho with rfl | ho
      · exact checkFields_mem (by rw [h1]; simp) f hf
      · exact ih (by rw [h2]; simp) o ho f hf
    · exact absurd rfl h

/-- A message with validation enabled is accepted only if each of its fields is. -/
theorem accepted_of_msg {c : Bytes → Bool} {d : MsgDesc} (h : checkMsg c d ≠ none)
    (hd : d.disabled = false) {f : FieldDesc} (hf : FieldOf d f) : Accepted c f := by
  unfold checkMsg at h
  simp only [hd, Bool.false_eq_true, if_false] at h
  split at h
  · rename_i fs os h1 h2
    rcases hf with hf | ⟨o, ho, hf⟩
    · exact checkFields_mem (by rw [h1]; simp) f hf
    · exact checkOneofs_mem (by rw [h2]; simp) o ho f hf
  · exact absurd rfl h

/-- The checker's view of a position of type `t`. -/
def AtTy (t : FieldT) (y : Ty) : Prop := y = .field t ∨ ∃ e, t = .one e ∧ y = .elem e

theorem ruleAt_checked {c : Bytes → Bool} {f : FieldDesc} (h : Accepted c f) {t : FieldT}
    {r : FieldRules} (hr : RuleAt f t r) : ∃ y, AtTy t y ∧ checkFieldRules c y r ≠ none := by
  induction hr with
  | top =>
    refine ⟨.field f.typ, .inl rfl, ?_⟩
    unfold Accepted checkField at h
    split at h
    · exact absurd rfl h
    · intro hn
      rw [hn] at h
      exact h rfl
  | item hr ih =>
    rename_i e m r items
    obtain ⟨y, hy, hc⟩ := ih
    rcases hy with rfl | ⟨e', he, -⟩
    · refine ⟨.elem e, .inr ⟨e, rfl, rfl⟩, ?_⟩
      intro hn
      simp [checkFieldRules, checkTypeRules, hn] at hc
    · simp at he
  | key hr ih =>
    rename_i k v m r keys values
    obtain ⟨y, hy, hc⟩ := ih
    rcases hy with rfl | ⟨e', he, -⟩
    · refine ⟨.elem k, .inr ⟨k, rfl, rfl⟩, ?_⟩
      intro hn
      simp [checkFieldRules, checkTypeRules, hn] at hc
    · simp at he
  | value hr ih =>
    rename_i k v m r keys values
    obtain ⟨y, hy, hc⟩ := ih
    rcases hy with rfl | ⟨e', he, -⟩
    · refine ⟨.elem v, .inr ⟨v, rfl, rfl⟩, ?_⟩
      intro hn
      simp [checkFieldRules, checkTypeRules, hn] at hc
      obtain ⟨-, hc⟩ := hc
      split at hc <;> simp at hc
    · simp at he

/-- The rules at a position are checked. -/
theorem ruleAt_type {c : Bytes → Bool} {f : FieldDesc} (h : Accepted c f) {t : FieldT}
    {m : Option MessageRules} {tr : TypeRules} (hr : RuleAt f t (.mk m tr)) :
    ∃ y, AtTy t y ∧ checkTypeRules c y tr ≠ none := by
  obtain ⟨y, hy, hc⟩ := ruleAt_checked h hr
  refine ⟨y, hy, ?_⟩
  intro hn
  simp [checkFieldRules, hn] at hc

theorem sameNum_iff (a b : Num) : SameNum a b ↔ a.eq b = true := by
  unfold SameNum Num.eq
  cases a.key <;> cases b.key <;> simp [eq_comm]

theorem checkNum_iff (r : NumRules) : checkNum r = true ↔ NumConsistent r := by
  unfold checkNum
  rw [checkNums_iff]
  simp only [List.length_eq_zero_iff, ne_eq]
  constructor
  · rintro ⟨h1, h2, h3, h4, h5, h6⟩
    exact ⟨h1, h2, h3, h4, h5, fun u l hu hl hs => by
      rw [sameNum_iff, h6 u l hu hl] at hs; simp at hs⟩
  · rintro ⟨h1, h2, h3, h4, h5, h6⟩
    refine ⟨h1, h2, h3, h4, h5, fun u l hu hl => ?_⟩
    have := h6 u l hu hl
    rw [sameNum_iff] at this
    simpa using this

/-- `MustType` on a position: a value of the proto type, or its wrapper. -/
theorem mustType_iff {t : FieldT} {y : Ty} (hy : AtTy t y) {pt : ProtoType} {wr : Option WKT}
    (hp : pt ≠ .message) (hw : ∀ w, wr = some w → w.wrapped = some pt) :
    mustType y pt wr = true ↔
      ∃ e, t = .one e ∧ (e.protoType = pt ∨ ∃ n w, e = .embed n (some w) ∧ wr = some w) := by
  have main : ∀ (e : ElemT) (y : Ty), (y = .field (.one e) ∨ y = .elem e) →
      (mustType y pt wr = true ↔ (e.protoType = pt ∨ ∃ n w, e = .embed n (some w) ∧ wr = some w)) := by
    intro e y hy
    cases e with
    | embed n w =>
      have hm : ProtoType.message ≠ pt := fun h => hp h.symm
      cases w with
      | none => rcases hy with rfl | rfl <;> simp [mustType, Ty.embed, Ty.isRepeated, Ty.protoType, ElemT.protoType]
      | some w =>
        cases wr with
        | none => rcases hy with rfl | rfl <;> simp [mustType, Ty.embed, Ty.isRepeated, Ty.protoType, ElemT.protoType]
        | some w' =>
          have hw' := hw w' rfl
          by_cases h : w = w'
          · subst h
            rcases hy with rfl | rfl <;> simp [mustType, Ty.embed, Ty.isRepeated, Ty.protoType, ElemT.protoType, hw']
          · have h' : ¬ w' = w := fun e => h e.symm
            rcases hy with rfl | rfl <;>
              simp [mustType, Ty.embed, Ty.isRepeated, Ty.protoType, ElemT.protoType, h, hm, h']
    | _ => rcases hy with rfl | rfl <;> simp [mustType, Ty.embed, Ty.isRepeated, Ty.protoType, ElemT.protoType]
  rcases hy with rfl | ⟨e, rfl, rfl⟩
  · cases t with
    | one e => rw [main e _ (.inl rfl)]; simp
    | rep e => simp [mustType, Ty.embed, Ty.isRepeated]
    | map k v => simpa [mustType, Ty.embed, Ty.isRepeated, Ty.protoType] using fun h => hp h.symm
  · rw [main e _ (.inr rfl)]; simp

theorem protoType_eq {e : ElemT} {pt : ProtoType} : e.protoType = pt ↔
    match pt with
    | .num k => e = .scalar k
    | .bool => e = .bool
    | .string => e = .string
    | .bytes => e = .bytes
    | .enum => ∃ vs, e = .enum vs
    | .message => ∃ n w, e = .embed n w
    | .group => False := by
  cases e <;> cases pt <;> simp [ElemT.protoType]

theorem wrapperOf_iff (k : NumKind) (w : WKT) : wrapperOf k = some w ↔ w.wrapped = some (.num k) := by
  cases k <;> cases w <;> simp [wrapperOf, WKT.wrapped]

theorem mustType_num {t : FieldT} {y : Ty} (hy : AtTy t y) (k : NumKind) :
    mustType y (.num k) (wrapperOf k) = true ↔
      t = .one (.scalar k) ∨ ∃ n w, t = .one (.embed n (some w)) ∧ w.wrapped = some (.num k) := by
  rw [mustType_iff hy (by simp) (fun w h => (wrapperOf_iff k w).1 h)]
  simp only [protoType_eq, wrapperOf_iff]
  constructor
  · rintro ⟨e, rfl, rfl | ⟨n, w, rfl, h⟩⟩
    · exact .inl rfl
    · exact .inr ⟨n, w, rfl, h⟩
  · rintro (rfl | ⟨n, w, rfl, h⟩)
    · exact ⟨_, rfl, .inl rfl⟩
    · exact ⟨_, rfl, .inr ⟨n, w, rfl, h⟩⟩

theorem mustType_simple {t : FieldT} {y : Ty} (hy : AtTy t y) {pt : ProtoType} {w : WKT} {e : ElemT}
    (hp : pt ≠ .message) (hw : w.wrapped = some pt) (he : ∀ e', ElemT.protoType e' = pt ↔ e' = e) :
    mustType y pt (some w) = true ↔ t = .one e ∨ ∃ n, t = .one (.embed n (some w)) := by
  rw [mustType_iff hy hp (fun w' h => by cases h; exact hw)]
  simp only [he]
  constructor
  · rintro ⟨e, rfl, rfl | ⟨n, w, rfl, h⟩⟩
    · exact .inl rfl
    · cases h; exact .inr ⟨n, rfl⟩
  · rintro (rfl | ⟨n, rfl⟩)
    · exact ⟨_, rfl, .inl rfl⟩
    · exact ⟨_, rfl, .inr ⟨n, w, rfl, rfl⟩⟩

theorem mustType_bool {t : FieldT} {y : Ty} (hy : AtTy t y) :
    mustType y .bool (some .boolValue) = true ↔
      t = .one .bool ∨ ∃ n, t = .one (.embed n (some .boolValue)) :=
  mustType_simple hy (by simp) rfl (fun _ => protoType_eq)

theorem mustType_string {t : FieldT} {y : Ty} (hy : AtTy t y) :
    mustType y .string (some .stringValue) = true ↔
      t = .one .string ∨ ∃ n, t = .one (.embed n (some .stringValue)) :=
  mustType_simple hy (by simp) rfl (fun _ => protoType_eq)

theorem mustType_bytes {t : FieldT} {y : Ty} (hy : AtTy t y) :
    mustType y .bytes (some .bytesValue) = true ↔
      t = .one .bytes ∨ ∃ n, t = .one (.embed n (some .bytesValue)) :=
  mustType_simple hy (by simp) rfl (fun _ => protoType_eq)

theorem mustType_enum {t : FieldT} {y : Ty} (hy : AtTy t y) :
    mustType y .enum none = true ↔ ∃ vs, t = .one (.enum vs) := by
  rw [mustType_iff hy (by simp) (by simp)]
  simp only [protoType_eq]
  constructor
  · rintro ⟨e, rfl, ⟨vs, rfl⟩ | ⟨n, w, rfl, h⟩⟩
    · exact ⟨vs, rfl⟩
    · cases h
  · rintro ⟨vs, rfl⟩
    exact ⟨_, rfl, .inl ⟨vs, rfl⟩⟩

end PGV.Props
