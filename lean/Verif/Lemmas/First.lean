import Verif.Spec.First
import Verif.Lemmas.Evolution
import Verif.Lemmas.CppErr
import Verif.Lemmas.JavaBlame
import Verif.Lemmas.PyMsg
import Verif.Lemmas.PyReasonAll

/-!
Which field a validator reports: Go, C++ and Java.
-/

set_option linter.unusedSimpArgs false

namespace PGV.First
open PGV PGV.Spec

variable {A : FieldDesc → Val → Prop} {d : MsgDesc} {fs : List (String × Val)} {os : List (String × String × Val)}

/-- The first element of a list that fails. -/
theorem split_unique {α : Type} {p : α → Prop} {pre pre' post post' : List α} {a a' : α}
    (h : pre ++ a :: post = pre' ++ a' :: post') (h1 : ∀ x ∈ pre, p x) (h1' : ∀ x ∈ pre', p x) (h2 : ¬ p a)
    (h2' : ¬ p a') : a = a' := by
  induction pre generalizing pre' with
  | nil =>
    cases pre' with
    | nil => cases h; rfl
    | cons x xs =>
      cases h
      exact absurd (h1' a (.head _)) h2
  | cons x xs ih =>
    cases pre' with
    | nil =>
      cases h
      exact absurd (h1 a' (.head _)) h2'
    | cons y ys =>
      rw [List.cons_append, List.cons_append, List.cons.injEq] at h
      exact ih h.2 (fun z hz => h1 z (.tail _ hz)) (fun z hz => h1' z (.tail _ hz))

theorem not_fulfilled_member {o : OneofDesc} {m : String} {v : Val} {f : FieldDesc} (hl : os.lookup o.name = some (m, v))
    (hf : o.fields.find? (fun f => f.name == m) = some f) (hA : ¬ A f v) : ¬ Fulfilled A os o :=
  fun h => hA (h.2 m v f hl hf)

theorem not_fulfilled_none {o : OneofDesc} (hl : os.lookup o.name = none) (hr : o.required = true) :
    ¬ Fulfilled A os o := fun h => by rw [h.1 hl] at hr; cases hr

theorem all_of_split {α : Type} {p : α → Prop} {l pre post : List α} {a : α} (h : l = pre ++ a :: post)
    (hall : ∀ x ∈ l, p x) : p a := hall a (by simp [h])

theorem unique {n n' : String} (h : FirstBroken A d fs os n) (h' : FirstBroken A d fs os n') : n = n' := by
  cases h with
  | field e1 e2 e3 =>
    cases h' with
    | field g1 g2 g3 =>
      have := split_unique (p := fun g => A g (getField fs g)) (e1.symm.trans g1) e2 g2 e3 g3
      rw [this]
    | member g1 => exact absurd (all_of_split e1 g1) e3
    | oneof g1 => exact absurd (all_of_split e1 g1) e3
  | member e1 e2 e3 e4 e5 e6 =>
    cases h' with
    | field g1 g2 g3 => exact absurd (all_of_split g1 e1) g3
    | member g1 g2 g3 g4 g5 g6 =>
      have := split_unique (p := Fulfilled A os) (e2.symm.trans g2) e3 g3 (not_fulfilled_member e4 e5 e6)
        (not_fulfilled_member g4 g5 g6)
      subst this
      rw [e4] at g4
      cases g4
      rw [e5] at g5
      cases g5
      rfl
    | oneof g1 g2 g3 g4 g5 =>
      have := split_unique (p := Fulfilled A os) (e2.symm.trans g2) e3 g3 (not_fulfilled_member e4 e5 e6)
        (not_fulfilled_none g4 g5)
      subst this
      rw [e4] at g4
      cases g4
  | oneof e1 e2 e3 e4 e5 =>
    cases h' with
    | field g1 g2 g3 => exact absurd (all_of_split g1 e1) g3
    | member g1 g2 g3 g4 g5 g6 =>
      have := split_unique (p := Fulfilled A os) (e2.symm.trans g2) e3 g3 (not_fulfilled_none e4 e5)
        (not_fulfilled_member g4 g5 g6)
      subst this
      rw [e4] at g4
      cases g4
    | oneof g1 g2 g3 g4 g5 =>
      have := split_unique (p := Fulfilled A os) (e2.symm.trans g2) e3 g3 (not_fulfilled_none e4 e5)
        (not_fulfilled_none g4 g5)
      rw [this]

theorem zero_list {t : FieldT} {vs : List Val} {v : Val} (h : Go.Inside (.list vs) t.zero) (hv : v ∈ vs) : False := by
  generalize hw : Val.list vs = w at h
  generalize hz : t.zero = z at h
  cases h with
  | self => subst hw; cases t <;> first | (cases hz; cases hv; done) | (rename_i e; cases e <;> cases hz)
  | list hm => cases t <;> first | (cases hz; cases hm; done) | (rename_i e; cases e <;> cases hz)
  | map hm => cases t <;> first | (cases hz; cases hm; done) | (rename_i e; cases e <;> cases hz)

theorem zero_map {t : FieldT} {kvs : List (Scalar × Val)} {kv : Scalar × Val} (h : Go.Inside (.map kvs) t.zero)
    (hv : kv ∈ kvs) : False := by
  generalize hw : Val.map kvs = w at h
  generalize hz : t.zero = z at h
  cases h with
  | self => subst hw; cases t <;> first | (cases hz; cases hv; done) | (rename_i e; cases e <;> cases hz)
  | list hm => cases t <;> first | (cases hz; cases hm; done) | (rename_i e; cases e <;> cases hz)
  | map hm => cases t <;> first | (cases hz; cases hm; done) | (rename_i e; cases e <;> cases hz)

/-! ### Go -/

namespace Go
open PGV.Go

theorem findSome_split {α β : Type} {l : List α} {g : α → Option β} {b : β} (h : l.findSome? g = some b) :
    ∃ pre a post, l = pre ++ a :: post ∧ (∀ x ∈ pre, g x = none) ∧ g a = some b := by
  induction l with
  | nil => cases h
  | cons x xs ih =>
    cases hx : g x with
    | some c =>
      rw [List.findSome?_cons, hx] at h
      cases h
      exact ⟨[], x, xs, rfl, by simp, hx⟩
    | none =>
      rw [List.findSome?_cons, hx] at h
      obtain ⟨pre, a, post, h1, h2, h3⟩ := ih h
      refine ⟨x :: pre, a, post, by rw [h1]; rfl, ?_, h3⟩
      intro y hy
      rcases List.mem_cons.1 hy with rfl | hy
      · exact hx
      · exact h2 y hy

/-- The first error is about the field that all are about. -/
theorem fast_at {msg field : String} {x : Bool → Exec} {p : Prop} (h : Ok (AtField msg field) x p) {e : Err}
    (he : fastErr x = some e) : AtField msg field e := by
  have ha := h.agree
  rw [he] at ha
  cases hl : allErrs x with
  | nil => rw [hl] at ha; exact absurd ha (by simp [Agree])
  | cons y ys =>
    rw [hl] at ha
    obtain ⟨i, r, c, rfl⟩ := h.shape y (by rw [hl]; exact .head _)
    have ha : FirstOf e _ := ha
    cases ha with
    | same => exact ⟨_, _, _, rfl⟩
    | nested _ => exact ⟨_, _, _, rfl⟩

theorem first {E : Env} {S : Schema} {typ : String} (hS : S typ = .generated d) (hd : d.disabled = false) {e : Err}
    (he : validate E S false (.msg typ fs os) = some e) :
    ∃ n, AtField d.name n e ∧ FirstBroken (FieldOk E S fun w => validate E S false w = none) d fs os n := by
  have hr := validate_recOk E S
  have spec : ∀ f v, fastErr (fun all => renderField E S all (validate E S) d.name f v) = none ↔
      FieldOk E S (fun w => validate E S false w = none) f v := fun f v => (field_ok E S _ hr d.name f v).spec
  have ospec : ∀ o, fastErr (fun all => oneofTpl E S all (validate E S) d.name o (os.lookup o.name)) = none →
      Fulfilled (FieldOk E S fun w => validate E S false w = none) os o := by
    intro o ho
    have := (oneof_ok E S _ hr d.name o (os.lookup o.name)).spec.1 ho
    refine ⟨fun hn => ?_, fun m v f hl hf => ?_⟩
    · rw [hn] at this; exact this
    · rw [hl] at this; exact this f hf
  rw [validate_fast_msg hS hd] at he
  cases h1 : d.fields.findSome? (fun f => fastErr fun all =>
      renderField E S all (validate E S) d.name f (getField fs f)) with
  | some x =>
    rw [h1] at he
    cases he
    obtain ⟨pre, f, post, g1, g2, g3⟩ := findSome_split h1
    refine ⟨f.name, fast_at (field_ok E S _ hr d.name f _) g3, .field g1 (fun g hg => (spec g _).1 (g2 g hg)) ?_⟩
    intro hok
    rw [(spec f _).2 hok] at g3
    cases g3
  | none =>
    rw [h1, Option.none_or] at he
    have hall : ∀ g ∈ d.fields, FieldOk E S (fun w => validate E S false w = none) g (getField fs g) := by
      intro g hg
      exact (spec g _).1 (List.findSome?_eq_none_iff.1 h1 g hg)
    obtain ⟨pre, o, post, g1, g2, g3⟩ := findSome_split he
    have hpre : ∀ p ∈ pre, Fulfilled (FieldOk E S fun w => validate E S false w = none) os p := fun p hp => ospec p (g2 p hp)
    cases hl : os.lookup o.name with
    | none =>
      rw [hl] at g3
      unfold oneofTpl at g3
      cases hq : o.required with
      | false => simp [hq, fastErr, Exec.when, Exec.skip] at g3
      | true =>
        simp only [hq, fastErr, Exec.when, Exec.report, if_true, Bool.false_eq_true, if_false] at g3
        cases g3
        exact ⟨o.name, ⟨_, _, _, rfl⟩, .oneof hall g1 hpre hl hq⟩
    | some mu =>
      obtain ⟨m, v⟩ := mu
      rw [hl] at g3
      unfold oneofTpl at g3
      cases hf : o.fields.find? (fun f => f.name == m) with
      | none => simp [hf, fastErr, Exec.skip] at g3
      | some f =>
        simp only [hf] at g3
        refine ⟨f.name, fast_at (field_ok E S _ hr d.name f v) g3, .member hall g1 hpre hl hf ?_⟩
        intro hok
        rw [(spec f v).2 hok] at g3
        cases g3

end Go

/-! ### C++ -/

namespace Cpp
open PGV.Cpp

theorem forEach_split {α : Type} {l : List α} {g : α → Run} {e : Stop} (h : forEach l g = .error e) :
    ∃ pre a post, l = pre ++ a :: post ∧ (∀ x ∈ pre, g x = .ok ()) ∧ g a = .error e := by
  induction l with
  | nil => cases h
  | cons x xs ih =>
    unfold PGV.Cpp.forEach PGV.Cpp.seq at h
    cases hx : g x with
    | error c =>
      rw [hx] at h
      cases h
      exact ⟨[], x, xs, rfl, by simp, hx⟩
    | ok u =>
      rw [hx] at h
      obtain ⟨pre, a, post, h1, h2, h3⟩ := ih h
      refine ⟨x :: pre, a, post, by rw [h1]; rfl, ?_, h3⟩
      intro y hy
      rcases List.mem_cons.1 hy with rfl | hy
      · exact hx
      · exact h2 y hy

/-- The field or oneof that a violation names. -/
def Says (n : String) (e : CErr) : Prop := (∃ msg i r c, e = .viol msg n i false r c) ∨ e = .oneof n

theorem first {P : CEnv} {S : Schema} {typ : String} (hS : S typ = .generated d) (hi : d.ignored = false)
    (hd : d.disabled = false) (hA : ∀ f v, Active d fs os f v → (renderField P (checkMessage P S) d.name f v = .ok () ↔ A f v))
    {e : CErr} (he : checkMessage P S (.msg typ fs os) = .error (.invalid e)) :
    ∃ n, Says n e ∧ FirstBroken A d fs os n := by
  rw [checkMessage_eq] at he
  unfold checkStep at he
  simp only [hS, hi, hd, Bool.or_self, Bool.false_eq_true, if_false, validateMsg] at he
  have ospec : ∀ o ∈ d.oneofs, PGV.Cpp.oneofTpl P (checkMessage P S) d.name o (os.lookup o.name) = .ok () →
      Fulfilled A os o := by
    intro o hm ho
    refine ⟨fun hn => ?_, fun m v f hl hf => ?_⟩
    · rw [hn] at ho
      unfold PGV.Cpp.oneofTpl at ho
      cases hq : o.required with
      | false => rfl
      | true => simp [hq, PGV.Cpp.when] at ho
    · rw [hl] at ho
      unfold PGV.Cpp.oneofTpl at ho
      simp only [hf] at ho
      exact (hA f v (.member hm hl hf)).1 ho
  cases h1 : forEach d.fields (fun f => renderField P (checkMessage P S) d.name f (getField fs f)) with
  | error x =>
    rw [h1] at he
    cases he
    obtain ⟨pre, f, post, g1, g2, g3⟩ := forEach_split h1
    refine ⟨f.name, .inl ?_, .field g1 (fun g hg => (hA g _ (.field (by simp [g1, hg]))).1 (g2 g hg)) ?_⟩
    · obtain ⟨i, r, c, rfl⟩ := blames_field P _ d.name f _ e g3
      exact ⟨_, _, _, _, rfl⟩
    · intro hok
      rw [(hA f _ (.field (by simp [g1]))).2 hok] at g3
      cases g3
  | ok u =>
    rw [h1] at he
    have hall : ∀ g ∈ d.fields, A g (getField fs g) := by
      intro g hg
      refine (hA g _ (.field hg)).1 ?_
      have := (Evolution.Cpp.forEach_ok (f := fun f => renderField P (checkMessage P S) d.name f (getField fs f))).1 h1
      exact this g hg
    obtain ⟨pre, o, post, g1, g2, g3⟩ := forEach_split (show forEach d.oneofs _ = .error (.invalid e) from he)
    have hmem : o ∈ d.oneofs := by simp [g1]
    have hpre : ∀ p ∈ pre, Fulfilled A os p := fun p hp => ospec p (by simp [g1, hp]) (g2 p hp)
    cases hl : os.lookup o.name with
    | none =>
      rw [hl] at g3
      unfold PGV.Cpp.oneofTpl at g3
      cases hq : o.required with
      | false => simp [hq, PGV.Cpp.when] at g3
      | true =>
        simp only [hq, PGV.Cpp.when, if_true] at g3
        cases g3
        exact ⟨o.name, .inr rfl, .oneof hall g1 hpre hl hq⟩
    | some mu =>
      obtain ⟨m, v⟩ := mu
      rw [hl] at g3
      unfold PGV.Cpp.oneofTpl at g3
      cases hf : o.fields.find? (fun f => f.name == m) with
      | none => simp [hf] at g3
      | some f =>
        simp only [hf] at g3
        refine ⟨f.name, .inl ?_, .member hall g1 hpre hl hf ?_⟩
        · obtain ⟨i, r, c, rfl⟩ := blames_field P _ d.name f _ e g3
          exact ⟨_, _, _, _, rfl⟩
        · intro hok
          rw [(hA f v (.member hmem hl hf)).2 hok] at g3
          cases g3

/-- What the check of a field says, in the common part of the languages. -/
theorem field_iff {E : Go.Env} {P : CEnv} {S : Schema} {typ : String} (hL : PGV.Spec.Cpp.LibsAgree E P S) (hS : S typ = .generated d)
    (hd : d.disabled = false) (hP : PGV.Spec.Cpp.Portable E P S (.msg typ fs os)) (f : FieldDesc) (v : Val) (h : Active d fs os f v) :
    renderField P (checkMessage P S) d.name f v = .ok () ↔ FieldOk E S (fun w => Go.validate E S false w = none) f v := by
  obtain ⟨hF, hO⟩ := hP typ fs os d .self hS hd
  refine (renderField_decides hL (checkMessage P S) _ d.name f v (fun w hw hnn => ?_) ?_).1
  · refine fuel_decides hL (Go.depth w) w (Nat.le_refl _) ?_
    rcases Evolution.active_part (typ := typ) h with ⟨hp, -⟩ | rfl
    · exact part_inside hw (fun x hx => Local.part_trans hx hp) hP
    · intro t fs' os' e hpart
      have := Go.zero_not_msg hw
      cases hpart with
      | self => exact absurd rfl (this _ _ _)
      | field => exact absurd rfl (this _ _ _)
      | member => exact absurd rfl (this _ _ _)
      | item hm _ => exact (zero_list hw hm).elim
      | entry hm _ => exact (zero_map hw hm).elim
  · cases h with
    | field hf => exact hF f hf
    | member ho hl hf => exact hO _ ho _ _ _ hl hf

end Cpp

/-! ### Java -/

namespace Java
open PGV.Java

theorem forEach_split {α : Type} {l : List α} {g : α → Run} {e : JErr} (h : forEach l g = .error e) :
    ∃ pre a post, l = pre ++ a :: post ∧ (∀ x ∈ pre, g x = .ok ()) ∧ g a = .error e := by
  induction l with
  | nil => cases h
  | cons x xs ih =>
    unfold PGV.Java.forEach PGV.Java.seq at h
    cases hx : g x with
    | error c =>
      rw [hx] at h
      cases h
      exact ⟨[], x, xs, rfl, by simp, hx⟩
    | ok u =>
      rw [hx] at h
      obtain ⟨pre, a, post, h1, h2, h3⟩ := ih h
      refine ⟨x :: pre, a, post, by rw [h1]; rfl, ?_, h3⟩
      intro y hy
      rcases List.mem_cons.1 hy with rfl | hy
      · exact hx
      · exact h2 y hy

/-- The exception is about the field or oneof `n` of the message: it names it, if any field, or it is that of the validator
of a message that the field holds. -/
def About (J : JEnv) (S : Schema) (typ : String) (d : MsgDesc) (fs : List (String × Val)) (os : List (String × String × Val))
    (n : String) (e : JErr) : Prop :=
  (∀ x, e.field = some x → x = fullName typ n) ∨
  ∃ f v i rules w, Active d fs os f v ∧ f.name = n ∧ HeldBy f v i rules w ∧ assertValid J S w = .error e

theorem first {J : JEnv} {S : Schema} {typ : String} (hw : NoRequiredWrappers S) (hS : S typ = .generated d)
    (hi : d.ignored = false) (hd : d.disabled = false)
    (hA : ∀ f v, Active d fs os f v → (renderField J (assertValid J S) typ f v = .ok () ↔ A f v))
    {e : JErr} (he : assertValid J S (.msg typ fs os) = .error e) :
    ∃ n, About J S typ d fs os n e ∧ FirstBroken A d fs os n := by
  rw [assertValid_eq] at he
  unfold assertStep at he
  simp only [hS, hi, hd, Bool.false_eq_true, if_false] at he
  have about : ∀ f v, Active d fs os f v → (f ∈ d.fields ∨ ∃ o ∈ d.oneofs, f ∈ o.fields) →
      renderField J (assertValid J S) typ f v = .error e → About J S typ d fs os f.name e := by
    intro f v ha hf h
    have := (renderField_splits (J := J) (rec := assertValid J S) (rec' := assertValid J S) (typ := typ) (f := f) (v := v)
      (fun _ h => h) (fun e r => hw typ d f e r hS hf)).err e h
    rcases this with ⟨-, h⟩ | ⟨i, rules, w, h1, -, -, h2⟩
    · exact .inl h
    · exact .inr ⟨f, v, i, rules, w, ha, rfl, h1, h2⟩
  have ospec : ∀ o ∈ d.oneofs, PGV.Java.oneofTpl J (assertValid J S) typ o (os.lookup o.name) = .ok () →
      Fulfilled A os o := by
    intro o hm ho
    refine ⟨fun hn => ?_, fun m v f hl hf => ?_⟩
    · rw [hn] at ho
      unfold PGV.Java.oneofTpl at ho
      cases hq : o.required with
      | false => rfl
      | true => simp [hq, PGV.Java.when, required] at ho
    · rw [hl] at ho
      unfold PGV.Java.oneofTpl at ho
      simp only [hf] at ho
      exact (hA f v (.member hm hl hf)).1 ho
  cases h1 : forEach d.fields (fun f => renderField J (assertValid J S) typ f (getField fs f)) with
  | error x =>
    rw [h1] at he
    cases he
    obtain ⟨pre, f, post, g1, g2, g3⟩ := forEach_split h1
    have hm : f ∈ d.fields := by simp [g1]
    refine ⟨f.name, about f _ (.field hm) (.inl hm) g3,
      .field g1 (fun g hg => (hA g _ (.field (by simp [g1, hg]))).1 (g2 g hg)) ?_⟩
    intro hok
    rw [(hA f _ (.field hm)).2 hok] at g3
    cases g3
  | ok u =>
    rw [h1] at he
    have hall : ∀ g ∈ d.fields, A g (getField fs g) := by
      intro g hg
      refine (hA g _ (.field hg)).1 ?_
      have := (forEach_ok (f := fun f => renderField J (assertValid J S) typ f (getField fs f)) d.fields).1 h1
      exact this g hg
    obtain ⟨pre, o, post, g1, g2, g3⟩ := forEach_split (show forEach d.oneofs _ = .error e from he)
    have hmem : o ∈ d.oneofs := by simp [g1]
    have hpre : ∀ p ∈ pre, Fulfilled A os p := fun p hp => ospec p (by simp [g1, hp]) (g2 p hp)
    cases hl : os.lookup o.name with
    | none =>
      rw [hl] at g3
      unfold PGV.Java.oneofTpl at g3
      cases hq : o.required with
      | false => simp [hq, PGV.Java.when] at g3
      | true =>
        simp only [hq, PGV.Java.when, if_true] at g3
        refine ⟨o.name, .inl ?_, .oneof hall g1 hpre hl hq⟩
        exact Names.check (f := fullName typ o.name) e g3
    | some mu =>
      obtain ⟨m, v⟩ := mu
      rw [hl] at g3
      unfold PGV.Java.oneofTpl at g3
      cases hf : o.fields.find? (fun f => f.name == m) with
      | none => simp [hf] at g3
      | some f =>
        simp only [hf] at g3
        refine ⟨f.name, about f v (.member hmem hl hf) (.inr ⟨o, hmem, List.mem_of_find?_eq_some hf⟩) g3,
          .member hall g1 hpre hl hf ?_⟩
        intro hok
        rw [(hA f v (.member hmem hl hf)).2 hok] at g3
        cases g3

theorem field_iff {C : Common} {E : Go.Env} {J : JEnv} {S : Schema} {typ : String} (hL : PGV.Spec.LibsAgree C E J S)
    (hS : S typ = .generated d) (hd : d.disabled = false) (hP : PGV.Spec.Portable C S (.msg typ fs os)) (f : FieldDesc) (v : Val)
    (h : Active d fs os f v) :
    renderField J (assertValid J S) typ f v = .ok () ↔ FieldOk E S (fun w => Go.validate E S false w = none) f v := by
  obtain ⟨hF, hO⟩ := hP typ fs os d .self hS hd
  refine renderField_ok hL (assertValid J S) _ typ f v (fun w hw hnn => ?_) ?_
  · refine fuel_ok hL (Go.depth w) w (Nat.le_refl _) ?_
    rcases Evolution.active_part (typ := typ) h with ⟨hp, -⟩ | rfl
    · exact part_inside hw (fun x hx => Local.part_trans hx hp) hP
    · intro t fs' os' e hpart
      have := Go.zero_not_msg hw
      cases hpart with
      | self => exact absurd rfl (this _ _ _)
      | field => exact absurd rfl (this _ _ _)
      | member => exact absurd rfl (this _ _ _)
      | item hm _ => exact (zero_list hw hm).elim
      | entry hm _ => exact (zero_map hw hm).elim
  · cases h with
    | field hf => exact hF f hf
    | member ho hl hf => exact hO _ ho _ _ _ hl hf

end Java

/-! ### Python -/

namespace Py
open PGV.Py PGV.Py.Code PGV.Spec.PyReason

section
variable {α β : Type} {n : String} {t : Text}

/-- A text that fails and stops the others. -/
theorem runAll_split {l m : List (α → Run)} {x : α} (h : runAll (l ++ m) x = .error (.failed n t)) :
    runAll l x = .error (.failed n t) ∨ (runAll l x = .ok () ∧ runAll m x = .error (.failed n t)) := by
  induction l with
  | nil => exact .inr ⟨rfl, h⟩
  | cons s l ih =>
    simp only [List.cons_append, runAll] at h ⊢
    cases hs : s x with
    | ok u => rw [hs] at h; exact ih h
    | error e => rw [hs] at h; exact .inl h

theorem seq_split {a b : Code α} {x : α} (h : (a ;; b).run x = .error (.failed n t)) :
    a.run x = .error (.failed n t) ∨ (a.run x = .ok () ∧ b.run x = .error (.failed n t)) := by
  cases a with
  | none => cases h
  | some l =>
    cases b with
    | none => cases h
    | some m => exact runAll_split h

theorem seqAll_split {l : List β} {k : β → Code α} {x : α} (h : (seqAll l k).run x = .error (.failed n t)) :
    ∃ pre a post, l = pre ++ a :: post ∧ (∀ b ∈ pre, (k b).run x = .ok ()) ∧ (k a).run x = .error (.failed n t) := by
  induction l with
  | nil => cases h
  | cons a l ih =>
    rcases seq_split h with h | ⟨h1, h2⟩
    · exact ⟨[], a, l, rfl, by simp, h⟩
    · obtain ⟨pre, b, post, rfl, g1, g2⟩ := ih h2
      exact ⟨a :: pre, b, post, rfl, by
        intro y hy
        cases hy with
        | head => exact h1
        | tail _ hy => exact g1 y hy, g2⟩

end

theorem first {C : PGV.Spec.Python.Common} {E : Go.Env} {P : PEnv} {S : Schema} {typ : String}
    (hL : PGV.Spec.Python.LibsAgree C E P S) (hS : S typ = .generated d) (hi : d.ignored = false)
    (hd : d.disabled = false) (hP : PGV.Spec.Python.Portable C P S (.msg typ fs os))
    (ho : ∀ o ∈ d.oneofs, Fulfilled (FieldOk E S fun w => PGV.Go.validate E S false w = none) os o) {n : String} {t : Text}
    (he : validate P S (.msg typ fs os) = .error (.failed n t)) :
    ∃ f ∈ d.fields, (Grounds P typ f (getField fs f) n t ∨
        ∃ i rules w, HeldBy f (getField fs f) i rules w ∧ validate P S w = .error (.failed n t)) ∧
      FirstBroken (FieldOk E S fun w => PGV.Go.validate E S false w = none) d fs os f.name := by
  obtain ⟨hparse, hport⟩ := hP typ fs os d .self hS
  obtain ⟨hF, hO⟩ := hport hd hi
  have hparse := hparse (validate P S)
  rw [validate_eq] at he
  unfold validateStep at he
  simp only [hS] at he
  unfold msgCode at he hparse
  simp only [hd, hi, Bool.or_self, Bool.false_eq_true, if_false] at he hparse
  rw [some_seq, some_seqAll, some_seqAll] at hparse
  have hrec : ∀ u, (∀ x, Part x u → Part x (.msg typ fs os)) →
      ∀ w, PGV.Go.Inside w u → (validate P S w = .ok () ↔
        EmbeddedOk E S (fun w => PGV.Go.validate E S false w = none) w) := by
    intro u hu w hw
    exact fuel_ok hL (PGV.Go.depth w) w (Nat.le_refl _) (part_inside hw hu hP)
  have hA : ∀ f ∈ d.fields, (fieldCode P (validate P S) false f).run (getField fs f) = .ok () ↔
      FieldOk E S (fun w => PGV.Go.validate E S false w = none) f (getField fs f) := by
    intro f hf
    refine fieldCode_ok hL _ _ false f _ (by simpa using hparse.2 f hf) ?_ (hF f hf)
    intro w hw
    unfold getField at hw
    cases hl : fs.lookup f.name with
    | some u =>
      rw [hl] at hw
      exact hrec u (fun x hx => .field (PGV.Java.mem_of_lookup hl) hx) w hw
    | none =>
      rw [hl] at hw
      have hw' := PGV.Go.zero_not_msg hw
      show validateFuel P S _ w = .ok () ↔ _
      rw [fuel_nonmsg hL _ w hw']
      cases w <;> first | exact absurd rfl (hw' _ _ _) | simp [EmbeddedOk]
  have hB : (seqAll d.oneofs (oneofCode P (validate P S))).run (fs, os) = .ok () := by
    rw [run_seqAll]
    intro o hm
    refine (oneofCode_ok hL _ (fun w => PGV.Go.validate E S false w = none) o (fs, os) (hparse.1 o hm) ?_ (hO o hm).1
      (hO o hm).2).2 ?_
    · intro m u hl
      exact hrec u (fun x hx => .member (PGV.Java.mem_of_lookup hl) hx)
    · have := ho o hm
      show OneofOk _ _ _ o (os.lookup o.name)
      cases hl : os.lookup o.name with
      | none => exact this.1 hl
      | some mu =>
        obtain ⟨m, u⟩ := mu
        cases hf : o.fields.find? (fun f => f.name == m) with
        | none => simp [OneofOk, hf]
        | some f =>
          have := this.2 m u f hl hf
          simpa [OneofOk, hf] using this
  rcases seq_split he with h | ⟨-, h⟩
  · rw [hB] at h; cases h
  · obtain ⟨pre, f, post, h1, h2, h3⟩ := seqAll_split h
    have hf : f ∈ d.fields := by simp [h1]
    have h3 : (fieldCode P (validate P S) false f).run (getField fs f) = .error (.failed n t) := by
      have := h3
      cases hc : fieldCode P (validate P S) false f with
      | none => rw [hc] at this; cases this
      | some l => rw [hc] at this; rw [← this]; exact (runAll_on (fun c : Content => getField c.1 f) l (fs, os)).symm
    refine ⟨f, hf, ?_, .field h1 (fun g hg => (hA g (by simp [h1, hg])).1 (by simpa using h2 g hg)) ?_⟩
    · rcases field_grounds typ h3 with h | ⟨i, r, w, g1, -, g3⟩
      · exact .inl h
      · exact .inr ⟨i, r, w, g1, g3⟩
    · intro hok
      rw [(hA f hf).2 hok] at h3
      cases h3

end Py

end PGV.First
