import Verif.Py.Templates
import Verif.Lemmas.Lib

/-!
When fragments of generated Python code run without an exception.
-/

set_option linter.unusedSimpArgs false
set_option autoImplicit false

namespace PGV.Py.Code
open PGV PGV.Py

variable {nm : String} {why : Text}

variable {α β : Type}

theorem runAll_append (l m : List (α → Run)) (x : α) :
    runAll (l ++ m) x = .ok () ↔ runAll l x = .ok () ∧ runAll m x = .ok () := by
  induction l with
  | nil => simp [runAll]
  | cons s l ih =>
    simp only [List.cons_append, runAll]
    cases h : s x with
    | ok u => simpa using ih
    | error e => simp

theorem runAll_one (s : α → Run) (x : α) : runAll [s] x = s x := by
  simp only [runAll]
  cases h : s x <;> rfl

theorem forEach_ok (xs : List α) (body : α → Run) :
    forEach xs body = .ok () ↔ ∀ x ∈ xs, body x = .ok () := by
  induction xs with
  | nil => simp [forEach]
  | cons x xs ih =>
    simp only [forEach, List.mem_cons, forall_eq_or_imp]
    cases h : body x with
    | ok u => simpa using ih
    | error e => simp

@[simp] theorem run_seq (a b : Code α) (x : α) :
    (a ;; b).run x = .ok () ↔ a.run x = .ok () ∧ b.run x = .ok () := by
  cases a <;> cases b <;> simp [seq, run, runAll_append]

@[simp] theorem some_seq (a b : Code α) :
    (a ;; b).isSome = true ↔ a.isSome = true ∧ b.isSome = true := by
  cases a <;> cases b <;> simp [seq]

@[simp] theorem run_nothing (x : α) : (nothing : Code α).run x = .ok () := rfl

@[simp] theorem run_gen (g : Bool) (c : Code α) (x : α) :
    (gen g c).run x = .ok () ↔ (g = true → c.run x = .ok ()) := by
  cases g <;> simp [gen]

@[simp] theorem some_gen (g : Bool) (c : Code α) :
    (gen g c).isSome = true ↔ (g = true → c.isSome = true) := by
  cases g <;> simp [gen, nothing]

@[simp] theorem run_genOpt {γ : Type} (o : Option γ) (k : γ → Code α) (x : α) :
    (genOpt o k).run x = .ok () ↔ ∀ a, o = some a → (k a).run x = .ok () := by
  cases o <;> simp [genOpt]

@[simp] theorem some_genOpt {γ : Type} (o : Option γ) (k : γ → Code α) :
    (genOpt o k).isSome = true ↔ ∀ a, o = some a → (k a).isSome = true := by
  cases o <;> simp [genOpt, nothing]

@[simp] theorem run_stmt (s : α → Run) (x : α) : (stmt s).run x = s x := by
  simp [stmt, run, runAll_one]

@[simp] theorem run_raiseIf (t : α → Bool) (x : α) :
    (raiseIf nm why t).run x = .ok () ↔ t x = false := by
  simp only [raiseIf, run_stmt]
  cases t x <;> simp

theorem run_block {t : α → Bool} {c : Code α} (h : (block t c).isSome = true) (x : α) :
    (block t c).run x = .ok () ↔ (t x = true → c.run x = .ok ()) := by
  cases c with
  | none => simp [block] at h
  | some l =>
    cases l with
    | nil => simp [block] at h
    | cons s l =>
      have e : (block t (some (s :: l))).run x =
          if t x then runAll (s :: l) x else .ok () := run_stmt _ x
      rw [e]
      show _ ↔ (t x = true → runAll (s :: l) x = .ok ())
      cases t x <;> simp

theorem some_block {t : α → Bool} {c : Code α} (h : (block t c).isSome = true) :
    c.isSome = true := by
  cases c with
  | none => simp [block] at h
  | some l => rfl

theorem runAll_on (g : β → α) (l : List (α → Run)) (x : β) :
    runAll (l.map fun s x => s (g x)) x = runAll l (g x) := by
  induction l with
  | nil => rfl
  | cons s l ih => simp only [List.map_cons, runAll, ih]

@[simp] theorem run_on (g : β → α) (c : Code α) (x : β) : (on g c).run x = c.run (g x) := by
  cases c with
  | none => rfl
  | some l => simp only [on, run, Option.map_some, runAll_on]

@[simp] theorem some_on (g : β → α) (c : Code α) : (on g c).isSome = c.isSome := by
  cases c <;> rfl

@[simp] theorem some_onSecs (c : Code Int) : (onSecs c).isSome = c.isSome := by
  cases c <;> rfl

@[simp] theorem run_onSecs_dur (c : Code Int) (d : PDur) : (onSecs c).run (.dur d) = c.run (secsOf (.dur d)) := by
  cases c with
  | none => rfl
  | some l =>
    simp only [onSecs, run, Option.map_some]
    induction l with
    | nil => rfl
    | cons st l ih => simp only [List.map_cons, runAll, ih]

@[simp] theorem run_onSecs_ts (c : Code Int) (t : PTime) : (onSecs c).run (.ts t) = c.run (secsOf (.ts t)) := by
  cases c with
  | none => rfl
  | some l =>
    simp only [onSecs, run, Option.map_some]
    induction l with
    | nil => rfl
    | cons st l ih => simp only [List.map_cons, runAll, ih]

@[simp] theorem run_loop (c : Code α) (xs : List α) :
    (loop c).run xs = .ok () ↔ c.isSome = true ∧ ∀ x ∈ xs, c.run x = .ok () := by
  cases c with
  | none => simp [loop, run]
  | some l => simp [loop, run, runAll_one, forEach_ok, stmt]

@[simp] theorem some_loop (c : Code α) : (loop c).isSome = c.isSome := by
  cases c <;> rfl

theorem some_of_run {c : Code α} {x : α} (h : c.run x = .ok ()) : c.isSome = true := by
  cases c with
  | none => simp [run] at h
  | some l => rfl

@[simp] theorem run_none (x : α) : Code.run (none : Code α) x = .error .crash := rfl

theorem run_ite (p : Prop) [Decidable p] (a b : Code α) (x : α) :
    (if p then a else b).run x = .ok () ↔ if p then a.run x = .ok () else b.run x = .ok () := by
  split <;> rfl

theorem runAll_lift {γ δ : Type} (get : Scalar → Option γ) (inj : δ → Option Scalar)
    (l : List (γ → Run)) (v : δ) (s : Scalar) (a : γ) (hv : inj v = some s) (hs : get s = some a) :
    runAll (l.map fun (st : γ → Run) v =>
      match inj v with
      | some x => (match get x with | some a => st a | none => .error PyErr.crash)
      | none => .error .crash) v = runAll l a := by
  induction l with
  | nil => rfl
  | cons st l ih => simp only [List.map_cons, runAll, ih, hv, hs]

theorem run_onScalar {γ : Type} {get : Scalar → Option γ} {c : Code γ} {s : Scalar} {a : γ}
    (hs : get s = some a) : (onScalar get c).run (.sc s) = c.run a := by
  cases c with
  | none => rfl
  | some l =>
    simp only [onScalar, run, Option.map_some]
    induction l with
    | nil => rfl
    | cons st l ih => simp only [List.map_cons, runAll, ih, hs]

theorem run_onWrapped {γ : Type} {get : Scalar → Option γ} {c : Code γ} {s : Scalar} {a : γ}
    (hs : get s = some a) : (onWrapped get c).run (.wrapper s) = c.run a := by
  cases c with
  | none => rfl
  | some l =>
    simp only [onWrapped, run, Option.map_some]
    induction l with
    | nil => rfl
    | cons st l ih => simp only [List.map_cons, runAll, ih, hs]

@[simp] theorem some_onScalar {γ : Type} (get : Scalar → Option γ) (c : Code γ) :
    (onScalar get c).isSome = c.isSome := by cases c <;> rfl

@[simp] theorem some_onWrapped {γ : Type} (get : Scalar → Option γ) (c : Code γ) :
    (onWrapped get c).isSome = c.isSome := by cases c <;> rfl

@[simp] theorem run_seqAll (l : List β) (k : β → Code α) (x : α) :
    (seqAll l k).run x = .ok () ↔ ∀ a ∈ l, (k a).run x = .ok () := by
  induction l with
  | nil => simp [seqAll]
  | cons a l ih => simp [seqAll, ih]

@[simp] theorem some_seqAll (l : List β) (k : β → Code α) :
    (seqAll l k).isSome = true ↔ ∀ a ∈ l, (k a).isSome = true := by
  induction l with
  | nil => simp [seqAll, nothing]
  | cons a l ih => simp [seqAll, ih]

theorem run_ignoreBlock {o : Option Bool} {e : α → Bool} {c : Code α}
    (h : (ignoreBlock o e c).isSome = true) (x : α) {Q P : Prop} (hQ : e x = true ↔ Q)
    (hP : c.isSome = true → (c.run x = .ok () ↔ P)) :
    (ignoreBlock o e c).run x = .ok () ↔ (o = some true ∧ Q) ∨ P := by
  unfold ignoreBlock at *
  cases hi : optB o with
  | true =>
    rw [hi, if_pos rfl] at h
    rw [if_pos rfl, run_block h, hP (some_block h)]
    have : o = some true := (optB_iff o).1 hi
    simp only [this, true_and, ← hQ]
    cases e x <;> simp
  | false =>
    rw [hi, if_neg (by simp)] at h
    rw [if_neg (by simp), hP h]
    have : o ≠ some true := (optB_false_iff o).1 hi
    simp [this]

end PGV.Py.Code
