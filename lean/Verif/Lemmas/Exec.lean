import Verif.Go.Validate
import Verif.Spec.Errors

/-!
How fragments of generated code compose: each fragment, in "all" mode, appends a fixed list of
errors; in "first" mode it returns a fixed optional error; the two agree; and the fragment passes
exactly when a proposition holds.
-/

namespace PGV.Go
open PGV Exec PGV.Spec

/-- Agreement of a first error with a list of errors. -/
def Agree : Option Err → List Err → Prop
  | none, [] => True
  | some e, e' :: _ => FirstOf e e'
  | _, _ => False

/-- The errors a fragment appends in "all" mode. -/
def allErrs (x : Bool → Exec) : List Err :=
  match x true [] with
  | .ok l => l
  | .error e => [e]

/-- The error a fragment returns in "first" mode. -/
def fastErr (x : Bool → Exec) : Option Err :=
  match x false [] with
  | .ok _ => none
  | .error e => some e

/-- The fragment `x` behaves uniformly, its two modes agree, all its errors satisfy `W` and it
passes exactly when `P`. -/
structure Ok (W : Err → Prop) (x : Bool → Exec) (P : Prop) : Prop where
  all : ∀ acc, x true acc = .ok (acc ++ allErrs x)
  fast : ∀ acc, x false acc =
    match fastErr x with
    | none => .ok acc
    | some e => .error e
  agree : Agree (fastErr x) (allErrs x)
  spec : fastErr x = none ↔ P
  shape : ∀ e ∈ allErrs x, W e

theorem Ok.mk' {W : Err → Prop} {x : Bool → Exec} {P : Prop} (f : Option Err) (l : List Err)
    (h1 : ∀ acc, x true acc = .ok (acc ++ l))
    (h2 : ∀ acc, x false acc = match f with | none => .ok acc | some e => .error e)
    (h3 : Agree f l) (h4 : f = none ↔ P) (h5 : ∀ e ∈ l, W e) :
    Ok W x P ∧ allErrs x = l ∧ fastErr x = f := by
  have hl : allErrs x = l := by simp [allErrs, h1]
  have hf : fastErr x = f := by
    unfold fastErr; rw [h2]; cases f <;> rfl
  exact ⟨⟨by rw [hl]; exact h1, by rw [hf]; exact h2, by rw [hl, hf]; exact h3,
    by rw [hf]; exact h4, by rw [hl]; exact h5⟩, hl, hf⟩

theorem Agree.none_iff {f : Option Err} {l : List Err} (h : Agree f l) : f = none ↔ l = [] := by
  cases f <;> cases l <;> simp_all [Agree]

namespace Ok
variable {W V : Err → Prop} {x y : Bool → Exec} {P Q : Prop}

theorem iff (h : Ok W x P) (hPQ : P ↔ Q) : Ok W x Q :=
  ⟨h.all, h.fast, h.agree, h.spec.trans hPQ, h.shape⟩

theorem mono (h : Ok W x P) (hW : ∀ e, W e → V e) : Ok V x P :=
  ⟨h.all, h.fast, h.agree, h.spec, fun e he => hW e (h.shape e he)⟩

theorem congr (h : Ok W x P) (hx : ∀ a acc, y a acc = x a acc) : Ok W y P := by
  have : y = x := by funext a acc; exact hx a acc
  rw [this]; exact h

theorem specAll (h : Ok W x P) : allErrs x = [] ↔ P := h.agree.none_iff.symm.trans h.spec

theorem skip_eq : allErrs (fun _ => Exec.skip) = [] := rfl

protected theorem skip : Ok W (fun _ => Exec.skip) True :=
  (Ok.mk' none [] (by intro acc; simp [Exec.skip]) (by intro acc; rfl) trivial (by simp)
    (by simp)).1

theorem report_all {e : Err} : allErrs (fun all => Exec.report all e) = [e] := rfl

protected theorem report {e : Err} (hW : W e) : Ok W (fun all => Exec.report all e) False :=
  (Ok.mk' (some e) [e] (by intro acc; rfl) (by intro acc; rfl) (FirstOf.same e) (by simp)
    (by simpa using hW)).1

theorem seq_aux (hx : Ok W x P) (hy : Ok W y Q) :
    Ok W (fun all => Exec.seq (x all) (y all)) (P ∧ Q) ∧
      allErrs (fun all => Exec.seq (x all) (y all)) = allErrs x ++ allErrs y ∧
      fastErr (fun all => Exec.seq (x all) (y all)) = (fastErr x).or (fastErr y) := by
  refine Ok.mk' _ _ ?_ ?_ ?_ ?_ ?_
  · intro acc
    simp [Exec.seq, hx.all, hy.all, List.append_assoc]
  · intro acc
    simp only [Exec.seq, hx.fast, hy.fast]
    cases hfx : fastErr x <;> simp [hy.fast]
  · have h1 := hx.agree
    have h2 := hy.agree
    revert h1 h2
    cases fastErr x <;> cases allErrs x <;> simp [Agree]
    exact fun h _ => h
  · rw [← hx.spec, ← hy.spec]
    cases fastErr x <;> simp
  · intro e he
    rcases List.mem_append.1 he with h | h
    · exact hx.shape e h
    · exact hy.shape e h

protected theorem seq (hx : Ok W x P) (hy : Ok W y Q) :
    Ok W (fun all => Exec.seq (x all) (y all)) (P ∧ Q) := (seq_aux hx hy).1

theorem seq_all (hx : Ok W x P) (hy : Ok W y Q) :
    allErrs (fun all => Exec.seq (x all) (y all)) = allErrs x ++ allErrs y := (seq_aux hx hy).2.1

protected theorem «when» {b : Bool} (hx : Ok W x P) :
    Ok W (fun all => Exec.when b (x all)) (b = true → P) := by
  cases b
  · exact (Ok.skip (W := W)).iff (by simp)
  · simpa [Exec.when] using hx

protected theorem ite {c : Prop} [Decidable c] (hx : Ok W x P) (hy : Ok W y Q) :
    Ok W (fun all => if c then x all else y all) ((c → P) ∧ (¬c → Q)) := by
  by_cases h : c
  · exact (hx.congr (by simp [h])).iff (by simp [h])
  · exact (hy.congr (by simp [h])).iff (by simp [h])

/-- `if b { report }`: passes exactly when `b` is false. -/
protected theorem check {b : Bool} {e : Err} (hW : W e) :
    Ok W (fun all => Exec.when b (Exec.report all e)) (b = false) :=
  ((Ok.report hW).when).iff (by simp)

theorem forEach_aux {α : Type} {f : α → Bool → Exec} {P : α → Prop} (xs : List α)
    (h : ∀ a ∈ xs, Ok W (f a) (P a)) :
    Ok W (fun all => Exec.forEach xs (fun a => f a all)) (∀ a ∈ xs, P a) ∧
      allErrs (fun all => Exec.forEach xs (fun a => f a all)) =
        xs.flatMap (fun a => allErrs (f a)) ∧
      fastErr (fun all => Exec.forEach xs (fun a => f a all)) =
        xs.findSome? (fun a => fastErr (f a)) := by
  induction xs with
  | nil => exact ⟨Ok.skip.iff (by simp), rfl, rfl⟩
  | cons a xs ih =>
    have ha := h a (by simp)
    have ⟨ih1, ih2, ih3⟩ := ih (fun b hb => h b (by simp [hb]))
    have ⟨s1, s2, s3⟩ := seq_aux ha ih1
    refine ⟨(s1.congr (fun _ _ => rfl)).iff (by simp), ?_, ?_⟩
    · rw [List.flatMap_cons, ← ih2]; exact s2
    · rw [List.findSome?_cons, ← ih3]
      refine s3.trans ?_
      cases fastErr (f a) <;> rfl

protected theorem forEach {α : Type} {f : α → Bool → Exec} {P : α → Prop} (xs : List α)
    (h : ∀ a ∈ xs, Ok W (f a) (P a)) :
    Ok W (fun all => Exec.forEach xs (fun a => f a all)) (∀ a ∈ xs, P a) := (forEach_aux xs h).1

theorem forEach_all {α : Type} {f : α → Bool → Exec} {P : α → Prop} (xs : List α)
    (h : ∀ a ∈ xs, Ok W (f a) (P a)) :
    allErrs (fun all => Exec.forEach xs (fun a => f a all)) =
        xs.flatMap (fun a => allErrs (f a)) := (forEach_aux xs h).2.1

end Ok

end PGV.Go
