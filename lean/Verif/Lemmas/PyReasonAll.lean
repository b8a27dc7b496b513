import Verif.Lemmas.PyReasonMsg
import Verif.Lemmas.PyOne

/-!
The messages of Python exceptions, for whole messages.
-/

set_option linter.unusedSimpArgs false

namespace PGV.Py
open PGV PGV.Py.Code PGV.Spec.PyReason
open PGV.Spec hiding lenient

variable {P : PEnv} {n : String} {t : Text} {S : Schema}

theorem fieldCode_lenient (P : PEnv) (rec : Val → Run) (b : Bool) (f : FieldDesc) :
    fieldCode (lenient P) rec b f = fieldCode P rec b f := rfl

theorem alone_code {typ : String} {f : FieldDesc} {u : Val} (h : Alone P typ f u) :
    ∃ rec, (fieldCode P rec false f).run u = .ok () := by
  have hS : soleField typ f typ = .generated { name := typ, fields := [f] } := if_pos rfl
  have hi : NotIgnored (soleField typ f) typ := by
    intro d hd
    rw [hS] at hd
    cases hd; rfl
  have ho : OnlyField (soleField typ f) typ f := ⟨_, hS, rfl, rfl, rfl⟩
  have := (pyAccepts_iff ho hi u).1 h
  rw [fieldCode_lenient] at this
  exact ⟨_, this⟩

theorem field_grounds {rec : Val → Run} {b : Bool} {f : FieldDesc} {v : Val} (typ : String)
    (h : (fieldCode P rec b f).run v = .error (.failed n t)) :
    Grounds P typ f v n t ∨
      ∃ i rules w, HeldBy f v i rules w ∧ msgSkip rules.message = false ∧ rec w = .error (.failed n t) :=
  fieldCode_grounds (acc := Alone P typ f) (fun _ hu => alone_code hu) h

theorem member_fails {rec : Val → Run} {o : OneofDesc} {c : Content} : ∀ {l : List FieldDesc},
    (memberCode P rec o l).run c = .error (.failed n t) →
    ∃ f ∈ l, ∃ v, c.2.lookup o.name = some (f.name, v) ∧ (fieldCode P rec true f).run v = .error (.failed n t) := by
  intro l
  induction l with
  | nil => intro h; cases h
  | cons f l ih =>
    intro h
    rcases fails_seq h with h | h
    · obtain ⟨hg, h, -⟩ := fails_block h
      rcases fails_seq h with h | h
      · rw [run_stmt] at h; cases h
      · rw [run_on] at h
        cases hl : c.2.lookup o.name with
        | none => simp [hl] at hg
        | some p =>
          obtain ⟨m, v⟩ := p
          simp only [hl] at hg h
          have : m = f.name := by simpa using hg
          subst this
          exact ⟨f, List.mem_cons_self, v, rfl, h⟩
    · obtain ⟨g, hg, v, h1, h2⟩ := ih h
      exact ⟨g, List.mem_cons_of_mem _ hg, v, h1, h2⟩

/-- What the message of an exception is about. -/
def About (P : PEnv) (S : Schema) (v : Val) (n : String) (t : Text) : Prop :=
  (∃ typ fs os d, Inside S v (.msg typ fs os) ∧ S typ = .generated d ∧ d.disabled = false ∧ d.ignored = false ∧
    ((∃ o ∈ d.oneofs, o.required = true ∧ (∀ f ∈ o.fields, ∀ u, os.lookup o.name ≠ some (f.name, u)) ∧
        n = "Oneof " ++ o.name ∧ t = [.s "is required"]) ∨
      ∃ f u, Live d fs os f u ∧ Grounds P typ f u n t)) ∨
  ∃ w, Inside S v w ∧ ¬ Ruled S w ∧ P.other w = .error (.failed n t)

theorem About.inner {typ fs os d f v i rules w} (hS : S typ = .generated d) (hd : d.disabled = false)
    (hi : d.ignored = false) (hl : Live d fs os f v) (hh : HeldBy f v i rules w) (hs : msgSkip rules.message = false)
    (h : About P S w n t) : About P S (.msg typ fs os) n t := by
  rcases h with ⟨typ', fs', os', d', h, h'⟩ | ⟨u, h, h'⟩
  · exact .inl ⟨_, _, _, _, .inner hS hd hi hl hh hs h, h'⟩
  · exact .inr ⟨_, .inner hS hd hi hl hh hs h, h'⟩

theorem step_about {rec : Val → Run} {v : Val} (hrec : ∀ w, rec w = .error (.failed n t) → About P S w n t)
    (h : validateStep P S rec v = .error (.failed n t)) : About P S v n t := by
  unfold validateStep at h
  cases v with
  | msg typ fs os =>
    simp only at h
    cases hS : S typ with
    | generated d =>
      rw [hS] at h
      simp only [msgCode] at h
      cases hd : d.disabled with
      | true =>
        rw [hd] at h
        simp only [Bool.true_or, if_true] at h
        revert h
        generalize (seqAll d.oneofs (oneofCode P rec) ;; _) = c
        cases c <;> simp [Code.run, runAll]
      | false =>
        cases hi : d.ignored with
        | true =>
          rw [hd, hi] at h
          simp only [Bool.or_true, if_true] at h
          revert h
          generalize (seqAll d.oneofs (oneofCode P rec) ;; _) = c
          cases c <;> simp [Code.run, runAll]
        | false =>
          rw [hd, hi] at h
          simp only [Bool.or_false, Bool.false_eq_true, if_false] at h
          have field : ∀ {f u b}, Live d fs os f u → (fieldCode P rec b f).run u = .error (.failed n t) →
              About P S (.msg typ fs os) n t := by
            intro f u b hl hf
            rcases field_grounds typ hf with h | ⟨i, rules, w, hh, hs, h⟩
            · exact .inl ⟨typ, fs, os, d, .self _, hS, hd, hi, .inr ⟨f, u, hl, h⟩⟩
            · exact (hrec w h).inner hS hd hi hl hh hs
          rcases fails_seq h with h | h
          · obtain ⟨o, ho, h⟩ := fails_seqAll h
            rcases fails_seq h with h | h
            · obtain ⟨f, hf, u, hl, h⟩ := member_fails h
              exact field (.member ho hf hl) h
            · obtain ⟨hr, h⟩ := fails_gen h
              obtain ⟨rfl, rfl, ht⟩ := fails_raiseIf h
              refine .inl ⟨typ, fs, os, d, .self _, hS, hd, hi, .inl ⟨o, ho, hr, fun f hf u hl => ?_, rfl, rfl⟩⟩
              simp only [hl] at ht
              simp only [Bool.not_eq_true', List.any_eq_false, beq_iff_eq] at ht
              exact ht f hf rfl
          · obtain ⟨f, hf, h⟩ := fails_seqAll h
            rw [run_on] at h
            exact field (.field hf) h
    | _ =>
      rw [hS] at h
      refine .inr ⟨_, .self _, ?_, h⟩
      rintro ⟨_, _, _, d, ⟨⟩, hd⟩
      rw [hS] at hd; cases hd
  | _ =>
    refine .inr ⟨_, .self _, ?_, h⟩
    rintro ⟨_, _, _, d, ⟨⟩, hd⟩

theorem validate_about {v : Val} (h : validate P S v = .error (.failed n t)) : About P S v n t := by
  have : ∀ k v, validateFuel P S k v = .error (.failed n t) → About P S v n t := by
    intro k
    induction k with
    | zero => intro v h; cases h
    | succ k ih => intro v h; exact step_about ih h
  exact this _ v h

end PGV.Py
