import Verif.Lemmas.Fix
import Verif.Props.Fixtures

/-!
C01-C04, C28: the two entry points, the meaning of validation, nested failures.
-/

set_option linter.unusedSimpArgs false

namespace PGV.Props
open PGV PGV.Go PGV.Spec

theorem messageOk_order (E : Env) (o : List (Scalar × Val) → List (Scalar × Val))
    (ho : ∀ l, (o l).Perm l) (S : Schema) (ok : Val → Prop) (v : Val) :
    MessageOk (withOrder E o ho) S ok v = MessageOk E S ok v := rfl

/-- **C01** `Validate()` and `ValidateAll()` agree on validity, even when they (and all calls on
embedded messages) iterate maps in different orders. -/
theorem C01_validate_agrees (E : Env) (o : List (Scalar × Val) → List (Scalar × Val))
    (ho : ∀ l, (o l).Perm l) (S : Schema) (v : Val) :
    validate E S false v = none ↔ validate (withOrder E o ho) S true v = none := by
  rw [validate_modes]
  refine (validate_unique E S (fun v => validate (withOrder E o ho) S false v = none) ?_ v).symm
  intro v
  rw [validate_spec, messageOk_order]

/-- The hypotheses of C01 are met by a different order: reversal. -/
example : ∀ l : List (Scalar × Val), (l.reverse).Perm l := fun l => l.reverse_perm

/-- C01 is about both outcomes: one value passes and one fails. -/
example : validate Fixtures.env Fixtures.schema false Fixtures.ann = none ∧
    (validate Fixtures.env Fixtures.schema false Fixtures.bob).isSome = true := by decide

theorem root_firstOf {e e' : Err} (h : FirstOf e e') : root e = root e' := by
  induction h with
  | same => rfl
  | nested _ ih => simp [root, ih]

/-- **C02** When `ValidateAll()` fails it returns a multi-error for the message's type whose first
error is the one `Validate()` returns, recursively through causes; in particular both have the same
root cause. And `ValidateAll()` fails whenever `Validate()` does. -/
theorem C02_first_error (E : Env) (S : Schema) (v : Val) (e : Err)
    (h : validate E S false v = some e) :
    ∃ n e' rest, validate E S true v = some (.multi n (e' :: rest)) ∧ FirstOf e e' ∧
      root e = root e' := by
  have hr := validate_recOk E S v
  rw [h] at hr
  cases ht : validate E S true v with
  | none => simp [ht] at hr
  | some x =>
    cases x with
    | multi n es =>
      cases es with
      | nil => simp [ht] at hr
      | cons e' rest =>
        simp only [ht] at hr
        exact ⟨n, e', rest, rfl, hr, root_firstOf hr⟩
    | viol => simp [ht] at hr
    | lib => simp [ht] at hr

/-- C02's hypothesis is met. -/
example : ∃ e, validate Fixtures.env Fixtures.schema false Fixtures.bob = some e :=
  Option.isSome_iff_exists.1 (by decide)

/-- **C03** `ValidateAll()` reports, in schema order (fields outside oneofs, then oneofs), exactly
the errors that message types declaring only one of these fields (oneofs) would report for the same
values. -/
theorem C03_all_errors (E : Env) (S : Schema) (typ : String) (d : MsgDesc)
    (fs : List (String × Val)) (os : List (String × String × Val))
    (hS : S typ = .generated d) (hd : d.disabled = false)
    (ft : FieldDesc → String) (ot : OneofDesc → String)
    (hf : ∀ f ∈ d.fields, S (ft f) = .generated { name := d.name, fields := [f] })
    (ho : ∀ o ∈ d.oneofs, S (ot o) = .generated { name := d.name, oneofs := [o] }) :
    errorList (validate E S true (.msg typ fs os)) =
      d.fields.flatMap (fun f => errorList (validate E S true (.msg (ft f) fs os))) ++
      d.oneofs.flatMap (fun o => errorList (validate E S true (.msg (ot o) fs os))) := by
  have el : ∀ (n : String) (l : List Err),
      errorList (if l = [] then none else some (.multi n l)) = l := by
    intro n l; cases l <;> simp [errorList]
  rw [validate_all_msg hS hd]
  simp only [el]
  congr 1
  · refine flatMap_congr' fun f hm => ?_
    rw [validate_all_msg (hf f hm) rfl]
    simp only [el]
    simp
  · refine flatMap_congr' fun o hm => ?_
    rw [validate_all_msg (ho o hm) rfl]
    simp only [el]
    simp

/-- **C03** Every error `ValidateAll()` reports is a violation of the message's own type, and the
result is a multi-error of that type. -/
theorem C03_errors_name_type (E : Env) (S : Schema) (typ : String) (d : MsgDesc)
    (fs : List (String × Val)) (os : List (String × String × Val))
    (hS : S typ = .generated d) (e : Err) (h : validate E S true (.msg typ fs os) = some e) :
    ∃ es, e = .multi d.name es ∧ es ≠ [] ∧
      ∀ x ∈ es, ∃ f reason cause, x = .viol d.name f reason cause false := by
  cases hd : d.disabled with
  | true => rw [validate_eq] at h; simp [validateStep, hS, hd] at h
  | false =>
    have hb := body_ok E S (validate E S) (validate_recOk E S) d fs os
    rw [validate_eq] at h
    simp only [validateStep, hS, hd, Bool.false_eq_true, if_false] at h
    rw [finish_all hb] at h
    split at h
    · simp at h
    · rename_i hne
      simp only [Option.some.injEq] at h
      exact ⟨_, h.symm, hne, hb.shape⟩

/-- **C03** `Validate()` returns the error of the first field (oneof) that has one. -/
theorem C03_validate_order (E : Env) (S : Schema) (typ : String) (d : MsgDesc)
    (fs : List (String × Val)) (os : List (String × String × Val))
    (hS : S typ = .generated d) (hd : d.disabled = false)
    (ft : FieldDesc → String) (ot : OneofDesc → String)
    (hf : ∀ f ∈ d.fields, S (ft f) = .generated { name := d.name, fields := [f] })
    (ho : ∀ o ∈ d.oneofs, S (ot o) = .generated { name := d.name, oneofs := [o] }) :
    validate E S false (.msg typ fs os) =
      ((d.fields.map ft ++ d.oneofs.map ot).findSome? fun t => validate E S false (.msg t fs os)) := by
  rw [validate_fast_msg hS hd, List.findSome?_append, List.findSome?_map, List.findSome?_map]
  congr 1
  · refine findSome_congr fun f hm => ?_
    simp only [Function.comp_apply]
    rw [validate_fast_msg (hf f hm) rfl]
    simp
  · refine findSome_congr fun o hm => ?_
    simp only [Function.comp_apply]
    rw [validate_fast_msg (ho o hm) rfl]
    simp

/-- C03's hypotheses are met by the `Person` type, for a message with three errors. -/
example : Fixtures.schema "Person" = .generated Fixtures.person ∧
    Fixtures.person.disabled = false ∧
    (∀ f ∈ Fixtures.person.fields,
      Fixtures.schema f.name = .generated { name := Fixtures.person.name, fields := [f] }) ∧
    (∀ o ∈ Fixtures.person.oneofs,
      Fixtures.schema o.name = .generated { name := Fixtures.person.name, oneofs := [o] }) ∧
    (errorList (validate Fixtures.env Fixtures.schema true Fixtures.bob)).length = 3 := by
  refine ⟨rfl, rfl, ?_, ?_, by decide⟩
  · intro f hf
    simp only [Fixtures.person, List.mem_cons, List.not_mem_nil, or_false] at hf
    rcases hf with rfl | rfl | rfl <;> rfl
  · intro o ho
    simp only [Fixtures.person, List.mem_cons, List.not_mem_nil, or_false] at ho
    subst ho; rfl

/-- **C04** `Validate()` accepts a message exactly when it satisfies the declarative meaning of its
rules, embedded messages being judged by `Validate()` in turn. -/
theorem C04_validate_decides (E : Env) (S : Schema) (v : Val) :
    validate E S false v = none ↔ MessageOk E S (fun w => validate E S false w = none) v :=
  validate_spec E S v

/-- **C04** There is exactly one predicate with that property. -/
theorem C04_unique (E : Env) (S : Schema) (P : Val → Prop) (hP : ∀ v, P v ↔ MessageOk E S P v)
    (v : Val) : P v ↔ validate E S false v = none :=
  validate_unique E S P hP v

/-- **C04** `Validate()`/`ValidateAll()` terminate and are the recursive methods the templates
generate: unfolding one call gives the template's body with calls on embedded messages. -/
theorem C04_recursion (E : Env) (S : Schema) (all : Bool) (v : Val) :
    validate E S all v = validateStep E S (validate E S) all v :=
  validate_eq E S all v

/-- C04_unique's hypothesis is met, by `Validate()` itself. -/
example (E : Env) (S : Schema) : ∀ v, (validate E S false v = none) ↔
    MessageOk E S (fun w => validate E S false w = none) v := C04_validate_decides E S

/-! ### C28 -/

theorem embeds_invalid {E : Env} {S : Schema} {v w : Val} {i : FieldRef} (h : Embeds S v i w)
    (hv : validate E S false v = none) : validate E S false w = none := by
  rw [C04_validate_decides] at hv
  obtain ⟨hS, hd, hA, hH, ht, hs, typ', fs', os', d', rfl, hS', hi⟩ := h
  rename_i typ fs os d f v i rules
  simp only [MessageOk, hS] at hv
  obtain ⟨h1, h2⟩ := hv hd
  have hF : FieldOk E S (fun w => validate E S false w = none) f v := by
    cases hA with
    | field hf => exact h1 _ hf
    | member ho hl hm =>
      have := h2 _ ho
      rw [hl] at this
      exact this _ hm
  have fin : EmbeddedOk E S (fun w => validate E S false w = none) (.msg typ' fs' os') →
      validate E S false (.msg typ' fs' os') = none := by
    intro h; simp only [EmbeddedOk, hS'] at h; exact h hi
  cases hH with
  | field hT =>
    rename_i t k
    obtain ⟨name, typ, rules⟩ := f
    simp only at hT
    subst hT
    simp only [FieldOk, ValueOk, ht] at hF
    exact fin ((hF rfl).2 hs)
  | item hT hI hn =>
    rename_i t k vs n
    obtain ⟨name, typ, rules⟩ := f
    simp only at hT hI
    subst hT
    have hm := List.mem_of_getElem? hn
    simp only [FieldOk] at hF
    unfold itemRules at hI
    split at hI
    · rename_i r items hr
      simp only [Option.some.injEq] at hI
      subst hI
      simp only [hr, RepeatedOk] at hF
      rcases hF with ⟨_, h0⟩ | ⟨_, _, h3⟩
      · subst h0; simp at hm
      · have := h3 _ hm
        simp only [ValueOk, ht] at this
        exact fin ((this rfl).2 hs)
    · rename_i hr
      simp only [hr] at hF
      exact fin (hF _ hm rfl)
    · simp at hI
  | value hT hI hm =>
    rename_i kt t k kvs key
    obtain ⟨name, typ, rules⟩ := f
    simp only at hT hI
    subst hT
    simp only [FieldOk] at hF
    unfold valueRules at hI
    split at hI
    · rename_i r keys values hr
      simp only [Option.some.injEq] at hI
      subst hI
      simp only [hr, MapOk] at hF
      rcases hF with ⟨_, h0⟩ | ⟨_, h3⟩
      · subst h0; simp at hm
      · have := (h3 _ hm).2.2
        simp only [ValueOk, ht] at this
        exact fin ((this rfl).2 hs)
    · rename_i hr
      simp only [hr] at hF
      exact fin (hF _ hm rfl)
    · simp at hI

/-- **C28** A message embedding, at any depth and without `skip`, a message `Validate()` rejects is
itself rejected. -/
theorem C28_nested_invalid (E : Env) (S : Schema) (v w : Val) (h : Nested S v w)
    (hw : validate E S false w ≠ none) : validate E S false v ≠ none := by
  induction h with
  | self => exact hw
  | inner he _ ih => exact fun hv => ih hw (embeds_invalid he hv)

/-- **C28** Following `Cause()` from the error `Validate()` returns, one arrives at the error
`Validate()` returns for the innermost failing message: a message nested in `v` whose error is not
caused by the failure of a message embedded in it (it has no cause, or a library error, or the
error of an older generated `Validate` as its cause). -/
theorem C28_cause_chain (E : Env) (S : Schema) (v : Val) (e : Err)
    (h : validate E S false v = some e) :
    ∃ w t f reason cause k, Nested S v w ∧
      validate E S false w = some (.viol t f reason cause k) ∧
      Reaches e (.viol t f reason cause k) ∧
      (cause = none ∨ (∃ text, cause = some (.lib text)) ∨
        ∃ u x, cause = some x ∧ E.legacy u = some x) := by
  have key : ∀ n, ∀ v e, depth v ≤ n → validate E S false v = some e →
      ∃ w t f reason cause k, Nested S v w ∧
      validate E S false w = some (.viol t f reason cause k) ∧
      Reaches e (.viol t f reason cause k) ∧
      (cause = none ∨ (∃ text, cause = some (.lib text)) ∨
        ∃ u x, cause = some x ∧ E.legacy u = some x) := by
    intro n
    induction n with
    | zero => intro v e hn; have := depth_pos v; omega
    | succ n ih =>
      intro v e hn h
      have h' := h
      rw [validate_eq] at h'
      cases v with
      | msg typ fs os =>
        cases hS : S typ with
        | generated d =>
          cases hd : d.disabled with
          | true => simp [validateStep, hS, hd] at h'
          | false =>
            simp only [validateStep, hS, hd, Bool.false_eq_true, if_false] at h'
            have hb := body_ok E S (validate E S) (validate_recOk E S) d fs os
            have hm : MsgErr E S false (validate E S) d fs os e := by
              rcases (body_raises E S false (validate E S) d fs os).fast h' with hq | ⟨es, he, _⟩
              · exact hq
              · rw [hb.fast] at h'
                cases hf : fastErr (fun all => bodyExec E S all (validate E S) d fs os) with
                | none => simp [hf, finish] at h'
                | some e1 =>
                  have hr := validate_recOk E S (.msg typ fs os)
                  have hag := hb.agree
                  have hsh := hb.shape
                  rw [hf] at hag
                  simp only [hf, finish, Option.some.injEq] at h'
                  subst h'
                  subst he
                  cases hal : allErrs (fun all => bodyExec E S all (validate E S) d fs os) with
                  | nil => simp [hal, Agree] at hag
                  | cons a as =>
                    rw [hal] at hag hsh
                    obtain ⟨f, r, c, hx⟩ := hsh a (by simp)
                    simp only [Agree] at hag
                    rw [hx] at hag
                    cases hag
            have leaf : ∀ {t f r c k}, e = .viol t f r c k →
                (c = none ∨ (∃ text, c = some (.lib text)) ∨
                  ∃ u x, c = some x ∧ E.legacy u = some x) →
                ∃ w t f reason cause k, Nested S (.msg typ fs os) w ∧
                  validate E S false w = some (.viol t f reason cause k) ∧
                  Reaches e (.viol t f reason cause k) ∧
                  (cause = none ∨ (∃ text, cause = some (.lib text)) ∨
                    ∃ u x, cause = some x ∧ E.legacy u = some x) := by
              intro t f r c k he hc
              exact ⟨.msg typ fs os, t, f, r, c, k, .self _, he ▸ h, he ▸ .here _, hc⟩
            cases hm with
            | oneof ho hl => exact leaf rfl (.inl rfl)
            | field hA hF =>
              cases hF with
              | own hp =>
                rename_i cause
                refine leaf rfl ?_
                cases cause with
                | none => exact .inl rfl
                | some c =>
                  cases c with
                  | lib t => exact .inr (.inl ⟨t, rfl⟩)
                  | viol => simp [PlainCause] at hp
                  | multi => simp [PlainCause] at hp
              | nested hH ht hs hc =>
                rename_i f v i rules w x
                rcases hc with ⟨hV, hx⟩ | hx
                · have hE : Embeds S (.msg typ fs os) ⟨f.name, i⟩ w :=
                    .mk hS hd hA hH ht hs hV
                  have hdw : depth w < depth (.msg typ fs os) := embeds_depth hE
                  obtain ⟨u, t, f, r, c, k, h1, h2, h3, h4⟩ := ih w x (by omega) hx
                  exact ⟨u, t, f, r, c, k, .inner hE h1, h2, .cause h3, h4⟩
                · exact leaf rfl (.inr (.inr ⟨w, x, rfl, hx⟩))
        | legacy => simp [validateStep, hS] at h'
        | foreign => simp [validateStep, hS] at h'
      | _ => simp [validateStep] at h'
  exact key (depth v) v e (Nat.le_refl _) h

/-- C28's hypotheses are met: the second friend of `bob` is invalid and nested in `bob`; and `bob`
nested in the oneof of a third message is two levels deep. -/
example : ∃ w, Nested Fixtures.schema
      (.msg "Person" [("Age", .sc (.num (.int 7)))] [("Contact", "Peer", Fixtures.bob)]) w ∧
    w = .msg "Person" [("Age", .sc (.num (.int (-1))))] [("Contact", "Peer", Fixtures.ann)] ∧
    validate Fixtures.env Fixtures.schema false w ≠ none := by
  refine ⟨_, ?_, rfl, ?_⟩
  · have hv : Validated Fixtures.schema Fixtures.bob := ⟨_, _, _, Fixtures.person, rfl, rfl, rfl⟩
    refine .inner (.mk (d := Fixtures.person) (rules := .absent) rfl rfl
      (.member (o := Fixtures.contact) (m := "Peer")
        (f := { name := "Peer", typ := .one (.embed "Person" none), rules := .absent })
        (by simp [Fixtures.person]) rfl rfl) (.field rfl) rfl rfl hv) ?_
    refine .inner (.mk (d := Fixtures.person) (rules := .absent) (f := Fixtures.friends) rfl rfl
      (.field (by simp [Fixtures.person])) (.item (n := 1) rfl rfl rfl) rfl rfl
      ⟨_, _, _, Fixtures.person, rfl, rfl, rfl⟩) (.self _)
  · rw [Option.ne_none_iff_isSome]; decide

end PGV.Props
