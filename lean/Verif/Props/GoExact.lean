import Verif.Lemmas.GoExact

/-!
C72: exactly which rules give Go code that compiles.
-/

set_option linter.unusedSimpArgs false

namespace PGV.Props
open PGV PGV.Go PGV.Spec

theorem field_nec {c : Bytes → Bool} {f0 f : FieldDesc} (hc : Checker.checkField c f0 = some f) (ht : GoTyped f)
    (hd : (fieldDecls f).all Decl.ok = true) (hok : (fieldCode f).ok (fieldDecls f) Scope.empty = true) :
    GoExpressible f := by
  have htop := ht.suits _ _ RuleAt.top
  have hnum := ht.ranges _ _ RuleAt.top
  obtain ⟨t, hty⟩ := out_field hc
  obtain ⟨-, hrep, hmap⟩ := out_type hty
  have hbo := out_bounds hty
  unfold fieldCode at hok
  cases htyp : f.typ with
  | one e =>
    rw [htyp] at htop
    simp only [htyp] at hok
    have hn := elem_nec (get_ok Scope.empty (.one e)) htop hbo hok
    rw [ownDecls_eq htyp htop] at hd
    have hg := ownDecls_nec htop hnum hbo hn.1 hd
    have notop : ∀ t' r', (∀ e, t' ≠ .one e) → ¬ RuleAt f t' r' := by
      intro t' r' hne h
      have := (ruleAt_top h hne).1
      rw [htyp] at this
      exact hne e this.symm
    refine ⟨?_, ?_, ?_⟩
    · intro t' r' h
      cases h with
      | top => rw [htyp]; exact hg
      | item h => exact absurd h (notop _ _ (by simp))
      | key h => exact absurd h (notop _ _ (by simp))
      | value h => exact absurd h (notop _ _ (by simp))
    · unfold TablesDeclared
      cases hr : f.rules.type with
      | repeated r i => rw [hr] at htop; obtain ⟨_, h⟩ := htop; cases h
      | map r k v => rw [hr] at htop; obtain ⟨_, _, h⟩ := htop; cases h
      | _ => trivial
    · intro k v m r ks vs h; rw [htyp] at h; cases h
  | rep e =>
    rw [htyp] at htop
    simp only [htyp] at hok
    have keys : MapKeyMatters f := by intro k v m r ks vs h; rw [htyp] at h; cases h
    cases hr : f.rules.type with
    | repeated r items =>
      rw [hr] at hok
      obtain ⟨m, hm⟩ := rules_eq hr (by simp)
      have hat : RuleAt f (.one e) items := RuleAt.item (m := m) (r := r) (by rw [← htyp, ← hm]; exact RuleAt.top)
      obtain ⟨e', items0, hT, -, hout⟩ := hrep r items hr
      rw [htyp] at hT
      cases hT
      obtain ⟨ti, hti⟩ := out_rules hout
      obtain ⟨l1, l2, hg, hsup⟩ := rep_nec htyp hr (ht.suits _ _ hat) (ht.ranges _ _ hat) (out_bounds hti) hd hok
      refine ⟨?_, by unfold TablesDeclared; rw [hr]; exact hsup, keys⟩
      intro t' r' h
      cases h with
      | top => rw [htyp, hr]; exact ⟨l1, l2⟩
      | item h =>
        obtain ⟨a, b⟩ := ruleAt_top h (by simp)
        rw [htyp] at a; cases a
        rw [hm] at b; cases b
        exact hg
      | key h => have := (ruleAt_top h (by simp)).1; rw [htyp] at this; cases this
      | value h => have := (ruleAt_top h (by simp)).1; rw [htyp] at this; cases this
    | unset =>
      refine ⟨?_, by unfold TablesDeclared; rw [hr]; trivial, keys⟩
      intro t' r' h
      cases h with
      | top => rw [hr]; trivial
      | item h => have := (ruleAt_top h (by simp)).2; rw [this] at hr; cases hr
      | key h => have := (ruleAt_top h (by simp)).1; rw [htyp] at this; cases this
      | value h => have := (ruleAt_top h (by simp)).1; rw [htyp] at this; cases this
    | _ => rw [hr] at htop; simp [Suits] at htop
  | map k v =>
    rw [htyp] at htop
    simp only [htyp] at hok
    cases hr : f.rules.type with
    | map r keys values =>
      rw [hr] at hok
      obtain ⟨m, hm⟩ := rules_eq hr (by simp)
      have hk : RuleAt f (.one k) keys := RuleAt.key (m := m) (r := r) (v := v) (values := values)
        (by rw [← htyp, ← hm]; exact RuleAt.top)
      have hv : RuleAt f (.one v) values := RuleAt.value (m := m) (r := r) (k := k) (keys := keys)
        (by rw [← htyp, ← hm]; exact RuleAt.top)
      obtain ⟨k', v', k0, v0, hT, -, hko, hvo⟩ := hmap r keys values hr
      rw [htyp] at hT
      cases hT
      obtain ⟨tk, htk⟩ := out_rules hko
      obtain ⟨tv, htv⟩ := out_rules hvo
      have hfail : elemFails v values = false := by
        cases he : elemFails v values with
        | false => rfl
        | true =>
          rw [elemFails_kind] at he
          exact absurd (.inr ⟨k, v, r, keys, values, htyp, hr, he.1, he.2⟩) ht.elems
      obtain ⟨l1, l2, gk, gv, hsup, hmat⟩ := map_nec hr (ht.scalarKeys k v htyp) hfail (ht.suits _ _ hk)
        (ht.ranges _ _ hk) (out_bounds htk) (ht.suits _ _ hv) (ht.ranges _ _ hv) (out_bounds htv) hok
      refine ⟨?_, by unfold TablesDeclared; rw [hr]; exact hsup, ?_⟩
      · intro t' r' h
        cases h with
        | top => rw [htyp, hr]; exact ⟨l1, l2⟩
        | item h => have := (ruleAt_top h (by simp)).1; rw [htyp] at this; cases this
        | key h =>
          obtain ⟨a, b⟩ := ruleAt_top h (by simp)
          rw [htyp] at a; cases a
          rw [hm] at b; cases b
          exact gk
        | value h =>
          obtain ⟨a, b⟩ := ruleAt_top h (by simp)
          rw [htyp] at a; cases a
          rw [hm] at b; cases b
          exact gv
      · intro k' v' m' r' ks' vs' h h'
        rw [htyp] at h; cases h
        rw [hm] at h'; cases h'
        exact hmat
    | unset =>
      refine ⟨?_, by unfold TablesDeclared; rw [hr]; trivial, ?_⟩
      · intro t' r' h
        cases h with
        | top => rw [hr]; trivial
        | item h => have := (ruleAt_top h (by simp)).1; rw [htyp] at this; cases this
        | key h => have := (ruleAt_top h (by simp)).2; rw [this] at hr; cases hr
        | value h => have := (ruleAt_top h (by simp)).2; rw [this] at hr; cases hr
      · intro k' v' m' r' ks' vs' _ h'; rw [h'] at hr; cases hr
    | _ => rw [hr] at htop; simp [Suits] at htop

/-- **C72, partial** For a message that passes the checks and whose rules fit their fields (`GoTyped`), the generated
Go code compiles, apart from names it shares with other messages, if, and only if, Go has a way to write each rule
(`GoExpressible`): numbers are finite, lists have no repeated member, lengths fit an `int`, durations that are bounds
fit 64 bits of nanoseconds, lists of bytes are on bytes fields and have no bytes below 16, only those lists and
patterns are used that tables are declared for, and the key of a map is used whenever its entries are looked at.
Missing: accepted messages with other rules, see `C72_map_key_unused` and the theorems after it. (`d'` is the message
as the checks leave it, with the patterns of `well_known_regex` written in.) -/
theorem C72_compiles_iff_partial (c : Bytes → Bool) (d d' : MsgDesc) (hc : Checker.checkMsg c d = some d')
    (hig : d'.ignored = false) (hdis : d'.disabled = false) (ht : ∀ f, FieldOf d' f → GoTyped f) :
    msgCompiles d' = true ↔ ∀ f, FieldOf d' f → GoExpressible f := by
  unfold msgCompiles
  simp only [hig, hdis, Bool.false_or, List.all_eq_true, Bool.and_eq_true]
  constructor
  · intro h f hf
    obtain ⟨h1, h2⟩ := h f (mem_allFields.2 hf)
    obtain ⟨f0, hf0⟩ := out_msg hc hdis hf
    exact field_nec hf0 (ht f hf) (List.all_eq_true.2 h1) h2
  · intro h f hf
    have hff := mem_allFields.1 hf
    have hrules : ∀ t r, RuleAt f t r → Suits t r.type ∧ GoConstants t r.type :=
      fun t r hr => ⟨(ht f hff).suits t r hr, (h f hff).rules t r hr⟩
    have hd := field_decls_ok hrules
    rw [List.all_eq_true] at hd
    obtain ⟨f0, hf0⟩ := out_msg hc hdis hff
    exact ⟨hd, field_code_ok hf0 hrules (h f hff).tables (ht f hff).elems (h f hff).keys (ht f hff).scalarKeys⟩

/-- A map from header names to header values; both patterns are written in by the checks. -/
def headersField : FieldDesc :=
  { name := "Headers", typ := .map .string .string,
    rules := .mk none (.map { maxPairs := some 100 }
      (.mk none (.string { wellKnown := some (.regex .headerName), pattern := some Checker.httpHeaderName }))
      (.mk none (.string { maxLen := some 8000 }))) }

/-- The rules of the map fit it. -/
theorem headersField_typed : GoTyped headersField := by
  refine ⟨?_, ?_, ?_, ?_⟩
  · intro t r hr
    cases hr with
    | top => simp [headersField, FieldRules.type, Suits]
    | item h => exact absurd (ruleAt_top h (by simp)).1 (by simp [headersField])
    | key h =>
      obtain ⟨a, b⟩ := ruleAt_top h (by simp)
      cases a; cases b
      simp [FieldRules.type, Suits]
    | value h =>
      obtain ⟨a, b⟩ := ruleAt_top h (by simp)
      cases a; cases b
      simp [FieldRules.type, Suits]
  · intro t r hr
    cases hr with
    | top => simp [headersField, FieldRules.type, NumberRanges]
    | item h => exact absurd (ruleAt_top h (by simp)).1 (by simp [headersField])
    | key h =>
      obtain ⟨a, b⟩ := ruleAt_top h (by simp)
      cases a; cases b
      simp [FieldRules.type, NumberRanges]
    | value h =>
      obtain ⟨a, b⟩ := ruleAt_top h (by simp)
      cases a; cases b
      simp [FieldRules.type, NumberRanges]
  · simp [WrappedElems, headersField, ElemT.isEmbed]
  · intro k v h; cases h; rfl

/-- The hypotheses of `C72_compiles_iff_partial` are met by a message that compiles … -/
example : ∃ d : MsgDesc, Checker.checkMsg (fun _ => true) d =
      some { name := "Request", fields := [headersField] } ∧ (∀ f, FieldOf { name := "Request", fields := [headersField] } f → GoTyped f) ∧
    msgCompiles { name := "Request", fields := [headersField] } = true := by
  refine ⟨{ name := "Request", fields := [{ headersField with rules := .mk none (.map { maxPairs := some 100 }
      (.mk none (.string { wellKnown := some (.regex .headerName) }))
      (.mk none (.string { maxLen := some 8000 }))) }] }, rfl, ?_, by decide⟩
  rintro f (hf | ⟨o, ho, -⟩)
  · simp only [List.mem_cons, List.not_mem_nil, or_false] at hf
    subst hf; exact headersField_typed
  · simp at ho

/-- … and by one that does not: a list of durations two of which are longer than Go's can be. -/
example : Checker.checkMsg (fun _ => true) (withField (.one (.embed "google.protobuf.Duration" (some .duration)))
      (.duration { ins := [⟨10000000000, 0⟩, ⟨20000000000, 0⟩] })) =
      some (withField (.one (.embed "google.protobuf.Duration" (some .duration)))
        (.duration { ins := [⟨10000000000, 0⟩, ⟨20000000000, 0⟩] })) ∧
    msgCompiles (withField (.one (.embed "google.protobuf.Duration" (some .duration)))
      (.duration { ins := [⟨10000000000, 0⟩, ⟨20000000000, 0⟩] })) = false :=
  ⟨rfl, by decide⟩

end PGV.Props
