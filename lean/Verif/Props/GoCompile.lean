import Verif.Lemmas.StaticTables
import Verif.Props.Emit

/-!
C72: the generated Go code compiles.
-/

set_option linter.unusedSimpArgs false

namespace PGV.Props
open PGV PGV.Go PGV.Spec

/-! ### What the checks leave -/

theorem out_type {c : Bytes → Bool} {T : Checker.Ty} {t t' : TypeRules}
    (h : Checker.checkTypeRules c T t = some t') :
    TimesChecked t' ∧
    (∀ r items', t' = .repeated r items' → ∃ e items, T = .field (.rep e) ∧
      ¬ (optB r.unique = true ∧ e.isEmbed = true) ∧
      Checker.checkFieldRules c (.elem e) items = some items') ∧
    (∀ r keys' values', t' = .map r keys' values' → ∃ k v keys values, T = .field (.map k v) ∧
      (optB r.noSparse = true → v.isEmbed = true) ∧
      Checker.checkFieldRules c (.elem k) keys = some keys' ∧
      Checker.checkFieldRules c (.elem v) values = some values') := by
  cases t with
  | unset => simp only [Checker.checkTypeRules, Option.some.injEq] at h; subst h; simp [TimesChecked]
  | num k r =>
    simp only [Checker.checkTypeRules] at h
    split at h <;> simp only [Option.some.injEq, reduceCtorEq] at h
    subst h; simp [TimesChecked]
  | bool r =>
    simp only [Checker.checkTypeRules] at h
    split at h <;> simp only [Option.some.injEq, reduceCtorEq] at h
    subst h; simp [TimesChecked]
  | string r =>
    simp only [Checker.checkTypeRules] at h
    split at h <;> simp only [Option.map_eq_some_iff, reduceCtorEq] at h
    obtain ⟨x, -, rfl⟩ := h; simp [TimesChecked]
  | bytes r =>
    simp only [Checker.checkTypeRules] at h
    split at h <;> simp only [Option.some.injEq, reduceCtorEq] at h
    subst h; simp [TimesChecked]
  | enum r =>
    simp only [Checker.checkTypeRules] at h
    split at h <;> simp only [Option.some.injEq, reduceCtorEq] at h
    subst h; simp [TimesChecked]
  | any r =>
    simp only [Checker.checkTypeRules] at h
    split at h <;> simp only [Option.some.injEq, reduceCtorEq] at h
    subst h; simp [TimesChecked]
  | duration r =>
    simp only [Checker.checkTypeRules] at h
    split at h <;> simp only [Option.some.injEq, reduceCtorEq] at h
    rename_i hc
    subst h; simpa [TimesChecked] using hc
  | timestamp r =>
    simp only [Checker.checkTypeRules] at h
    split at h <;> simp only [Option.some.injEq, reduceCtorEq] at h
    rename_i hc
    subst h; simpa [TimesChecked] using hc
  | repeated r items =>
    simp only [Checker.checkTypeRules] at h
    split at h
    · rename_i e
      split at h
      · rename_i hc
        obtain ⟨x, hx, rfl⟩ := Option.map_eq_some_iff.1 h
        refine ⟨trivial, ?_, by simp⟩
        intro r' items' he
        cases he
        refine ⟨e, items, rfl, ?_, hx⟩
        rintro ⟨h1, h2⟩
        simp [h1, h2] at hc
      · cases h
    · cases h
  | map r keys values =>
    simp only [Checker.checkTypeRules] at h
    split at h
    · rename_i k v
      split at h
      · rename_i hc
        split at h
        · cases h
        · rename_i keys' hk
          obtain ⟨x, hx, rfl⟩ := Option.map_eq_some_iff.1 h
          refine ⟨trivial, by simp, ?_⟩
          intro r' k' v' he
          cases he
          refine ⟨k, v, keys, values, rfl, ?_, hk, hx⟩
          intro h1
          rw [Bool.and_eq_true] at hc
          simpa [h1] using hc.2
      · cases h
    · cases h

theorem out_rules {c : Bytes → Bool} {T : Checker.Ty} {r r' : FieldRules}
    (h : Checker.checkFieldRules c T r = some r') :
    ∃ t, Checker.checkTypeRules c T t = some r'.type := by
  cases r with
  | absent =>
    simp only [Checker.checkFieldRules, Option.some.injEq] at h
    subst h
    exact ⟨.unset, by simp [Checker.checkTypeRules, FieldRules.type]⟩
  | mk m t =>
    simp only [Checker.checkFieldRules] at h
    obtain ⟨x, hx, rfl⟩ := Option.map_eq_some_iff.1 h
    exact ⟨t, hx⟩

theorem out_field {c : Bytes → Bool} {f f' : FieldDesc} (h : Checker.checkField c f = some f') :
    ∃ t, Checker.checkTypeRules c (.field f'.typ) t = some f'.rules.type := by
  unfold Checker.checkField at h
  split at h
  · cases h
  · obtain ⟨x, hx, rfl⟩ := Option.map_eq_some_iff.1 h
    exact out_rules hx

theorem out_fields {c : Bytes → Bool} : ∀ {fs fs' : List FieldDesc}, Checker.checkFields c fs = some fs' →
    ∀ f' ∈ fs', ∃ f, Checker.checkField c f = some f' := by
  intro fs
  induction fs with
  | nil =>
    intro fs' h f' hf'
    simp only [Checker.checkFields, Option.some.injEq] at h
    subst h; simp at hf'
  | cons g gs ih =>
    intro fs' h f' hf'
    simp only [Checker.checkFields] at h
    split at h
    · rename_i g' gs' h1 h2
      simp only [Option.some.injEq] at h
      subst h
      rcases List.mem_cons.1 hf' with rfl | hf'
      · exact ⟨g, h1⟩
      · exact ih h2 f' hf'
    · cases h

theorem out_oneofs {c : Bytes → Bool} : ∀ {os os' : List OneofDesc}, Checker.checkOneofs c os = some os' →
    ∀ o' ∈ os', ∀ f' ∈ o'.fields, ∃ f, Checker.checkField c f = some f' := by
  intro os
  induction os with
  | nil =>
    intro os' h o' ho'
    simp only [Checker.checkOneofs, Option.some.injEq] at h
    subst h; simp at ho'
  | cons g gs ih =>
    intro os' h o' ho'
    simp only [Checker.checkOneofs] at h
    split at h
    · rename_i g' gs' h1 h2
      simp only [Option.some.injEq] at h
      subst h
      rcases List.mem_cons.1 ho' with rfl | ho'
      · exact out_fields h1
      · exact ih h2 o' ho'
    · cases h

theorem out_msg {c : Bytes → Bool} {d d' : MsgDesc} (h : Checker.checkMsg c d = some d') (hd : d'.disabled = false)
    {f' : FieldDesc} (hf : FieldOf d' f') : ∃ f, Checker.checkField c f = some f' := by
  unfold Checker.checkMsg at h
  split at h
  · rename_i hdis
    simp only [Option.some.injEq] at h
    subst h
    rw [hd] at hdis; cases hdis
  · split at h
    · rename_i fs os h1 h2
      simp only [Option.some.injEq] at h
      subst h
      rcases hf with hf | ⟨o, ho, hf⟩
      · exact out_fields h1 f' hf
      · exact out_oneofs h2 o ho f' hf
    · cases h

/-! ### Fields -/

theorem ownDecls_eq {f : FieldDesc} {e : ElemT} (htyp : f.typ = .one e) (hs : Suits (.one e) f.rules.type) :
    fieldDecls f = ownDecls (.one e) f.rules.type := by
  unfold fieldDecls
  cases hr : f.rules.type with
  | repeated r i => rw [hr] at hs; obtain ⟨_, hs⟩ := hs; cases hs
  | map r k v => rw [hr] at hs; obtain ⟨_, _, hs⟩ := hs; cases hs
  | _ => rw [htyp]

theorem rules_eq {r : FieldRules} {t : TypeRules} (h : r.type = t) (ht : t ≠ .unset) : ∃ m, r = .mk m t := by
  cases r with
  | absent => exact absurd h.symm (by simpa [FieldRules.type] using ht)
  | mk m t' => exact ⟨m, by rw [← h]; rfl⟩

theorem field_decls_ok {f : FieldDesc} (hw : ∀ t r, RuleAt f t r → Suits t r.type ∧ GoConstants t r.type) :
    (fieldDecls f).all Decl.ok = true := by
  have htop := hw _ _ RuleAt.top
  cases htyp : f.typ with
  | one e =>
    rw [htyp] at htop
    rw [ownDecls_eq htyp htop.1]
    exact ownDecls_ok htop.1 htop.2
  | rep e =>
    cases hr : f.rules.type with
    | repeated r items =>
      obtain ⟨m, hm⟩ := rules_eq hr (by simp)
      have hi := hw (.one e) items (RuleAt.item (m := m) (r := r) (by rw [← htyp, ← hm]; exact RuleAt.top))
      exact repDecls_ok htyp hr hi.1 hi.2
    | unset => simp [fieldDecls, hr, ownDecls]
    | _ => rw [htyp, hr] at htop; simp [Suits] at htop
  | map k v =>
    cases hr : f.rules.type with
    | map r keys values => exact mapDecls_ok hr
    | unset => simp [fieldDecls, hr, ownDecls]
    | _ => rw [htyp, hr] at htop; simp [Suits] at htop

theorem field_code_ok {c : Bytes → Bool} {f0 f : FieldDesc} (hc : Checker.checkField c f0 = some f)
    (hrules : ∀ t r, RuleAt f t r → Suits t r.type ∧ GoConstants t r.type) (htables : TablesDeclared f)
    (helems : ¬ WrappedElems f) (hkeys : MapKeyMatters f) (hscalar : ∀ k v, f.typ = .map k v → k.isEmbed = false) :
    (fieldCode f).ok (fieldDecls f) Scope.empty = true := by
  have htop := hrules _ _ RuleAt.top
  obtain ⟨t, ht⟩ := out_field hc
  obtain ⟨hch, hrep, hmap⟩ := out_type ht
  unfold fieldCode
  cases htyp : f.typ with
  | one e =>
    rw [htyp] at htop
    simp only
    refine elemCode_ok (get_ok _ _) htop.1 htop.2 hch ?_
    rw [ownDecls_eq htyp htop.1]
    exact ownDecls_tabs htop.1 htop.2
  | rep e =>
    cases hr : f.rules.type with
    | repeated r items =>
      rw [htyp, hr] at htop
      obtain ⟨m, hm⟩ := rules_eq hr (by simp)
      have hi := hrules (.one e) items (RuleAt.item (m := m) (r := r) (by rw [← htyp, ← hm]; exact RuleAt.top))
      obtain ⟨e', items0, hT, hu, hout⟩ := hrep r items hr
      rw [htyp] at hT
      cases hT
      obtain ⟨ti, hti⟩ := out_rules hout
      exact repCode_ok htop.2.1 htop.2.2 hu hi.1 hi.2 (out_type hti).1 (repDecls htyp hr htables hi.1 hi.2)
    | unset =>
      exact repCode_ok (by simp [IntLimit]) (by simp [IntLimit]) (by simp [optB]) trivial trivial trivial tabs_none
    | _ => rw [htyp, hr] at htop; simp [Suits] at htop
  | map k v =>
    cases hr : f.rules.type with
    | map r keys values =>
      rw [htyp, hr] at htop
      obtain ⟨m, hm⟩ := rules_eq hr (by simp)
      have hk := hrules (.one k) keys (RuleAt.key (m := m) (r := r) (v := v) (values := values)
        (by rw [← htyp, ← hm]; exact RuleAt.top))
      have hv := hrules (.one v) values (RuleAt.value (m := m) (r := r) (k := k) (keys := keys)
        (by rw [← htyp, ← hm]; exact RuleAt.top))
      obtain ⟨k', v', k0, v0, hT, hsp, hko, hvo⟩ := hmap r keys values hr
      rw [htyp] at hT
      cases hT
      obtain ⟨tk, htk⟩ := out_rules hko
      obtain ⟨tv, htv⟩ := out_rules hvo
      have hfail : elemFails v values = false := by
        cases he : elemFails v values with
        | false => rfl
        | true =>
          rw [elemFails_kind] at he
          exact absurd (.inr ⟨k, v, r, keys, values, htyp, hr, he.1, he.2⟩) helems
      have htabs := mapDecls hr htables
      exact mapCode_ok htop.2.1 htop.2.2 (hscalar k v htyp) hfail hsp (hkeys k v m r keys values htyp hm)
        hk.1 hk.2 (out_type htk).1 htabs.1 hv.1 hv.2 (out_type htv).1 htabs.2
    | unset =>
      simp only
      split
      · rename_i he
        refine mapCode_ok (by simp [IntLimit]) (by simp [IntLimit]) (hscalar k v htyp) ?_ (fun _ => he)
          (.inr (.inr (.inr (.inr (.inl ⟨rfl, he, .inl rfl⟩))))) trivial trivial trivial tabs_none trivial trivial
          trivial tabs_none
        simp [elemFails, resolve, FieldRules.type, he]
      · rfl
    | _ => rw [htyp, hr] at htop; simp [Suits] at htop

/-- **C72, partial** For a message that passes the checks and whose rules can be written in Go (`GoWritable`), the
generated code has no operand of the wrong type, no constant its type cannot hold, no unused variable and no
missing or malformed table. (`d'` is the message as the checks leave it, with the patterns of
`well_known_regex` written in.) Missing: accepted messages with other rules; see `C72_map_key_unused` and the
theorems after it. -/
theorem C72_message_partial (c : Bytes → Bool) (d d' : MsgDesc) (hc : Checker.checkMsg c d = some d')
    (hw : ∀ f, FieldOf d' f → GoWritable f) : msgCompiles d' = true := by
  unfold msgCompiles
  simp only [Bool.or_eq_true, List.all_eq_true, Bool.and_eq_true]
  refine .inr fun f hf => ?_
  have hff := mem_allFields.1 hf
  have hd := field_decls_ok (hw f hff).rules
  rw [List.all_eq_true] at hd
  refine ⟨hd, ?_⟩
  cases hdis : d'.disabled with
  | true => exact .inl rfl
  | false =>
    obtain ⟨f0, hf0⟩ := out_msg hc hdis hff
    exact .inr (field_code_ok hf0 (hw f hff).rules (declared_of_supported (hw f hff).tables) (hw f hff).elems (hw f hff).keys
      (hw f hff).scalarKeys)

/-! ### Files -/

theorem append_inj_right {a b s : String} (h : a ++ s = b ++ s) : a = b := by
  have h' := congrArg String.toList h
  simp only [String.toList_append] at h'
  exact String.ext (List.append_cancel_right h')

/-- The two suffixes differ before their common ending. -/
theorem suffix_ne (a b : String) : a ++ "MultiError" ≠ b ++ "ValidationError" := by
  intro h
  have h' := congrArg (fun s => s.toList.reverse) h
  simp only [String.toList_append, List.reverse_append] at h'
  have e1 : "MultiError".toList.reverse = ['r', 'o', 'r', 'r', 'E', 'i', 't', 'l', 'u', 'M'] := by decide
  have e2 : "ValidationError".toList.reverse =
    ['r', 'o', 'r', 'r', 'E', 'n', 'o', 'i', 't', 'a', 'd', 'i', 'l', 'a', 'V'] := by decide
  rw [e1, e2] at h'
  simp at h'

theorem ne_append (a s : String) (hs : s.toList ≠ []) : a ≠ a ++ s := by
  intro h
  have h' := congrArg (fun s => s.toList.length) h
  simp only [String.toList_append, List.length_append] at h'
  have := List.length_pos_iff.2 hs
  omega

theorem typeNames_nodup {F : FileDesc} (hn : (F.all.map (·.name)).Nodup)
    (he : ∀ d ∈ F.all, ∀ e ∈ F.all, e.name ≠ d.name ++ "MultiError" ∧ e.name ≠ d.name ++ "ValidationError") :
    (F.all.flatMap typeNames).Nodup := by
  have mem : ∀ (d : MsgDesc) x, x ∈ typeNames d →
      x = d.name ∨ x = d.name ++ "MultiError" ∨ x = d.name ++ "ValidationError" := by
    intro d x hx
    unfold typeNames at hx
    simp only [List.mem_cons] at hx
    rcases hx with hx | hx
    · exact .inl hx
    · simp at hx
      exact .inr hx.2
  rw [List.Nodup, List.pairwise_flatMap]
  refine ⟨?_, ?_⟩
  · intro d hd
    unfold typeNames
    cases d.ignored
    · simp only [Bool.false_eq_true, if_false, List.pairwise_cons, List.mem_cons, List.not_mem_nil, or_false]
      refine ⟨?_, ?_, by simp, List.Pairwise.nil⟩
      · rintro x (rfl | rfl)
        · exact ne_append _ _ (by decide)
        · exact ne_append _ _ (by decide)
      · rintro x rfl; exact suffix_ne _ _
    · simp
  · refine (pairwise_of_nodup_map hn).imp_of_mem ?_
    intro d e hd hee hde x hx y hy hxy
    subst hxy
    rcases mem d _ hx with rfl | rfl | rfl <;> rcases mem e _ hy with h | h | h
    · exact hde h
    · exact (he e hee d hd).1 h
    · exact (he e hee d hd).2 h
    · exact (he d hd e hee).1 h.symm
    · exact hde (append_inj_right h)
    · exact suffix_ne _ _ h
    · exact (he d hd e hee).2 h.symm
    · exact suffix_ne _ _ h.symm
    · exact hde (append_inj_right h)

/-- String rules are on strings and `StringValue`s. -/
theorem strings_of_writable {f : FieldDesc} (hw : GoWritable f) {e : ElemT} {rules : FieldRules}
    (hr : RuleAt f (.one e) rules) (hs : IsString rules.type) : e = .string ∨ ∃ n, e = .embed n (some .stringValue) := by
  have := (hw.rules _ _ hr).1
  cases ht : rules.type with
  | string r =>
    rw [ht] at this
    rcases this with h | ⟨n, h⟩
    · cases h; exact .inl rfl
    · cases h; exact .inr ⟨n, rfl⟩
  | _ => rw [ht] at hs; simp [IsString] at hs

theorem ruleAt_top {f : FieldDesc} {t : FieldT} {r : FieldRules} (h : RuleAt f t r) (hn : ∀ e, t ≠ .one e) :
    f.typ = t ∧ f.rules = r := by
  cases h with
  | top => exact ⟨rfl, rfl⟩
  | _ => exact absurd rfl (hn _)

theorem asks_needs {d : MsgDesc} (hw : ∀ f, FieldOf d f → GoWritable f) (h : AsksUuid d) : needs d .uuid = true := by
  obtain ⟨f, t, m, r, hf, hr, hu⟩ := h
  unfold needs
  rw [List.any_eq_true]
  refine ⟨f, mem_allFields.2 hf, ?_⟩
  have hwf := hw f hf
  have need : strRulesNeeds (.string r) .uuid = true := by simp [strRulesNeeds, StringRules.getUuid, hu]
  have strs : ∀ e rules, RuleAt f (.one e) rules → IsString rules.type →
      e = .string ∨ ∃ n, e = .embed n (some .stringValue) := fun e rules hr hs => strings_of_writable hwf hr hs
  unfold fieldNeeds
  generalize hg : FieldRules.mk m (.string r) = g at hr
  cases hr with
  | top =>
    have := (hwf.rules _ _ RuleAt.top).1
    rw [← hg] at this ⊢
    rcases this with h | ⟨n, h⟩ <;> rw [h] <;> simpa [ElemT.protoType, type_mk] using need
  | item h =>
    rename_i e m' rr
    subst hg
    have hs := strs _ _ (RuleAt.item h) trivial
    have htop : f.typ = .rep e ∧ f.rules = .mk m' (.repeated rr (.mk m (.string r))) :=
      ruleAt_top h (by simp)
    rw [htop.1, htop.2]
    simp only [type_mk]
    rcases hs with rfl | ⟨n, rfl⟩
    · simpa [ElemT.protoType] using need
    · refine absurd (.inl ⟨_, _, _, htop.1, by rw [htop.2]; rfl, rfl, ?_⟩) hwf.elems
      simp [type_mk, WrapperKind]
  | key h =>
    rename_i k v m' rr values
    subst hg
    have hs := strs _ _ (RuleAt.key h) trivial
    have htop : f.typ = .map k v ∧ f.rules = .mk m' (.map rr (.mk m (.string r)) values) :=
      ruleAt_top h (by simp)
    rw [htop.1, htop.2]
    simp only [type_mk]
    rcases hs with rfl | ⟨n, rfl⟩
    · simp [ElemT.protoType, need]
    · exact absurd (hwf.scalarKeys _ _ htop.1) (by simp [ElemT.isEmbed])
  | value h =>
    rename_i k v m' rr keys
    subst hg
    have hs := strs _ _ (RuleAt.value h) trivial
    have htop : f.typ = .map k v ∧ f.rules = .mk m' (.map rr keys (.mk m (.string r))) :=
      ruleAt_top h (by simp)
    rw [htop.1, htop.2]
    simp only [type_mk]
    rcases hs with rfl | ⟨n, rfl⟩
    · simp [ElemT.protoType, need]
    · refine absurd (.inr ⟨_, _, _, _, _, htop.1, by rw [htop.2]; rfl, rfl, ?_⟩) hwf.elems
      simp [type_mk, WrapperKind]

theorem calls_asks {d : MsgDesc} (h : Helper.uuid ∈ msgCalls d) : AsksUuid d := by
  unfold msgCalls at h
  split at h
  · simp at h
  · obtain ⟨f, hf, h⟩ := List.mem_flatMap.1 h
    obtain ⟨t, ht, h⟩ := List.mem_flatMap.1 h
    have hu : ∃ r : StringRules, t = .string r ∧ r.wellKnown = some (.uuid true) := by
      cases t with
      | string r =>
        refine ⟨r, rfl, ?_⟩
        simp only [calls] at h
        repeat' split at h
        all_goals simp at h
        rename_i hu
        revert hu
        unfold StringRules.getUuid
        split <;> simp_all
      | _ => simp [calls] at h
    obtain ⟨r, rfl, hr⟩ := hu
    have hff := mem_allFields.1 hf
    have htop : RuleAt f f.typ f.rules := RuleAt.top
    have elem : ∀ e rules, TypeRules.string r ∈ renderedElem e rules → ∃ m, rules = .mk m (.string r) := by
      intro e rules hm
      obtain ⟨h1, -⟩ := renderedElem_mem hm
      exact rules_eq h1.symm (by simp)
    unfold rendered at ht
    split at ht
    · obtain ⟨m, hm⟩ := elem _ _ ht
      rw [hm] at htop
      exact ⟨f, _, m, r, hff, htop, hr⟩
    · rename_i e htyp
      split at ht
      · rename_i rr items hrr
        obtain ⟨m, hm⟩ := elem _ _ ht
        obtain ⟨m', hm'⟩ := rules_eq hrr (by simp)
        rw [htyp, hm', hm] at htop
        exact ⟨f, _, m, r, hff, RuleAt.item htop, hr⟩
      · simp at ht
    · rename_i k v htyp
      split at ht
      · rename_i rr keys values hrr
        obtain ⟨m', hm'⟩ := rules_eq hrr (by simp)
        rw [List.mem_append] at ht
        rcases ht with ht | ht
        · have hk : keys.type = .string r := by
            revert ht
            split <;> simp_all
          obtain ⟨m, hm⟩ := rules_eq hk (by simp)
          rw [htyp, hm', hm] at htop
          exact ⟨f, _, m, r, hff, RuleAt.key htop, hr⟩
        · obtain ⟨m, hm⟩ := elem _ _ ht
          rw [htyp, hm', hm] at htop
          exact ⟨f, _, m, r, hff, RuleAt.value htop, hr⟩
      · simp at ht

/-- **C72, partial** A file of messages that pass the checks, whose rules can be written in Go and whose names do
not collide with generated ones, compiles. Missing: other accepted files, see below. -/
theorem C72_file_partial (c : Bytes → Bool) (F : FileDesc)
    (hc : ∀ d' ∈ F.all, ∃ d, Checker.checkMsg c d = some d')
    (hw : ∀ d' ∈ F.all, ∀ f, FieldOf d' f → GoWritable f) (hn : GoNames F) : fileCompiles F = true := by
  have hneeds : ∀ d ∈ F.all, ∀ h ∈ msgCalls d, needs d h = true := by
    intro d hd h hh
    refine helpers_of_strings d (fun _ f hf e rules hr hs => strings_of_writable (hw d hd f hf) hr hs) ?_
      (fun f hf => (hw d hd f hf).scalarKeys) h hh
    cases hg : genFails d with
    | false => rfl
    | true =>
      obtain ⟨-, -, f, hf, hwr⟩ := (goGenFails_iff d).1 hg
      exact absurd hwr (hw d hd f hf).elems
  have huuid : (∃ d ∈ F.all, Helper.uuid ∈ msgCalls d) → fileNeeds F .uuid = true := by
    rintro ⟨d, hd, hu⟩
    have hask := calls_asks hu
    have : ∃ d ∈ F.top, AsksUuid d := by
      rcases List.mem_append.1 hd with hd | hd
      · exact ⟨d, hd, hask⟩
      · exact hn.uuid ⟨d, hd, hask⟩
    obtain ⟨d2, hd2, hask2⟩ := this
    unfold fileNeeds
    rw [List.any_eq_true]
    exact ⟨d2, hd2, asks_needs (hw d2 (List.mem_append.2 (.inl hd2))) hask2⟩
  unfold fileCompiles
  simp only [Bool.and_eq_true, List.all_eq_true, decide_eq_true_eq, Bool.not_eq_true', List.any_eq_false,
    Bool.or_eq_true]
  refine ⟨⟨⟨⟨⟨?_, ?_⟩, ?_⟩, ?_⟩, hneeds⟩, ?_⟩
  · intro d' hd'
    obtain ⟨d, hd⟩ := hc d' hd'
    exact C72_message_partial c d d' hd (hw d' hd')
  · exact (C37_declared_once_partial F hn.well hn.noUnderscore fun d hd f hf => (hw d hd f hf).tables).1
  · exact typeNames_nodup hn.well.1 hn.errors
  · intro d hd
    unfold methodClash
    simp only [Bool.and_eq_true, List.any_eq_true, not_and, not_exists]
    intro _ n hmem
    have := hn.methods d hd n (List.mem_append.1 hmem)
    simp [this.1, this.2]
  · by_cases hu : ∃ d ∈ F.all, Helper.uuid ∈ msgCalls d
    · exact .inr (huuid hu)
    · refine .inl fun d hd => ?_
      cases hcon : (msgCalls d).contains .uuid with
      | false => rfl
      | true => exact absurd ⟨d, hd, by simpa using hcon⟩ hu

/-! ### Accepted rules whose code does not compile -/

/-- The message passes the checks unchanged, and its code does not compile. -/
def Breaks (d : MsgDesc) : Prop := Checker.checkMsg (fun _ => true) d = some d ∧ msgCompiles d = false

/-- A message with one field. -/
def withField (t : FieldT) (r : TypeRules) : MsgDesc :=
  { name := "M", fields := [{ name := "X", typ := t, rules := .mk none r }] }

/-- **C72** (negation) A map whose values are messages that are skipped: the loop over the entries declares
`key` and does not use it. -/
theorem C72_map_key_unused :
    Breaks (withField (.map .string (.embed "T" none)) (.map {} .absent (.mk (some { skip := some true }) .unset))) :=
  ⟨rfl, by decide⟩

/-- **C72** (negation) `in` on a `BytesValue`: a table with keys of type `[]byte`. -/
theorem C72_bytes_value_list :
    Breaks (withField (.one (.embed "google.protobuf.BytesValue" (some .bytesValue))) (.bytes { ins := [asc "ab"] })) :=
  ⟨rfl, by decide⟩

/-- **C72** (negation) A list with the same number twice: a table with a duplicate key. -/
theorem C72_repeated_member :
    Breaks (withField (.one (.scalar .int32)) (.num .int32 { ins := [.int 1, .int 1] })) :=
  ⟨rfl, by decide⟩

/-- **C72** (negation) A list with the same duration twice: a table with a duplicate key. -/
theorem C72_repeated_duration :
    Breaks (withField (.one (.embed "google.protobuf.Duration" (some .duration)))
      (.duration { notIns := [⟨60, 0⟩, ⟨1, 0⟩, ⟨1, 0⟩] })) :=
  ⟨rfl, by decide⟩

/-- **C72** (negation) An infinite bound is printed as `+Inf`. -/
theorem C72_infinite_bound :
    Breaks (withField (.one (.scalar .double)) (.num .double { lte := some (.f64 0x7FF0000000000000#64) })) :=
  ⟨rfl, by decide⟩

/-- **C72** (negation) A bound of 317 years is printed as a constant expression that overflows. -/
theorem C72_long_duration :
    Breaks (withField (.one (.embed "google.protobuf.Duration" (some .duration)))
      (.duration { lt := some ⟨10000000000, 0⟩ })) :=
  ⟨rfl, by decide⟩

/-- **C72** (negation) A minimum length that is not an `int`. -/
theorem C72_long_length :
    Breaks (withField (.one .string) (.string { minLen := some 9223372036854775808 })) :=
  ⟨rfl, by decide⟩

/-- **C72** (negation) A list of bytes with a byte below 16: the table's key is not a string literal. -/
theorem C72_low_byte :
    Breaks (withField (.one .bytes) (.bytes { ins := [[0x01, 0x41]] })) :=
  ⟨rfl, by decide⟩

/-- **C72** (negation) Duration rules on a string field. -/
theorem C72_wrong_type :
    Breaks (withField (.one .string) (.duration { gt := some ⟨1, 0⟩ })) :=
  ⟨rfl, by decide⟩

/-- **C72** (negation) An integer list in the items of a list: its table is not declared (see
`C37_item_table_undeclared`). -/
theorem C72_item_table : Breaks { name := "M", fields := [smallInts] } :=
  ⟨rfl, by decide⟩

/-- **C72** (negation) A field called `validate`: the struct has a field and a method of that name. -/
theorem C72_method_clash :
    Checker.checkMsg (fun _ => true) { name := "M", fields := [{ name := "Validate", typ := .one .bool, rules := .absent }] } =
      some { name := "M", fields := [{ name := "Validate", typ := .one .bool, rules := .absent }] } ∧
    fileCompiles (oneMessage [{ name := "Validate", typ := .one .bool, rules := .absent }]) = false :=
  ⟨rfl, by decide⟩

/-- **C72** (negation) Messages `Foo` and `FooValidationError`. -/
theorem C72_error_type_clash :
    (∀ d ∈ [({ name := "Foo" } : MsgDesc), { name := "FooValidationError" }],
      Checker.checkMsg (fun _ => true) d = some d) ∧
    fileCompiles ⟨[{ name := "Foo" }, { name := "FooValidationError" }], []⟩ = false := by
  refine ⟨?_, by decide⟩
  intro d hd
  simp only [List.mem_cons, List.not_mem_nil, or_false] at hd
  rcases hd with rfl | rfl <;> rfl

/-! ### A file that compiles -/

/-- A header name, with the pattern the checks write in. -/
def headerField : FieldDesc :=
  { name := "Header", typ := .one .string,
    rules := .mk none (.string { maxLen := some 40, wellKnown := some (.regex .headerName),
                                 pattern := some Checker.httpHeaderName }) }

/-- A timeout between zero and an hour. -/
def timeoutField : FieldDesc :=
  { name := "Timeout", typ := .one (.embed "google.protobuf.Duration" (some .duration)),
    rules := .mk none (.duration { gt := some ⟨0, 0⟩, lte := some ⟨3600, 0⟩ }) }

/-- A map from short names to weights, limited to 1, 2 and -1. -/
def weightsField : FieldDesc :=
  { name := "Weights", typ := .map .string (.scalar .sint32),
    rules := .mk none (.map { minPairs := some 1 } (.mk none (.string { minLen := some 1 }))
      (.mk none (.num .sint32 { gte := some (.int (-1)) }))) }

/-- A list of ids. -/
def idsField : FieldDesc :=
  { name := "Ids", typ := .rep .string,
    rules := .mk none (.repeated { unique := some true } (.mk none (.string { ins := [asc "a", asc "b"] }))) }

/-- C72's hypotheses are met by a file with a pattern, a range of durations, a map and a list with a table. -/
example : ∃ F : FileDesc,
    (∀ d' ∈ F.all, ∃ d, Checker.checkMsg (fun _ => true) d = some d') ∧
    (∀ d' ∈ F.all, ∀ f, FieldOf d' f → GoWritable f) ∧ GoNames F ∧
    F.all.flatMap (fun d => d.fields) = [headerField, timeoutField, weightsField, idsField] := by
  refine ⟨⟨[{ name := "Route", fields := [headerField, timeoutField] }],
    [{ name := "Route_Table", fields := [weightsField, idsField] }]⟩, ?_, ?_, ⟨⟨by decide, ?_⟩, ?_, ?_, ?_, ?_⟩, rfl⟩
  · simp only [FileDesc.all, List.cons_append, List.nil_append, List.mem_cons, List.not_mem_nil, or_false]
    rintro d (rfl | rfl)
    · exact ⟨{ name := "Route", fields := [{ headerField with rules := .mk none (.string
        { maxLen := some 40, wellKnown := some (.regex .headerName) }) }, timeoutField] }, by rfl⟩
    · exact ⟨{ name := "Route_Table", fields := [weightsField, idsField] }, by rfl⟩
  · have h1 : GoWritable headerField := by
      refine ⟨?_, trivial, ?_, ?_, ?_⟩
      · intro t r hr
        cases hr with
        | top => simp [headerField, FieldRules.type, Suits, GoConstants, IntLimit]
        | item h => exact absurd (ruleAt_top h (by simp)).1 (by simp [headerField])
        | key h => exact absurd (ruleAt_top h (by simp)).1 (by simp [headerField])
        | value h => exact absurd (ruleAt_top h (by simp)).1 (by simp [headerField])
      · simp [WrappedElems, headerField]
      · intro k v m r ks vs h; simp [headerField] at h
      · simp [headerField]
    have h2 : GoWritable timeoutField := by
      refine ⟨?_, trivial, ?_, ?_, ?_⟩
      · intro t r hr
        cases hr with
        | top =>
          simp [timeoutField, FieldRules.type, Suits, GoConstants, DurBound, NoRepeats, InInt64, length]
          rintro x (rfl | rfl) <;> simp
        | item h => exact absurd (ruleAt_top h (by simp)).1 (by simp [timeoutField])
        | key h => exact absurd (ruleAt_top h (by simp)).1 (by simp [timeoutField])
        | value h => exact absurd (ruleAt_top h (by simp)).1 (by simp [timeoutField])
      · simp [WrappedElems, timeoutField]
      · intro k v m r ks vs h; simp [timeoutField] at h
      · simp [timeoutField]
    have h3 : GoWritable weightsField := by
      refine ⟨?_, ?_, ?_, ?_, ?_⟩
      · intro t r hr
        cases hr with
        | top => simp [weightsField, FieldRules.type, Suits, GoConstants, IntLimit]
        | item h => exact absurd (ruleAt_top h (by simp)).1 (by simp [weightsField])
        | key h =>
          obtain ⟨a, b⟩ := ruleAt_top h (by simp)
          cases a; cases b
          simp [FieldRules.type, Suits, GoConstants, IntLimit]
        | value h =>
          obtain ⟨a, b⟩ := ruleAt_top h (by simp)
          cases a; cases b
          simp [FieldRules.type, Suits, GoConstants, NumberIn, NoRepeats, NumKind.inRange, FiniteNum]
      · simp [weightsField, TablesSupported, FieldRules.type, HasList, HasPattern]
      · simp [WrappedElems, weightsField, ElemT.isEmbed]
      · intro k v m r ks vs h h'
        cases h; cases h'
        exact .inr (.inl (by simp [FieldRules.type, Restricts]))
      · intro k v h; cases h; rfl
    have h4 : GoWritable idsField := by
      refine ⟨?_, ?_, ?_, ?_, ?_⟩
      · intro t r hr
        cases hr with
        | top => simp [idsField, FieldRules.type, Suits, GoConstants, IntLimit]
        | item h =>
          obtain ⟨a, b⟩ := ruleAt_top h (by simp)
          cases a; cases b
          simp [FieldRules.type, Suits, GoConstants, IntLimit]
          decide
        | key h => exact absurd (ruleAt_top h (by simp)).1 (by simp [idsField])
        | value h => exact absurd (ruleAt_top h (by simp)).1 (by simp [idsField])
      · simp [idsField, TablesSupported, FieldRules.type, IsString]
      · simp [WrappedElems, idsField, ElemT.isEmbed]
      · intro k v m r ks vs h; simp [idsField] at h
      · simp [idsField]
    simp only [FileDesc.all, List.cons_append, List.nil_append, List.mem_cons, List.not_mem_nil, or_false]
    rintro d (rfl | rfl) f hf
    · rcases hf with hf | ⟨o, ho, _⟩
      · simp only [List.mem_cons, List.not_mem_nil, or_false] at hf
        rcases hf with rfl | rfl
        · exact h1
        · exact h2
      · simp at ho
    · rcases hf with hf | ⟨o, ho, _⟩
      · simp only [List.mem_cons, List.not_mem_nil, or_false] at hf
        rcases hf with rfl | rfl
        · exact h3
        · exact h4
      · simp at ho
  · decide
  · simp only [FileDesc.all, List.cons_append, List.nil_append, List.mem_cons, List.not_mem_nil, or_false]
    rintro d (rfl | rfl)
    all_goals simp [FieldOf, headerField, timeoutField, weightsField, idsField]
  · decide
  · simp only [FileDesc.all, List.cons_append, List.nil_append, List.mem_cons, List.not_mem_nil, or_false]
    rintro d (rfl | rfl)
    all_goals simp [headerField, timeoutField, weightsField, idsField]
  · rintro ⟨d, hd, f, t, m, r, hf, hr, hu⟩
    simp only [List.mem_cons, List.not_mem_nil, or_false] at hd
    subst hd
    rcases hf with hf | ⟨o, ho, _⟩
    · simp only [List.mem_cons, List.not_mem_nil, or_false] at hf
      rcases hf with rfl | rfl
      · generalize hg : FieldRules.mk m (.string r) = g at hr
        cases hr with
        | top => simp [weightsField] at hg
        | item h => exact absurd (ruleAt_top h (by simp)).1 (by simp [weightsField])
        | key h =>
          obtain ⟨a, b⟩ := ruleAt_top h (by simp)
          cases a; cases b; cases hg; simp at hu
        | value h =>
          obtain ⟨a, b⟩ := ruleAt_top h (by simp)
          cases a; cases b; cases hg
      · generalize hg : FieldRules.mk m (.string r) = g at hr
        cases hr with
        | top => simp [idsField] at hg
        | item h =>
          obtain ⟨a, b⟩ := ruleAt_top h (by simp)
          cases a; cases b; cases hg; simp at hu
        | key h => exact absurd (ruleAt_top h (by simp)).1 (by simp [idsField])
        | value h => exact absurd (ruleAt_top h (by simp)).1 (by simp [idsField])
    · simp at ho

end PGV.Props
