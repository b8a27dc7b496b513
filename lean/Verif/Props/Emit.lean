import Verif.Spec.Emit
import Verif.Lemmas.Position
import Verif.Props.Fixtures
import Verif.Lemmas.GenFails

/-!
C37, C38: lookup tables and helpers of generated Go files.
-/

set_option linter.unusedSimpArgs false

namespace PGV.Props
open PGV PGV.Go PGV.Spec

/-! ### C37 -/

theorem split_last {c : Char} {a a' b b' : List Char} (hb : c ∉ b) (hb' : c ∉ b')
    (h : a ++ c :: b = a' ++ c :: b') : a = a' ∧ b = b' := by
  induction a generalizing a' with
  | nil =>
    cases a' with
    | nil => simpa using h
    | cons x xs =>
      simp only [List.nil_append, List.cons_append, List.cons.injEq] at h
      exact absurd (by rw [h.2]; simp) hb
  | cons x xs ih =>
    cases a' with
    | nil =>
      simp only [List.nil_append, List.cons_append, List.cons.injEq] at h
      exact absurd (by rw [← h.2]; simp) hb'
    | cons y ys =>
      simp only [List.cons_append, List.cons.injEq] at h
      obtain ⟨h1, h2⟩ := ih h.2
      exact ⟨by rw [h.1, h1], h2⟩

theorem varName_inj {m m' f f' : String} {v v' : Var} (hf : '_' ∉ f.toList) (hf' : '_' ∉ f'.toList)
    (h : varName m f v = varName m' f' v') : m = m' ∧ f = f' ∧ v = v' := by
  have h' := congrArg String.toList h
  have hv : ∀ v : Var, '_' ∉ v.text.toList := by intro v; cases v <;> simp [Var.text]
  simp only [varName, String.toList_append, List.append_assoc] at h'
  have e : ∀ (m f : List Char) (v : List Char),
      "_".toList ++ (m ++ ("_".toList ++ (f ++ ("_".toList ++ v)))) =
        ('_' :: (m ++ '_' :: f)) ++ '_' :: v := by intro m f v; simp
  rw [e, e] at h'
  obtain ⟨h1, h2⟩ := split_last (hv v) (hv v') h'
  simp only [List.cons.injEq, true_and] at h1
  obtain ⟨h3, h4⟩ := split_last hf hf' h1
  refine ⟨String.ext h3, String.ext h4, ?_⟩
  revert h2
  cases v <;> cases v' <;> simp [Var.text]

theorem mem_declIf {b : Bool} {v w : Var} : w ∈ declIf b v ↔ b = true ∧ w = v := by
  unfold declIf; cases b <;> simp

theorem nodup_declIf (b : Bool) (v : Var) : (declIf b v).Nodup := by
  unfold declIf; cases b <;> simp

theorem tables_spec (t : TypeRules) :
    (((tables t).1 = true ∨ (tables t).2.1 = true) ↔ HasList t) ∧
    ((tables t).2.2 = true ↔ HasPattern t) := by
  cases t <;> simp [tables, HasList, HasPattern, Option.isSome_iff_ne_none]

theorem decls_nodup (f : FieldDesc) (h : TablesSupported f) : (decls f).Nodup := by
  have three : ∀ a b c : Bool, ∀ u v w : Var, u ≠ v → u ≠ w → v ≠ w →
      (declIf a u ++ declIf b v ++ declIf c w).Nodup := by
    intro a b c u v w; cases a <;> cases b <;> cases c <;> simp [declIf] <;> intros <;> simp_all
  unfold decls
  unfold TablesSupported at h
  split
  · split
    · exact three _ _ _ _ _ _ (by simp) (by simp) (by simp)
    · rename_i r _
      simpa [declIf] using three (!r.ins.isEmpty) (!r.notIns.isEmpty) false .inLookup .notInLookup .pattern
        (by simp) (by simp) (by simp)
    · simp
  · rename_i r keys values hr
    rw [hr] at h
    simp only at h
    obtain ⟨_, _, h3, _⟩ := h
    cases hk : keys.type with
    | string k =>
      cases hv : values.type with
      | string v =>
        simp only [hk, hv, HasPattern] at h3
        cases hkp : k.pattern with
        | none =>
          simp only [hkp, declIf, Option.isSome_none, Bool.false_eq_true, if_false, List.nil_append]
          split <;> simp
        | some p =>
          have := (h3 (by simp [hkp])).2
          simp only [ne_eq, Classical.not_not] at this
          simp [declIf, this, hkp]
      | _ => simp only [List.append_nil, declIf]; split <;> simp
    | _ =>
      cases hv : values.type with
      | string v => simp only [List.nil_append, declIf]; split <;> simp
      | _ => simp
  · exact three _ _ _ _ _ _ (by simp) (by simp) (by simp)

theorem refsOf_sub (t : TypeRules) (v : Var) (h : v ∈ refsOf t) :
    v ∈ declIf (tables t).1 .inLookup ++ declIf (tables t).2.1 .notInLookup ++
      declIf (tables t).2.2 .pattern := by
  unfold refsOf at h
  revert h
  cases ht : tables t with
  | mk a bc =>
    obtain ⟨b, c⟩ := bc
    cases a <;> cases b <;> cases c <;> simp [declIf] <;> intro h <;>
      first
        | exact .inl h
        | (rcases h with h | h <;> simp [h])

theorem renderedElem_mem {e : ElemT} {rules : FieldRules} {t : TypeRules}
    (h : t ∈ renderedElem e rules) : t = rules.type ∧ t ≠ .unset := by
  revert h
  unfold renderedElem resolve
  cases ht : rules.type with
  | unset => cases e.isEmbed <;> simp
  | num k r => cases e.isEmbed <;> cases k <;> simp <;> (intro h; simp [h])
  | bool r => cases e.isEmbed <;> simp <;> (intro h; simp [h])
  | string r => cases e.isEmbed <;> simp <;> (intro h; simp [h])
  | bytes r => cases e.isEmbed <;> simp <;> (intro h; simp [h])
  | _ => simp <;> (intro h; simp [h])

theorem refs_declared (f : FieldDesc) (h : TablesSupported f) (v : Var) (hv : v ∈ refs f) :
    v ∈ decls f := by
  unfold refs at hv
  rw [List.mem_flatMap] at hv
  obtain ⟨t, ht, hv⟩ := hv
  have hd := refsOf_sub t v hv
  have hsp := tables_spec t
  have uses : HasList t ∨ HasPattern t := by
    simp only [List.mem_append, mem_declIf] at hd
    rcases hd with (⟨h, _⟩ | ⟨h, _⟩) | ⟨h, _⟩
    · exact .inl (hsp.1.1 (.inl h))
    · exact .inl (hsp.1.1 (.inr h))
    · exact .inr (hsp.2.1 h)
  unfold TablesSupported at h
  unfold rendered at ht
  split at ht
  · -- singular
    obtain ⟨rfl, hne⟩ := renderedElem_mem ht
    unfold decls
    cases hr : f.rules.type with
    | repeated r i => rw [hr] at uses; simp [HasList, HasPattern] at uses
    | map r k w => rw [hr] at uses; simp [HasList, HasPattern] at uses
    | _ => rw [hr] at hd; simpa using hd
  · -- repeated
    split at ht
    · rename_i r items hr
      obtain ⟨rfl, hne⟩ := renderedElem_mem ht
      rw [hr] at h
      simp only at h
      have hk := h uses
      unfold decls
      simp only [hr]
      cases hi : items.type with
      | string r =>
        rw [hi] at hd
        simp only [tables, List.mem_append, mem_declIf] at hd ⊢
        rcases hd with (h | h) | h <;> simp [h]
      | enum r =>
        rw [hi] at hd
        simp only [tables, List.mem_append, mem_declIf] at hd ⊢
        rcases hd with (h | h) | h
        · simp [h]
        · simp [h]
        · simp at h
      | _ => simp [hi, IsString, IsEnum] at hk
    · simp at ht
  · split at ht
    · rename_i r keys values hr
      rw [hr] at h
      simp only at h
      obtain ⟨h1, h2, h3, h4⟩ := h
      rw [List.mem_append] at ht
      unfold decls
      simp only [hr, List.mem_append]
      rcases ht with ht | ht
      · have hk : t = keys.type := by
          cases hkt : keys.type <;> simp_all
        subst hk
        have hp : HasPattern keys.type := by
          rcases uses with h | h
          · exact absurd h h1
          · exact h
        left
        cases hkt : keys.type with
        | string r =>
          rw [hkt] at hd h1 hp
          simp only [tables, List.mem_append, mem_declIf] at hd ⊢
          simp only [HasList, not_or, Classical.not_not] at h1
          simpa [h1] using hd
        | _ => have := (h3 hp).1; simp [hkt, IsString] at this
      · obtain ⟨rfl, hne⟩ := renderedElem_mem ht
        have hp : HasPattern values.type := by
          rcases uses with h | h
          · exact absurd h h2
          · exact h
        right
        cases hkt : values.type with
        | string r =>
          rw [hkt] at hd h2 hp
          simp only [tables, List.mem_append, mem_declIf] at hd ⊢
          simp only [HasList, not_or, Classical.not_not] at h2
          simpa [h2] using hd
        | _ => have := h4 hp; simp [hkt, IsString] at this
    · simp at ht

theorem mem_allFields {d : MsgDesc} {f : FieldDesc} : f ∈ allFields d ↔ FieldOf d f := by
  simp [allFields, FieldOf, List.mem_flatMap]

theorem pairwise_of_nodup_map {α : Type} {g : α → String} {l : List α} (h : (l.map g).Nodup) :
    l.Pairwise (fun a b => g a ≠ g b) := by
  rw [List.Nodup, List.pairwise_map] at h
  exact h

/-- **C37, partial** In a file with supported tables whose field names contain no underscore, every
lookup table or pattern variable the generated code refers to is declared exactly once, and no name
is declared twice. Missing: `C37_item_table_undeclared`, `C37_pattern_declared_twice` and
`C37_names_collide` show what goes wrong otherwise. -/
theorem C37_declared_once_partial (F : FileDesc) (hn : WellNamed F)
    (hu : ∀ d ∈ F.all, ∀ f, FieldOf d f → '_' ∉ f.name.toList)
    (hs : ∀ d ∈ F.all, ∀ f, FieldOf d f → TablesSupported f) :
    (fileDecls F).Nodup ∧ ∀ x ∈ fileRefs F, (fileDecls F).count x = 1 := by
  have nd : (fileDecls F).Nodup := by
    unfold fileDecls
    rw [List.Nodup, List.pairwise_flatMap]
    refine ⟨?_, ?_⟩
    · intro d hd
      unfold msgDecls
      split
      · exact List.Pairwise.nil
      · rw [List.pairwise_flatMap]
        refine ⟨?_, ?_⟩
        · intro f hf
          rw [List.pairwise_map]
          have hff := mem_allFields.1 hf
          refine (decls_nodup f (hs d hd f hff)).imp ?_
          intro a b hab he
          exact hab (varName_inj (hu d hd f hff) (hu d hd f hff) he).2.2
        · refine (pairwise_of_nodup_map (hn.2 d hd)).imp_of_mem ?_
          intro f g hf hg hfg x hx y hy he
          obtain ⟨a, _, rfl⟩ := List.mem_map.1 hx
          obtain ⟨b, _, rfl⟩ := List.mem_map.1 hy
          exact hfg (varName_inj (hu d hd f (mem_allFields.1 hf)) (hu d hd g (mem_allFields.1 hg)) he).2.1
    · refine (pairwise_of_nodup_map hn.1).imp_of_mem ?_
      intro d e hd he hde x hx y hy hxy
      unfold msgDecls at hx hy
      split at hx
      · simp at hx
      · split at hy
        · simp at hy
        · obtain ⟨f, hf, hx⟩ := List.mem_flatMap.1 hx
          obtain ⟨g, hg, hy⟩ := List.mem_flatMap.1 hy
          obtain ⟨a, _, rfl⟩ := List.mem_map.1 hx
          obtain ⟨b, _, rfl⟩ := List.mem_map.1 hy
          exact hde (varName_inj (hu d hd f (mem_allFields.1 hf)) (hu e he g (mem_allFields.1 hg)) hxy).1
  refine ⟨nd, ?_⟩
  intro x hx
  have hmem : x ∈ fileDecls F := by
    unfold fileRefs at hx
    obtain ⟨d, hd, hx⟩ := List.mem_flatMap.1 hx
    unfold msgRefs at hx
    split at hx
    · simp at hx
    · rename_i hi
      obtain ⟨f, hf, hx⟩ := List.mem_flatMap.1 hx
      obtain ⟨v, hv, rfl⟩ := List.mem_map.1 hx
      refine List.mem_flatMap.2 ⟨d, hd, ?_⟩
      unfold msgDecls
      have : d.ignored = false := by
        cases h : d.ignored
        · rfl
        · simp [h] at hi
      simp only [this, Bool.false_eq_true, if_false]
      refine List.mem_flatMap.2 ⟨f, hf, List.mem_map.2 ⟨v, ?_, rfl⟩⟩
      exact refs_declared f (hs d hd f (mem_allFields.1 hf)) v hv
  exact List.Nodup.count nd |>.trans (by simp [hmem])

theorem acceptedMsg_of (c : Bytes → Bool) (d : MsgDesc) (h : (Checker.checkMsg c d).isSome = true) :
    AcceptedMsg c d := by
  unfold AcceptedMsg
  rw [Option.ne_none_iff_isSome]; exact h

theorem type_mk (m : Option MessageRules) (t : TypeRules) : (FieldRules.mk m t).type = t := rfl

/-- A file with one message, with the given fields. -/
def oneMessage (fs : List FieldDesc) : FileDesc := ⟨[{ name := "M", fields := fs }], []⟩

/-- A list of integers restricted to 1 and 2. -/
def smallInts : FieldDesc :=
  { name := "Xs", typ := .rep (.scalar .int32),
    rules := .mk none (.repeated {} (.mk none (.num .int32 { ins := [.int 1, .int 2] }))) }

/-- **C37** (negation) An accepted list of integers with an `in` rule on its items refers to a table
that is not declared. -/
theorem C37_item_table_undeclared : AcceptedMsg (fun _ => true) { name := "M", fields := [smallInts] } ∧
    "_M_Xs_InLookup" ∈ fileRefs (oneMessage [smallInts]) ∧ fileDecls (oneMessage [smallInts]) = [] :=
  ⟨acceptedMsg_of _ _ (by decide), by decide, by decide⟩

/-- A map with patterns for keys and values. -/
def patterned : FieldDesc :=
  { name := "Xs", typ := .map .string .string,
    rules := .mk none (.map {} (.mk none (.string { pattern := some (asc "a") }))
      (.mk none (.string { pattern := some (asc "b") }))) }

/-- **C37** (negation) An accepted map with patterns on both keys and values declares the same
variable twice. -/
theorem C37_pattern_declared_twice : AcceptedMsg (fun _ => true) { name := "M", fields := [patterned] } ∧
    fileDecls (oneMessage [patterned]) = ["_M_Xs_Pattern", "_M_Xs_Pattern"] :=
  ⟨acceptedMsg_of _ _ (by decide), by decide⟩

/-- An integer field restricted to 1. -/
def oneInt (name : String) : FieldDesc :=
  { name := name, typ := .one (.scalar .int32), rules := .mk none (.num .int32 { ins := [.int 1] }) }

/-- Message `A` with the field `B_C`, and the message `B` nested in `A` (`A_B` in Go) with the field
`C`. -/
def clash : FileDesc :=
  ⟨[{ name := "A", fields := [oneInt "B_C"] }], [{ name := "A_B", fields := [oneInt "C"] }]⟩

/-- **C37** (negation) Two fields of different messages can get the same variable. -/
theorem C37_names_collide : WellNamed clash ∧
    (∀ d ∈ clash.all, AcceptedMsg (fun _ => true) d ∧ ∀ f ∈ allFields d, decls f = refs f) ∧
    fileDecls clash = ["_A_B_C_InLookup", "_A_B_C_InLookup"] := by
  refine ⟨⟨by decide, ?_⟩, ?_, by decide⟩
  · intro d hd
    simp only [clash, FileDesc.all, List.cons_append, List.nil_append, List.mem_cons, List.not_mem_nil,
      or_false] at hd
    rcases hd with rfl | rfl <;> decide
  · intro d hd
    simp only [clash, FileDesc.all, List.cons_append, List.nil_append, List.mem_cons, List.not_mem_nil,
      or_false] at hd
    rcases hd with rfl | rfl <;> refine ⟨acceptedMsg_of _ _ (by decide), ?_⟩ <;> intro f hf <;>
      simp [allFields] at hf <;> subst hf <;> rfl

/-- C37's hypotheses are met by a file that uses tables and a pattern. -/
example : ∃ F : FileDesc, WellNamed F ∧ (∀ d ∈ F.all, ∀ f, FieldOf d f → '_' ∉ f.name.toList) ∧
    (∀ d ∈ F.all, ∀ f, FieldOf d f → TablesSupported f) ∧
    fileRefs F = ["_A_X_InLookup", "_B_Y_NotInLookup", "_B_Y_Pattern"] := by
  refine ⟨⟨[{ name := "A", fields := [oneInt "X"] }], [{ name := "B", oneofs := [⟨"O", false, [
    { name := "Y", typ := .one .string,
      rules := .mk none (.string { notIns := [asc "x"], pattern := some (asc "y") }) }]⟩] }]⟩,
    ⟨by decide, ?_⟩, ?_, ?_, by decide⟩
  all_goals
    simp only [FileDesc.all, List.cons_append, List.nil_append, List.mem_cons, List.not_mem_nil, or_false]
    rintro d (rfl | rfl)
    all_goals simp [FieldOf, oneInt, allFields, TablesSupported, FieldRules.type]

/-! ### C38 -/

theorem calls_needs (t : TypeRules) (h : Helper) (hc : h ∈ calls t) :
    strRulesNeeds t h = true ∧ IsString t := by
  cases t with
  | string r =>
    refine ⟨?_, trivial⟩
    simp only [calls] at hc
    unfold strRulesNeeds
    split at hc
    · rename_i he
      simp only [List.mem_cons, List.not_mem_nil, or_false] at hc
      rcases hc with rfl | rfl <;> simp [he]
    · split at hc
      · rename_i he; simp only [List.mem_cons, List.not_mem_nil, or_false] at hc; subst hc; simp [he]
      · split at hc
        · rename_i he; simp only [List.mem_cons, List.not_mem_nil, or_false] at hc; subst hc; simp [he]
        · split at hc
          · rename_i he; simp only [List.mem_cons, List.not_mem_nil, or_false] at hc; subst hc; simp [he]
          · simp at hc
  | _ => simp [calls] at hc

theorem string_type {c : Bytes → Bool} {f : FieldDesc} (h : Accepted c f) {e : ElemT}
    {rules : FieldRules} (hr : RuleAt f (.one e) rules) (hs : IsString rules.type) :
    e = .string ∨ ∃ n, e = .embed n (some .stringValue) := by
  cases rules with
  | absent => simp [FieldRules.type, IsString] at hs
  | mk m t =>
    cases t with
    | string r =>
      obtain ⟨y, hy, hc⟩ := ruleAt_type h hr
      simp only [Checker.checkTypeRules] at hc
      have hm : Checker.mustType y .string (some .stringValue) = true := by
        cases hm : Checker.mustType y .string (some .stringValue) with
        | true => rfl
        | false => simp [hm] at hc
      rw [mustType_string hy] at hm
      simpa using hm
    | _ => simp [FieldRules.type, IsString] at hs

/-- The helpers, from where string rules are. -/
theorem helpers_of_strings (d : MsgDesc)
    (hst : d.disabled = false → ∀ f, FieldOf d f → ∀ e rules, RuleAt f (.one e) rules → IsString rules.type →
      e = .string ∨ ∃ n, e = .embed n (some .stringValue))
    (hg : genFails d = false) (hk : ∀ f, FieldOf d f → ∀ k v, f.typ = .map k v → k.isEmbed = false)
    (h : Helper) (hc : h ∈ msgCalls d) : needs d h = true := by
  unfold msgCalls at hc
  split at hc
  · simp at hc
  · rename_i hid
    have hid' : d.ignored = false ∧ d.disabled = false := by
      revert hid
      cases d.ignored <;> cases d.disabled <;> simp
    have hd := hid'.2
    obtain ⟨f, hf, hc⟩ := List.mem_flatMap.1 hc
    obtain ⟨t, ht, hc⟩ := List.mem_flatMap.1 hc
    have hff := mem_allFields.1 hf
    have hacc := hst hd _ hff
    obtain ⟨hn, hs⟩ := calls_needs t h hc
    have hwf : ¬ WrappedElems f := fun hw => by
      have := (goGenFails_iff d).2 ⟨hid'.1, hid'.2, f, hff, hw⟩
      rw [hg] at this
      cases this
    have hkf := hk f hff
    unfold needs
    rw [List.any_eq_true]
    refine ⟨f, hf, ?_⟩
    obtain ⟨name, typ, rules⟩ := f
    have htop : RuleAt ⟨name, typ, rules⟩ typ rules := RuleAt.top
    unfold rendered at ht
    unfold fieldNeeds
    unfold WrappedElems at hwf
    cases typ with
    | one e =>
      simp only at ht ⊢
      obtain ⟨rfl, _⟩ := renderedElem_mem ht
      rcases hacc _ _ htop hs with rfl | ⟨n, rfl⟩
      · simpa [ElemT.protoType] using hn
      · simpa [ElemT.protoType] using hn
    | rep e =>
      simp only at ht ⊢
      cases rules with
      | absent => simp [FieldRules.type] at ht
      | mk m tr =>
        cases tr with
        | repeated r items =>
          simp only [type_mk] at ht hwf ⊢
          obtain ⟨rfl, _⟩ := renderedElem_mem ht
          rcases hacc _ _ (RuleAt.item htop) hs with rfl | ⟨n, rfl⟩
          · simpa [ElemT.protoType] using hn
          · refine absurd (Or.inl ⟨_, _, _, rfl, rfl, rfl, ?_⟩) hwf
            cases hi : items.type <;> simp_all [IsString, WrapperKind]
        | _ => simp [FieldRules.type] at ht
    | map k v =>
      simp only at ht ⊢
      cases rules with
      | absent => simp [FieldRules.type] at ht
      | mk m tr =>
        cases tr with
        | map r keys values =>
          simp only [type_mk] at ht hwf ⊢
          rw [List.mem_append] at ht
          rcases ht with ht | ht
          · have hk : t = keys.type := by
              revert ht
              split <;> simp
            subst hk
            rcases hacc _ _ (RuleAt.key htop) hs with rfl | ⟨n, rfl⟩
            · simp [hn, ElemT.protoType]
            · exact absurd (hkf _ _ rfl) (by simp [ElemT.isEmbed])
          · obtain ⟨rfl, _⟩ := renderedElem_mem ht
            rcases hacc _ _ (RuleAt.value htop) hs with rfl | ⟨n, rfl⟩
            · simp [hn, ElemT.protoType]
            · refine absurd (Or.inr ⟨_, _, _, _, _, rfl, rfl, rfl, ?_⟩) hwf
              cases hi : values.type <;> simp_all [IsString, WrapperKind]
        | _ => simp [FieldRules.type] at ht

/-- **C38** For an accepted message for which the generator does not fail (`hg`), every helper its
generated code calls, directly or through the email helper, is emitted for it. (`hk`: map keys are never
messages in protobuf.) -/
theorem C38_helpers (compiles : Bytes → Bool) (d : MsgDesc) (ha : AcceptedMsg compiles d)
    (hg : genFails d = false) (hk : ∀ f, FieldOf d f → ∀ k v, f.typ = .map k v → k.isEmbed = false)
    (h : Helper) (hc : h ∈ msgCalls d) : needs d h = true :=
  helpers_of_strings d (fun hd _ hf _ _ hr hs => string_type (accepted_of_msg ha hd hf) hr hs) hg hk h hc

/-- **C38, partial** When a top-level message calls the uuid helper, the file declares the pattern the
helper uses. Missing: nested messages, see `C38_nested_uuid_missing`. -/
theorem C38_uuid_pattern_partial (compiles : Bytes → Bool) (F : FileDesc) (d : MsgDesc) (hd : d ∈ F.top)
    (ha : AcceptedMsg compiles d) (hg : genFails d = false)
    (hk : ∀ f, FieldOf d f → ∀ k v, f.typ = .map k v → k.isEmbed = false) (hc : Helper.uuid ∈ msgCalls d) : fileNeeds F .uuid = true := by
  unfold fileNeeds
  rw [List.any_eq_true]
  exact ⟨d, hd, C38_helpers compiles d ha hg hk _ hc⟩

/-- A uuid field. -/
def uuidField : FieldDesc :=
  { name := "Id", typ := .one .string, rules := .mk none (.string { wellKnown := some (.uuid true) }) }

/-- **C38** (negation) A nested message whose code calls the uuid helper, in a file that does not
declare the pattern variable. -/
theorem C38_nested_uuid_missing :
    AcceptedMsg (fun _ => true) { name := "Outer_Inner", fields := [uuidField] } ∧
    Helper.uuid ∈ msgCalls { name := "Outer_Inner", fields := [uuidField] } ∧
    needs { name := "Outer_Inner", fields := [uuidField] } .uuid = true ∧
    fileNeeds ⟨[{ name := "Outer" }], [{ name := "Outer_Inner", fields := [uuidField] }]⟩ .uuid = false :=
  ⟨acceptedMsg_of _ _ (by decide), by decide, by decide, by decide⟩

/-- C38's hypotheses are met by a message that calls all three helpers. -/
example : ∃ d : MsgDesc, AcceptedMsg (fun _ => true) d ∧ genFails d = false ∧
    (∀ f, FieldOf d f → ∀ k v, f.typ = .map k v → k.isEmbed = false) ∧ msgCalls d = [.email, .hostname, .uuid] := by
  refine ⟨{ name := "M", fields := [
    { name := "Mail", typ := .one (.embed "google.protobuf.StringValue" (some .stringValue)),
      rules := .mk none (.string { wellKnown := some (.email true) }) },
    { name := "Ids", typ := .rep .string,
      rules := .mk none (.repeated {} (.mk none (.string { wellKnown := some (.uuid true) }))) }] },
    acceptedMsg_of _ _ (by decide), by decide, ?_, by decide⟩
  simp [FieldOf]

end PGV.Props
