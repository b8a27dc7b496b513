import Verif.Spec.CppEmit
import Verif.Props.Emit

/-!
C68: what can go wrong between an accepted message and a C++ file that compiles.
-/

set_option linter.unusedSimpArgs false

namespace PGV.Props
open PGV PGV.Spec
open PGV.Go (Var tables declIf rendered resolve allFields)
open PGV.Spec.Cpp (IsWrapper ListedWrapper RuledWrapperElems UniqueList AtMostOne NotTimeOrAny)

/-! ### Failures of the generator -/

/-- The kind of wrapper that checked rules on a message belong to. -/
def WrapperFor (w : WKT) : TypeRules → Prop
  | .num k _ => w.wrapped = some (.num k)
  | .bool _ => w = .boolValue
  | .string _ => w = .stringValue
  | .bytes _ => w = .bytesValue
  | _ => False

theorem wrapper_rules {c : Bytes → Bool} {f : FieldDesc} (h : Accepted c f) {n : String} {w : Option WKT}
    {m : Option MessageRules} {t : TypeRules} (hr : RuleAt f (.one (.embed n w)) (.mk m t))
    (hu : t ≠ .unset) (hn : NotTimeOrAny t) : ∃ w', w = some w' ∧ WrapperFor w' t := by
  obtain ⟨y, hy, hc⟩ := ruleAt_type h hr
  cases t with
  | unset => exact absurd rfl hu
  | any r => exact hn.elim
  | duration r => exact hn.elim
  | timestamp r => exact hn.elim
  | num k r =>
    simp only [Checker.checkTypeRules] at hc
    have hm : Checker.mustType y (.num k) (Checker.wrapperOf k) = true := by
      cases hm : Checker.mustType y (.num k) (Checker.wrapperOf k) with
      | true => rfl
      | false => simp [hm] at hc
    rw [mustType_num hy] at hm
    rcases hm with hm | ⟨n', w', hm, hw⟩
    · simp at hm
    · simp only [FieldT.one.injEq, ElemT.embed.injEq] at hm
      exact ⟨w', hm.2, hw⟩
  | bool r =>
    simp only [Checker.checkTypeRules] at hc
    have hm : Checker.mustType y .bool (some .boolValue) = true := by
      cases hm : Checker.mustType y .bool (some .boolValue) with
      | true => rfl
      | false => simp [hm] at hc
    rw [mustType_bool hy] at hm
    rcases hm with hm | ⟨n', hm⟩
    · simp at hm
    · simp only [FieldT.one.injEq, ElemT.embed.injEq] at hm
      exact ⟨_, hm.2, rfl⟩
  | string r =>
    simp only [Checker.checkTypeRules] at hc
    have hm : Checker.mustType y .string (some .stringValue) = true := by
      cases hm : Checker.mustType y .string (some .stringValue) with
      | true => rfl
      | false => simp [hm] at hc
    rw [mustType_string hy] at hm
    rcases hm with hm | ⟨n', hm⟩
    · simp at hm
    · simp only [FieldT.one.injEq, ElemT.embed.injEq] at hm
      exact ⟨_, hm.2, rfl⟩
  | bytes r =>
    simp only [Checker.checkTypeRules] at hc
    have hm : Checker.mustType y .bytes (some .bytesValue) = true := by
      cases hm : Checker.mustType y .bytes (some .bytesValue) with
      | true => rfl
      | false => simp [hm] at hc
    rw [mustType_bytes hy] at hm
    rcases hm with hm | ⟨n', hm⟩
    · simp at hm
    · simp only [FieldT.one.injEq, ElemT.embed.injEq] at hm
      exact ⟨_, hm.2, rfl⟩
  | enum r =>
    simp only [Checker.checkTypeRules] at hc
    have hm : Checker.mustType y .enum none = true := by
      cases hm : Checker.mustType y .enum none with
      | true => rfl
      | false => simp [hm] at hc
    rw [mustType_iff hy (by simp) (by simp)] at hm
    obtain ⟨e, he, hp | ⟨_, _, _, hp⟩⟩ := hm
    · simp only [FieldT.one.injEq] at he
      subst he
      simp [ElemT.protoType] at hp
    · simp at hp
  | repeated r items =>
    rcases hy with rfl | ⟨e', he, rfl⟩ <;> simp [Checker.checkTypeRules] at hc
  | map r keys values =>
    rcases hy with rfl | ⟨e', he, rfl⟩ <;> simp [Checker.checkTypeRules] at hc

theorem isWrapper_of {n : String} {w : WKT} {t : TypeRules} (h : WrapperFor w t) :
    IsWrapper (.embed n (some w)) := by
  cases t <;> simp only [WrapperFor] at h
  · exact ⟨n, w, _, rfl, h⟩
  all_goals subst h; exact ⟨n, _, _, rfl, rfl⟩

theorem tablesFail_iff {c : Bytes → Bool} {f : FieldDesc} (h : Accepted c f) :
    Cpp.tablesFail f = true ↔ ListedWrapper f := by
  obtain ⟨name, typ, rules⟩ := f
  have htop : RuleAt ⟨name, typ, rules⟩ typ rules := RuleAt.top
  unfold Cpp.tablesFail ListedWrapper
  simp only [Bool.and_eq_true, Bool.or_eq_true, (tables_spec _).1]
  constructor
  · rintro ⟨hl, hf⟩
    unfold Cpp.inTypeFails at hf
    split at hf
    · rename_i n w
      cases rules with
      | absent => simp [FieldRules.type] at hf
      | mk m t =>
        simp only [type_mk] at hf hl ⊢
        have hun : t ≠ .unset ∧ NotTimeOrAny t := by cases t <;> simp_all [NotTimeOrAny]
        obtain ⟨w', rfl, hw⟩ := wrapper_rules h htop hun.1 hun.2
        refine ⟨_, rfl, isWrapper_of hw, ?_, hl, hun.2⟩
        intro n' he
        simp only [ElemT.embed.injEq, Option.some.injEq] at he
        cases t <;> simp_all [WrapperFor, WKT.wrapped]
    · simp at hf
  · rintro ⟨e, rfl, ⟨n, w, p, rfl, hp⟩, hs, hl, hn⟩
    refine ⟨hl, ?_⟩
    cases rules with
    | absent => simp [FieldRules.type, HasList] at hl
    | mk m t =>
      simp only [type_mk] at hl hn ⊢
      cases t with
      | string r =>
        obtain ⟨w', hw', hw⟩ := wrapper_rules h htop (by simp) trivial
        simp only [Option.some.injEq] at hw'
        subst hw'
        simp only [WrapperFor] at hw
        subst hw
        exact absurd rfl (hs n)
      | _ => first | simp [HasList] at hl; done | exact hn.elim | simp [Cpp.inTypeFails]

theorem elemFails_iff {c : Bytes → Bool} {f : FieldDesc} (h : Accepted c f) {e : ElemT}
    {rules : FieldRules} (hr : RuleAt f (.one e) rules) :
    Cpp.elemFails e rules = true ↔ IsWrapper e ∧ ∃ m t, rules = .mk m t ∧ t ≠ .unset ∧ NotTimeOrAny t := by
  cases rules with
  | absent =>
    simp only [Cpp.elemFails, resolve, FieldRules.type]
    cases e.isEmbed <;> simp
  | mk m t =>
    constructor
    · intro hf
      have hun : e.isEmbed = true ∧ t ≠ .unset ∧ NotTimeOrAny t := by
        unfold Cpp.elemFails resolve at hf
        cases he : e.isEmbed <;> cases t with
        | num k r => cases k <;> simp_all [FieldRules.type, NotTimeOrAny]
        | _ => simp_all [FieldRules.type, NotTimeOrAny]
      cases e with
      | embed n w =>
        obtain ⟨w', rfl, hw⟩ := wrapper_rules h hr hun.2.1 hun.2.2
        exact ⟨isWrapper_of hw, m, t, rfl, hun.2⟩
      | _ => simp [ElemT.isEmbed] at hun
    · rintro ⟨⟨n, w, p, rfl, hp⟩, m', t', he, hu, hn⟩
      simp only [FieldRules.mk.injEq] at he
      obtain ⟨rfl, rfl⟩ := he
      obtain ⟨w', hw', hw⟩ := wrapper_rules h hr hu hn
      simp only [Option.some.injEq] at hw'
      subst hw'
      unfold Cpp.elemFails resolve
      cases t with
      | num k r =>
        simp only [WrapperFor] at hw
        cases w <;> simp [WKT.wrapped] at hw <;> subst hw <;> simp [FieldRules.type, ElemT.isEmbed]
      | _ => first | exact hw.elim | simp [FieldRules.type, ElemT.isEmbed]

theorem renderFails_iff {c : Bytes → Bool} {f : FieldDesc} (h : Accepted c f) :
    Cpp.renderFails f = true ↔ RuledWrapperElems f := by
  obtain ⟨name, typ, rules⟩ := f
  have htop : RuleAt ⟨name, typ, rules⟩ typ rules := RuleAt.top
  unfold Cpp.renderFails RuledWrapperElems
  cases rules with
  | absent => cases typ <;> simp [FieldRules.type]
  | mk m t =>
    simp only [type_mk]
    cases typ with
    | one e => simp
    | rep e =>
      cases t with
      | repeated r items =>
        simp only
        rw [elemFails_iff h (RuleAt.item htop)]
        constructor
        · rintro ⟨h1, h2⟩
          exact .inl ⟨e, r, items, rfl, rfl, h1, h2⟩
        · rintro (⟨e', r', items', he, hr, h1, h2⟩ | ⟨k, e', r', ks, vs, he, hr, h1, h2⟩)
          · simp only [FieldT.rep.injEq, TypeRules.repeated.injEq] at he hr
            obtain ⟨rfl, rfl⟩ := hr
            subst he
            exact ⟨h1, h2⟩
          · simp at he
      | _ => simp
    | map k e =>
      cases t with
      | map r keys values =>
        simp only
        rw [elemFails_iff h (RuleAt.value htop)]
        constructor
        · rintro ⟨h1, h2⟩
          exact .inr ⟨k, e, r, keys, values, rfl, rfl, h1, h2⟩
        · rintro (⟨e', r', items', he, hr, h1, h2⟩ | ⟨k', e', r', ks, vs, he, hr, h1, h2⟩)
          · simp at he
          · simp only [FieldT.map.injEq, TypeRules.map.injEq] at he hr
            obtain ⟨rfl, rfl, rfl⟩ := hr
            obtain ⟨rfl, rfl⟩ := he
            exact ⟨h1, h2⟩
      | _ => simp

/-- **C68** (negation, and exactly when it holds) Generating C++ for an accepted message fails if and
only if a field is a wrapper other than `StringValue` with an `in` or `not_in` list, a list of wrappers
with rules on its items, or a map to wrappers with rules on its values. -/
theorem C68_fails_iff (compiles : Bytes → Bool) (d : MsgDesc) (ha : AcceptedMsg compiles d)
    (hd : d.disabled = false) (hi : d.ignored = false) :
    Cpp.genFails d = true ↔ ∃ f, FieldOf d f ∧ (ListedWrapper f ∨ RuledWrapperElems f) := by
  unfold Cpp.genFails
  simp only [hd, hi, Bool.not_false, Bool.true_and, Bool.or_eq_true, List.any_eq_true]
  constructor
  · rintro (⟨f, hf, h⟩ | ⟨f, hf, h⟩)
    · have hf := mem_allFields.1 hf
      exact ⟨f, hf, .inl ((tablesFail_iff (accepted_of_msg ha hd hf)).1 h)⟩
    · have hf := mem_allFields.1 hf
      exact ⟨f, hf, .inr ((renderFails_iff (accepted_of_msg ha hd hf)).1 h)⟩
  · rintro ⟨f, hf, h | h⟩
    · exact .inl ⟨f, mem_allFields.2 hf, (tablesFail_iff (accepted_of_msg ha hd hf)).2 h⟩
    · exact .inr ⟨f, mem_allFields.2 hf, (renderFails_iff (accepted_of_msg ha hd hf)).2 h⟩

/-! ### Names -/

theorem refs_go (f : FieldDesc) : Cpp.refs f = Go.refs f := rfl

theorem decls_go (f : FieldDesc) : (Cpp.decls f).Perm (Go.decls f) := by
  unfold Cpp.decls Go.decls
  cases f.rules.type with
  | repeated r items =>
    simp only
    cases items.type with
    | string r =>
      simp only
      rw [List.append_assoc (declIf r.pattern.isSome Var.pattern)]
      exact List.perm_append_comm
    | _ => exact List.Perm.refl _
  | _ => exact List.Perm.refl _

theorem locals_names {msg : String} {f : FieldDesc} {x : String} (h : x ∈ Cpp.locals msg f) :
    UniqueList f := by
  unfold Cpp.locals at h
  split at h
  · rename_i e r items he hr
    split at h
    · rename_i hu
      refine ⟨e, r, items, he, hr, ?_, ?_⟩
      · cases hq : r.unique with
        | none => simp [hq, optB] at hu
        | some b => cases b <;> simp_all [optB]
      · intro hi
        simp [hi, optB] at hu
    · simp at h
  · simp at h

theorem locals_nodup (msg : String) (f : FieldDesc) : (Cpp.locals msg f).Nodup := by
  unfold Cpp.locals
  split
  · split
    · have key : ∀ x y : String, ∀ z : List Char, x.toList = z → y.toList.head? ≠ z.head? → x ≠ y := by
        intro x y z h1 h2 h
        subst h
        rw [h1] at h2
        exact h2 rfl
      have e : ∀ t : String, ("_" ++ t).toList.head? = some '_' := by intro t; simp
      have a : ∀ a b c d : String, ("_" ++ a ++ b ++ c ++ d).toList.head? = some '_' := by
        intro a b c d; simp
      simp only [List.nodup_cons, List.mem_cons, List.not_mem_nil, or_false, not_or, not_false_eq_true,
        List.nodup_nil, and_true]
      refine ⟨⟨by decide, ?_⟩, ?_⟩
      · exact key _ _ ['c', 'm', 'p'] (by simp) (by rw [a]; simp)
      · exact key _ _ ['h', 'a', 's', 'h'] (by simp) (by rw [a]; simp)
    · simp
  · simp

/-- **C68, partial** A file generates and its C++ code has no name twice where it matters when its
messages are accepted, have different names, no fields of the kinds in `C68_fails_iff`, only supported
tables, names of fields without underscores and at most one list each with `unique` and without
`ignore_empty`: then every lookup table or pattern the code uses is declared exactly once in the
namespace, and nothing is declared twice in a function. Missing: the other files, see
`C68_generation_fails`, `C68_item_table_undeclared`, `C68_nested_names_collide` and
`C68_unique_twice`. -/
theorem C68_generated_partial (compiles : Bytes → Bool) (F : Cpp.File)
    (ha : ∀ m ∈ F, AcceptedMsg compiles m.desc ∧ m.desc.disabled = false)
    (hw : ∀ m ∈ F, ∀ f, FieldOf m.desc f → ¬ ListedWrapper f ∧ ¬ RuledWrapperElems f)
    (hn : PGV.Spec.Cpp.WellNamed F) (hu : ∀ m ∈ F, ∀ f, FieldOf m.desc f → '_' ∉ f.name.toList)
    (hs : ∀ m ∈ F, ∀ f, FieldOf m.desc f → TablesSupported f)
    (hq : ∀ m ∈ F, AtMostOne UniqueList m.desc.fields) :
    (∀ m ∈ F, Cpp.genFails m.desc = false) ∧
    (Cpp.fileDecls F).Nodup ∧ (∀ x ∈ Cpp.fileRefs F, (Cpp.fileDecls F).count x = 1) ∧
    ∀ m ∈ F, (Cpp.msgLocals m).Nodup := by
  refine ⟨?_, ?_⟩
  · intro m hm
    cases hi : m.desc.ignored with
    | true => simp [Cpp.genFails, hi]
    | false =>
      rw [← Bool.not_eq_true, C68_fails_iff compiles m.desc (ha m hm).1 (ha m hm).2 hi]
      rintro ⟨f, hf, h | h⟩
      · exact (hw m hm f hf).1 h
      · exact (hw m hm f hf).2 h
  have nd : (Cpp.fileDecls F).Nodup := by
    unfold Cpp.fileDecls
    rw [List.Nodup, List.pairwise_flatMap]
    refine ⟨?_, ?_⟩
    · intro d hd
      unfold Cpp.msgDecls
      split
      · exact List.Pairwise.nil
      · rw [List.pairwise_flatMap]
        refine ⟨?_, ?_⟩
        · intro f hf
          rw [List.pairwise_map]
          have hff := mem_allFields.1 hf
          refine ((decls_go f).nodup_iff.2 (decls_nodup f (hs d hd f hff))).imp ?_
          intro a b hab he
          exact hab (varName_inj (hu d hd f hff) (hu d hd f hff) he).2.2
        · refine (pairwise_of_nodup_map (hn.2 d hd)).imp_of_mem ?_
          intro f g hf hg hfg x hx y hy he
          obtain ⟨a, _, rfl⟩ := List.mem_map.1 hx
          obtain ⟨b, _, rfl⟩ := List.mem_map.1 hy
          exact hfg (varName_inj (hu d hd f (mem_allFields.1 hf)) (hu d hd g (mem_allFields.1 hg)) he).2.1
    · have hn1 := hn.1
      rw [List.Nodup, List.pairwise_map] at hn1
      refine hn1.imp_of_mem ?_
      intro d e hd he hde x hx y hy hxy
      unfold Cpp.msgDecls at hx hy
      split at hx
      · simp at hx
      · split at hy
        · simp at hy
        · obtain ⟨f, hf, hx⟩ := List.mem_flatMap.1 hx
          obtain ⟨g, hg, hy⟩ := List.mem_flatMap.1 hy
          obtain ⟨a, _, rfl⟩ := List.mem_map.1 hx
          obtain ⟨b, _, rfl⟩ := List.mem_map.1 hy
          exact hde (varName_inj (hu d hd f (mem_allFields.1 hf)) (hu e he g (mem_allFields.1 hg)) hxy).1
  refine ⟨nd, ?_, ?_⟩
  · intro x hx
    have hmem : x ∈ Cpp.fileDecls F := by
      unfold Cpp.fileRefs at hx
      obtain ⟨d, hd, hx⟩ := List.mem_flatMap.1 hx
      unfold Cpp.msgRefs at hx
      split at hx
      · simp at hx
      · rename_i hi
        obtain ⟨f, hf, hx⟩ := List.mem_flatMap.1 hx
        obtain ⟨v, hv, rfl⟩ := List.mem_map.1 hx
        refine List.mem_flatMap.2 ⟨d, hd, ?_⟩
        unfold Cpp.msgDecls
        have : d.desc.ignored = false := by
          cases h : d.desc.ignored
          · rfl
          · simp [h] at hi
        simp only [this, Bool.false_eq_true, if_false]
        refine List.mem_flatMap.2 ⟨f, hf, List.mem_map.2 ⟨v, ?_, rfl⟩⟩
        rw [refs_go] at hv
        exact (decls_go f).mem_iff.2 (refs_declared f (hs d hd f (mem_allFields.1 hf)) v hv)
    exact List.Nodup.count nd |>.trans (by simp [hmem])
  · intro m hm
    unfold Cpp.msgLocals
    split
    · exact List.nodup_nil
    · rw [List.Nodup, List.pairwise_flatMap]
      refine ⟨fun f _ => locals_nodup _ _, ?_⟩
      refine (hq m hm).imp ?_
      intro f g hfg x hx y hy
      exact absurd ⟨locals_names hx, locals_names hy⟩ hfg

/-! ### What goes wrong otherwise -/

/-- A wrapped number that must be 1. -/
def wrappedOne : FieldDesc :=
  { name := "X", typ := .one (.embed "google.protobuf.Int32Value" (some .int32Value)),
    rules := .mk none (.num .int32 { ins := [.int 1] }) }

/-- A list of wrapped numbers below 10. -/
def wrappedItems : FieldDesc :=
  { name := "X", typ := .rep (.embed "google.protobuf.Int32Value" (some .int32Value)),
    rules := .mk none (.repeated {} (.mk none (.num .int32 { lt := some (.int 10) }))) }

/-- **C68** (negation) Accepted messages for which generation of C++ fails. -/
theorem C68_generation_fails :
    AcceptedMsg (fun _ => true) { name := "M", fields := [wrappedOne] } ∧
    Cpp.genFails { name := "M", fields := [wrappedOne] } = true ∧
    AcceptedMsg (fun _ => true) { name := "M", fields := [wrappedItems] } ∧
    Cpp.genFails { name := "M", fields := [wrappedItems] } = true :=
  ⟨acceptedMsg_of _ _ (by decide), by decide, acceptedMsg_of _ _ (by decide), by decide⟩

/-- **C68** (negation) An accepted list of integers with an `in` rule on its items refers to a table
that is not declared. -/
theorem C68_item_table_undeclared : AcceptedMsg (fun _ => true) { name := "M", fields := [smallInts] } ∧
    Cpp.fileRefs [⟨"M", { name := "M", fields := [smallInts] }⟩] = ["_M_Xs_InLookup"] ∧
    Cpp.fileDecls [⟨"M", { name := "M", fields := [smallInts] }⟩] = [] :=
  ⟨acceptedMsg_of _ _ (by decide), by decide, by decide⟩

/-- The messages `A.Inner` and `B.Inner`, each with a field `X`. -/
def twoInners : Cpp.File :=
  [⟨"A", { name := "A" }⟩, ⟨"Inner", { name := "A_Inner", fields := [oneInt "X"] }⟩,
   ⟨"B", { name := "B" }⟩, ⟨"Inner", { name := "B_Inner", fields := [oneInt "X"] }⟩]

/-- **C68** (negation) Messages of the same name in two other messages declare the same variable. In Go
they do not. -/
theorem C68_nested_names_collide : (∀ m ∈ twoInners, AcceptedMsg (fun _ => true) m.desc) ∧
    Cpp.fileDecls twoInners = ["_Inner_X_InLookup", "_Inner_X_InLookup"] ∧
    Go.fileDecls ⟨[], twoInners.map (·.desc)⟩ = ["_A_Inner_X_InLookup", "_B_Inner_X_InLookup"] := by
  refine ⟨?_, by decide, by decide⟩
  simp only [twoInners, List.mem_cons, List.not_mem_nil, or_false]
  rintro m (rfl | rfl | rfl | rfl) <;> exact acceptedMsg_of _ _ (by decide)

/-- A list of integers without duplicates. -/
def distinct (name : String) : FieldDesc :=
  { name := name, typ := .rep (.scalar .int32), rules := .mk none (.repeated { unique := some true } .absent) }

/-- **C68** (negation) Two lists with `unique` in one accepted message define the same classes twice in
one function. -/
theorem C68_unique_twice : AcceptedMsg (fun _ => true) { name := "M", fields := [distinct "Xs", distinct "Ys"] } ∧
    Cpp.msgLocals ⟨"M", { name := "M", fields := [distinct "Xs", distinct "Ys"] }⟩ =
      ["cmp", "hash", "_M_Xs_Unique", "cmp", "hash", "_M_Ys_Unique"] :=
  ⟨acceptedMsg_of _ _ (by decide), by decide⟩

/-- The hypotheses of `C68_generated_partial` are met by a file that uses tables, a wrapper and `unique`. -/
example : ∃ F : Cpp.File, (∀ m ∈ F, AcceptedMsg (fun _ => true) m.desc ∧ m.desc.disabled = false) ∧
    (∀ m ∈ F, ∀ f, FieldOf m.desc f → ¬ ListedWrapper f ∧ ¬ RuledWrapperElems f) ∧
    PGV.Spec.Cpp.WellNamed F ∧ (∀ m ∈ F, ∀ f, FieldOf m.desc f → '_' ∉ f.name.toList) ∧
    (∀ m ∈ F, ∀ f, FieldOf m.desc f → TablesSupported f) ∧
    (∀ m ∈ F, AtMostOne UniqueList m.desc.fields) ∧
    Cpp.fileRefs F = ["_A_X_InLookup", "_A_W_InLookup"] := by
  refine ⟨[⟨"A", { name := "A", fields := [oneInt "X",
    { name := "W", typ := .one (.embed "google.protobuf.StringValue" (some .stringValue)),
      rules := .mk none (.string { ins := [asc "x"] }) }, distinct "Ys"] }⟩], ?_, ?_, ?_, ?_, ?_, ?_, by decide⟩
  · simp only [List.mem_singleton]
    rintro m rfl
    exact ⟨acceptedMsg_of _ _ (by decide), rfl⟩
  · simp [FieldOf, oneInt, distinct, ListedWrapper, RuledWrapperElems, IsWrapper, FieldRules.type]
  · exact ⟨by decide, by simp [oneInt, distinct, allFields]⟩
  · simp [FieldOf, oneInt, distinct]
  · simp [FieldOf, oneInt, distinct, TablesSupported, FieldRules.type, HasList, HasPattern]
  · simp [AtMostOne, UniqueList, oneInt, distinct]

end PGV.Props
