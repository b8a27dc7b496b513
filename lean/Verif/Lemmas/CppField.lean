import Verif.Lemmas.CppStatic
import Verif.Props.CppEmit

/-!
When the code of a field compiles.
-/

set_option linter.unusedSimpArgs false

namespace PGV.Cpp
open PGV PGV.Spec PGV.Spec.Cpp PGV.Props
open PGV.Go (Var resolve Resolved elemTypNotNone allFields litString declIf tables)

theorem tableConsts_none {t : TypeRules} (h : ¬ HasList t) : TableConsts t := by
  cases t <;> simp_all [HasList, TableConsts]

theorem patConst_none {t : TypeRules} (h : ¬ HasPattern t) : PatConst t := by
  cases t <;> simp_all [HasPattern, PatConst]

theorem notNone {e : ElemT} {rules : FieldRules} (h : elemTypNotNone e rules = false) : rules.type = .unset := by
  unfold elemTypNotNone resolve at h
  cases ht : rules.type with
  | num k r => rw [ht] at h; cases k <;> cases he : e.isEmbed <;> simp_all
  | unset => rfl
  | _ => rw [ht] at h; cases he : e.isEmbed <;> simp_all

/-- The tables for the items of a list. -/
theorem item_tables {isPrint : Nat → Bool} (hp : PrintsAscii isPrint) {N : Names} {f : FieldDesc} {e : ElemT}
    {r : RepeatedRules} {items : FieldRules} (hf : f.typ = .rep e) (hrt : f.rules.type = .repeated r items)
    (hs : Suits (.one e) items.type) (hr : ProtoRanges items.type) (hu : TextRules items.type) {T : CT} {has : Bool}
    (hT : Holds T has items.type) :
    ((fieldDecls N isPrint f).all Decl.ok = true ∧
      (HasPattern items.type → scope (fieldDecls N isPrint f) .pattern = some .regex) ∧
      ListsFound isPrint (scope (fieldDecls N isPrint f)) T items.type) ↔
    TableConsts items.type ∧ PatConst items.type ∧
      (HasList items.type ∨ HasPattern items.type → IsString items.type ∨ IsEnum items.type) ∧
      ∀ vs, e = .enum vs → HasList items.type → PlainEnum (N.enum f) ∧ (N.enum f).sameGo = true := by
  generalize hds : fieldDecls N isPrint f = ds
  unfold fieldDecls at hds
  simp only [hrt] at hds
  by_cases hst : IsString items.type
  · cases hit : items.type with
    | string q =>
      simp only [hit] at hds hs hr hu hT ⊢
      obtain ⟨h1, h2, h3⟩ := string_tables hp hu hr hds.symm
      have hTs : T = .string := hT
      subst hTs
      constructor
      · rintro ⟨a, _, _⟩
        refine ⟨(h1.1 a).1, (h1.1 a).2, fun _ => .inl trivial, ?_⟩
        rintro vs rfl
        rcases hs with hs | ⟨n, hs⟩ <;> cases hs
      · rintro ⟨a, b, _⟩
        exact ⟨h1.2 ⟨a, b⟩, h3, h2 (h1.2 ⟨a, b⟩)⟩
    | _ => simp [hit, IsString] at hst
  by_cases hen : IsEnum items.type
  · cases hit : items.type with
    | enum q =>
      simp only [hit] at hds hs hr hu hT ⊢
      obtain ⟨vs, hs⟩ := hs
      cases hs
      have ho : itemSetType N f = if (N.enum f).listOk then some (.enum vs) else none := by simp [itemSetType, hf]
      have sc := scope_sets' (itemSetType N f) Init.enum q.ins q.notIns
      rw [hds] at sc
      have first : ds.all Decl.ok = true ↔ (q.ins ≠ [] ∨ q.notIns ≠ [] → (N.enum f).listOk = true) := by
        rw [← hds, setDecls_ok]
        refine forall_congr' fun hne => ?_
        rw [ho]
        constructor
        · rintro ⟨S, e', _⟩
          split at e'
          · assumption
          · cases e'
        · intro h
          refine ⟨.enum vs, by simp [h], fun x hx => ?_⟩
          have := hr x (.inr hx)
          simp only [Init.fits]
          exact (intLit_iff x).2 (by unfold JavaInt at this; unfold CppInt; omega)
      rw [first]
      simp only [TableConsts, PatConst, true_and, HasList, HasPattern, IsEnum, or_true, implies_true, false_imp_iff]
      constructor
      · rintro ⟨h, _⟩ vs' _ hl
        exact (listEnum_iff _).1 (h hl)
      · intro h
        have hok : q.ins ≠ [] ∨ q.notIns ≠ [] → (N.enum f).listOk = true := fun hl => (listEnum_iff _).2 (h vs rfl hl)
        refine ⟨hok, ?_⟩
        unfold ListsFound
        refine finds_tables (G := scope ds) (S := .enum vs) (fun h => ?_) (fun h => ?_) fun v hv => ?_
        · rw [sc.1 h, ho, if_pos (hok (.inl h))]; rfl
        · rw [sc.2 h, ho, if_pos (hok (.inr h))]; rfl
        · have hTa : T.arithmetic = true := hT
          have : FindOk (scope ds) T v := findOk_cast hv (by unfold castable; rw [hTa]; rfl)
          exact ⟨fun _ => this, fun _ => this⟩
    | _ => simp [hit, IsEnum] at hen
  · have hnil : ds = [] := by
      rw [← hds]
      cases hit : items.type with
      | string q => simp [hit, IsString] at hst
      | enum q => simp [hit, IsEnum] at hen
      | _ => rfl
    have hen' : ∀ vs, e = .enum vs → HasList items.type → PlainEnum (N.enum f) ∧ (N.enum f).sameGo = true := by
      rintro vs rfl
      cases hit : items.type with
      | unset => simp [HasList]
      | enum q => simp [hit, IsEnum] at hen
      | num k q => rw [hit] at hs; rcases hs with hs | ⟨n, w, hs, _⟩ <;> cases hs
      | bool q => simp [HasList]
      | string q => simp [hit, IsString] at hst
      | bytes q => rw [hit] at hs; rcases hs with hs | ⟨n, hs⟩ <;> cases hs
      | repeated q i => simp [HasList]
      | map q k v => simp [HasList]
      | timestamp q => simp [HasList]
      | any q => rw [hit] at hs; obtain ⟨n, hs⟩ := hs; cases hs
      | duration q => rw [hit] at hs; obtain ⟨n, hs⟩ := hs; cases hs
    rw [listsFound_none (by simp [hnil, scope]) (by simp [hnil, scope])]
    simp only [hnil, scope, List.all_nil, true_and, List.find?_nil, Option.bind_none, reduceCtorEq, hst, hen, or_self,
      imp_false, not_or]
    constructor
    · rintro ⟨a, b⟩
      exact ⟨tableConsts_none b, patConst_none a, ⟨b, a⟩, hen'⟩
    · rintro ⟨_, _, ⟨a, b⟩, _⟩
      exact ⟨b, a⟩

/-- What the rules of keys, or those of values, declare. -/
def sideDecl (isPrint : Nat → Bool) : TypeRules → List Decl
  | .string r => patternDecl isPrint r.pattern
  | _ => []

def sideVar : TypeRules → List Var
  | .string r => declIf r.pattern.isSome .pattern
  | _ => []

/-- The tables for the keys and values of a map. -/
theorem map_tables {isPrint : Nat → Bool} (hp : PrintsAscii isPrint) {N : Names} {f : FieldDesc}
    {r : MapRules} {keys values : FieldRules} (hrt : f.rules.type = .map r keys values)
    (hk : ProtoRanges keys.type) (hv : ProtoRanges values.type)
    (hpt : HasPattern keys.type → HasPattern values.type → IsString keys.type ∧ IsString values.type) {T U : CT} :
    (((fieldDecls N isPrint f).all Decl.ok = true ∧
      (HasPattern keys.type → scope (fieldDecls N isPrint f) .pattern = some .regex) ∧
      (HasPattern values.type → scope (fieldDecls N isPrint f) .pattern = some .regex) ∧
      ListsFound isPrint (scope (fieldDecls N isPrint f)) T keys.type ∧
      ListsFound isPrint (scope (fieldDecls N isPrint f)) U values.type) ∧ (decls f).Nodup) ↔
    (TableConsts keys.type ∧ PatConst keys.type) ∧ (TableConsts values.type ∧ PatConst values.type) ∧
      TablesSupported f := by
  have hdv : decls f = sideVar keys.type ++ sideVar values.type := by
    unfold decls
    simp only [hrt]
    rfl
  have hds : fieldDecls N isPrint f = sideDecl isPrint keys.type ++ sideDecl isPrint values.type := by
    unfold fieldDecls
    simp only [hrt]
    rfl
  unfold TablesSupported
  simp only [hrt]
  rw [hdv]
  generalize fieldDecls N isPrint f = ds at hds
  replace hds := hds.symm
  -- what one side declares
  have side : ∀ t : TypeRules, ProtoRanges t → ∀ D : List Decl, D = sideDecl isPrint t →
      (IsString t ∧ HasPattern t ∧ (D.all Decl.ok = true ↔ PatConst t) ∧ sideVar t = [Var.pattern] ∧
        (∃ i, D = [⟨.pattern, some .regex, i⟩])) ∨
      ((HasPattern t → ¬ IsString t) ∧ D = [] ∧ sideVar t = []) := by
    intro t ht D hD
    subst hD
    cases t with
    | string q =>
      cases hq : q.pattern with
      | none => right; simp [hq, HasPattern, patternDecl, declIf, sideDecl, sideVar]
      | some p =>
        left
        refine ⟨trivial, by simp [HasPattern, hq], ?_, by simp [declIf, sideVar, hq],
          ⟨[.text (litString isPrint p)], by simp [hq, sideDecl, patternDecl]⟩⟩
        have := patternDecl_ok hp (p := q.pattern) ht
        simp only [hq, sideDecl] at this ⊢
        rw [this]
        simp [PatConst, hq]
    | _ => right; simp [IsString, HasPattern, sideDecl, sideVar]
  rcases side keys.type hk _ rfl with ⟨k1, k2, k3, k4, ik, k5⟩ | ⟨k1, k2, k3⟩ <;>
    rcases side values.type hv _ rfl with ⟨v1, v2, v3, v4, iv, v5⟩ | ⟨v1, v2, v3⟩
  · -- both: declared twice
    rw [k4, v4]
    refine iff_of_false (fun h => ?_) (fun h => ?_)
    · exact absurd h.2 (by decide)
    · exact (h.2.2.2.2.1 k2).2 v2
  · rw [k4, v3]
    rw [k5, v2] at hds
    subst hds
    rw [k5] at k3
    rw [listsFound_none (by simp [scope]) (by simp [scope]), listsFound_none (by simp [scope]) (by simp [scope])]
    rw [List.append_nil, k3]
    have hvp : ¬ HasPattern values.type := fun h => v1 h (hpt k2 h).2
    simp only [scope, k1, k2, hvp, beq_self_eq_true, List.find?_cons_of_pos, Option.bind_some, List.append_nil,
      List.nodup_cons, List.not_mem_nil, not_false_eq_true, List.nodup_nil, and_true, true_and, implies_true, and_self,
      false_imp_iff]
    exact ⟨fun ⟨a, b, c⟩ => ⟨⟨tableConsts_none b, a⟩, ⟨tableConsts_none c, patConst_none hvp⟩, b, c⟩,
      fun ⟨⟨_, a⟩, _, b, c⟩ => ⟨a, b, c⟩⟩
  · rw [k3, v4]
    rw [k2, v5] at hds
    subst hds
    rw [v5] at v3
    rw [listsFound_none (by simp [scope]) (by simp [scope]), listsFound_none (by simp [scope]) (by simp [scope])]
    rw [List.nil_append, v3]
    have hkp : ¬ HasPattern keys.type := fun h => k1 h (hpt h v2).1
    simp only [scope, v1, v2, hkp, beq_self_eq_true, List.find?_cons_of_pos, Option.bind_some, List.nil_append,
      List.nodup_cons, List.not_mem_nil, not_false_eq_true, List.nodup_nil, and_true, true_and, implies_true, and_self,
      false_imp_iff]
    exact ⟨fun ⟨a, b, c⟩ => ⟨⟨tableConsts_none b, patConst_none hkp⟩, ⟨tableConsts_none c, a⟩, b, c⟩,
      fun ⟨_, ⟨_, a⟩, b, c⟩ => ⟨a, b, c⟩⟩
  · rw [k3, v3]
    rw [k2, v2] at hds
    subst hds
    rw [listsFound_none (by simp [scope]) (by simp [scope]), listsFound_none (by simp [scope]) (by simp [scope])]
    simp only [scope, List.append_nil, List.all_nil, List.find?_nil, Option.bind_none, reduceCtorEq, imp_false,
      List.nodup_nil, and_true, true_and]
    constructor
    · rintro ⟨a, b, c, d⟩
      exact ⟨⟨tableConsts_none c, patConst_none a⟩, ⟨tableConsts_none d, patConst_none b⟩, c, d, fun h => absurd h a,
        fun h => absurd h b⟩
    · rintro ⟨_, _, c, d, e, g⟩
      exact ⟨fun h => k1 h (e h).1, fun h => v1 h (g h), c, d⟩

theorem optB_iff (o : Option Bool) : optB o = true ↔ o = some true := by
  cases o with
  | none => simp [optB]
  | some b => cases b <;> simp [optB]

theorem unique_ok {G : Var → Option DT} (N : Names) (f : FieldDesc) (e : ElemT) :
    Stmt.ok G (.unique (listType N f e) (itemType e)) = true ↔ e.isEmbed = false ∧ ∀ vs, e ≠ .enum vs := by
  cases e with
  | enum vs =>
    unfold listType itemType
    by_cases h : (N.enum f).listOk <;> simp [h, Stmt.ok]
  | _ => simp [listType, itemType, getterType, Stmt.ok, CT.arithmetic, ElemT.isEmbed]

theorem elemCode_nil {N : Names} {isPrint : Nat → Bool} {f : FieldDesc} {c : Ctx} {e : ElemT} {rules : FieldRules}
    (h : elemTypNotNone e rules = false) : elemCode N isPrint f c e rules = [] := by
  unfold elemTypNotNone at h
  unfold elemCode
  split at h
  · rename_i h'; simp [h']
  · cases h

theorem repeatedCode_ok {G : Var → Option DT} {isPrint : Nat → Bool} {N : Names} {f : FieldDesc} {e : ElemT}
    (hc : (fieldCtx N f).value = some .list) (r : RepeatedRules) (items : FieldRules) :
    (repeatedCode N isPrint f e r items).all (Stmt.ok G) = true ↔
      (IntLimit r.minItems ∧ IntLimit r.maxItems) ∧
      (r.unique = some true → e.isEmbed = false ∧ ∀ vs, e ≠ .enum vs) ∧
      (elemCode N isPrint f (varCtx (itemType e)) e items).all (Stmt.ok G) = true := by
  unfold repeatedCode
  simp only [List.all_append, Bool.and_eq_true, size_ok hc (.inr (.inl rfl)), counts_ok, all_onlyIf, List.all_cons,
    List.all_nil, Bool.and_true, unique_ok, optB_iff, and_assoc]
  have h0 : Stmt.ok G (.size (fieldCtx N f).value [0]) = true := by simp [hc, Stmt.ok, intLit]
  have h1 : Stmt.ok G (.loop (fieldCtx N f).value) = true := by simp [hc, Stmt.ok]
  simp only [h0, h1, implies_true, true_and]
  refine and_congr_right fun _ => and_congr_right fun _ => and_congr_right fun _ => ?_
  cases hn : elemTypNotNone e items with
  | true => simp
  | false => simp [elemCode_nil hn]

theorem mapCode_ok {G : Var → Option DT} {isPrint : Nat → Bool} {N : Names} {f : FieldDesc} {kt vt : ElemT}
    (hc : (fieldCtx N f).value = some .map) (r : MapRules) (keys values : FieldRules) :
    (mapCode N isPrint f kt vt r keys values).all (Stmt.ok G) = true ↔
      (IntLimit r.minPairs ∧ IntLimit r.maxPairs) ∧
      (elemCode N isPrint f (varCtx (getterType kt)) kt keys).all (Stmt.ok G) = true ∧
      (elemCode N isPrint f (varCtx (getterType vt)) vt values).all (Stmt.ok G) = true := by
  unfold mapCode
  simp only [List.all_append, Bool.and_eq_true, size_ok hc (.inr (.inr rfl)), counts_ok, all_onlyIf, List.all_cons,
    List.all_nil, Bool.and_true, and_assoc]
  have h0 : Stmt.ok G (.size (fieldCtx N f).value [0]) = true := by simp [hc, Stmt.ok, intLit]
  have h1 : Stmt.ok G (.loop (fieldCtx N f).value) = true := by simp [hc, Stmt.ok]
  simp only [h0, h1, implies_true, true_and]
  refine and_congr_right fun _ => and_congr_right fun _ => ?_
  cases hn : elemTypNotNone kt keys with
  | true => simp
  | false =>
    cases hm : elemTypNotNone vt values with
    | true => simp
    | false => simp [elemCode_nil hn, elemCode_nil hm]

/-- The code of a field compiles, and declares nothing twice, exactly if its rules can be written in C++. -/
theorem field_ok {isPrint : Nat → Bool} (hp : PrintsAscii isPrint) {N : Names} {f : FieldDesc}
    (ha : N.accessorOk f = true) (hpk : (N.enum f).package.ok = true) (hpm : ∀ n, (N.package n).ok = true)
    (hs : ∀ t r, RuleAt f t r → Suits t r.type)
    (hr : ∀ t r, RuleAt f t r → ProtoRanges r.type ∧ TextRules r.type)
    (hpt : ∀ r keys values, f.rules.type = .map r keys values →
      HasPattern keys.type → HasPattern values.type → IsString keys.type ∧ IsString values.type)
    (htf : tablesFail f = false) :
    (fieldCompiles N isPrint false f = true ∧ (decls f).Nodup) ↔ CppWritable N f := by
  have htop := hs _ _ RuleAt.top
  have hrtop := hr _ _ RuleAt.top
  have hcons := Java.forall_ruleAt (f := f) (P := CppConstants)
  unfold fieldCompiles
  simp only [Bool.false_or, Bool.and_eq_true]
  generalize hG : scope (fieldDecls N isPrint f) = G
  unfold fieldCode
  cases htyp : f.typ with
  | one e =>
    rw [htyp] at htop
    have hts : TablesSupported f := by
      unfold TablesSupported
      cases hrt : f.rules.type with
      | repeated r i => rw [hrt] at htop; obtain ⟨_, h⟩ := htop; cases h
      | map r k v => rw [hrt] at htop; obtain ⟨_, _, h⟩ := htop; cases h
      | _ => trivial
    have hnd : (decls f).Nodup := (decls_go f).nodup_iff.2 (decls_nodup f hts)
    obtain ⟨o1, o2, o3⟩ := own_tables hp htyp htop htf hrtop.1 hrtop.2 (N := N)
    rw [hG] at o2 o3
    obtain ⟨T, has, hT, hco⟩ := elemCode_ok (G := G) (N := N) (f := f) (c := fieldCtx N f) (rules := f.rules) hp hpk hpm
      (.inl (by simp [fieldCtx, ha, htyp])) (by intro h; simp [fieldCtx, ha, htyp, h]) htop hrtop.1 hrtop.2
    simp only [hco, o1, hnd, and_true]
    constructor
    · rintro ⟨⟨a, b, c⟩, d, _, _⟩
      refine ⟨hcons.2 ⟨(constants_split _).2 ⟨d, a, b⟩, ?_, ?_⟩, hts, ?_, ?_, ?_⟩
      · intro _ _ _ h; rw [htyp] at h; cases h
      · intro _ _ _ _ _ h; rw [htyp] at h; cases h
      · intro vs h hl; rw [htyp] at h; cases h; exact c vs rfl hl
      · intro _ _ _ h; rw [htyp] at h; cases h
      · intro _ _ _ h; rw [htyp] at h; cases h
    · intro h
      obtain ⟨d, a, b⟩ := (constants_split _).1 (hcons.1 h.constants).1
      have hd := o1.2 ⟨a, b, fun vs he hl => h.enums vs (by rw [htyp, he]) hl⟩
      exact ⟨⟨a, b, fun vs he hl => h.enums vs (by rw [htyp, he]) hl⟩, d, o3, o2 hd T has hT⟩
  | rep e =>
    rw [htyp] at htop
    have hcv : (fieldCtx N f).value = some .list := by simp [fieldCtx, ha, htyp]
    cases hrt : f.rules.type with
    | repeated r items =>
      simp only
      obtain ⟨m, hm⟩ := Java.forall_ruleAt.rules_mk hrt (by simp)
      have hat : RuleAt f (.one e) items := .item (m := m) (r := r) (by rw [← htyp, ← hm]; exact .top)
      obtain ⟨T, has, hT, hco⟩ := elemCode_ok (G := G) (N := N) (f := f) (c := varCtx (itemType e)) (e := e)
        (rules := items) hp hpk hpm (.inr rfl) (fun _ => rfl) (hs _ _ hat) (hr _ _ hat).1 (hr _ _ hat).2
      have it := item_tables (N := N) hp htyp hrt (hs _ _ hat) (hr _ _ hat).1 (hr _ _ hat).2 hT
      rw [hG] at it
      rw [repeatedCode_ok hcv, hco]
      constructor
      · rintro ⟨⟨a, b, c, d, g, h⟩, _⟩
        obtain ⟨i1, i2, i3, i4⟩ := it.1 ⟨a, g, h⟩
        refine ⟨hcons.2 ⟨?_, ?_, ?_⟩, ?_, ?_, ?_, ?_⟩
        · rw [hrt]; exact b
        · intro _ _ _ _ h'
          rw [hrt] at h'
          cases h'
          exact (constants_split _).2 ⟨d, i1, i2⟩
        · intro _ _ _ _ _ h'; rw [htyp] at h'; cases h'
        · unfold TablesSupported; rw [hrt]; exact i3
        · intro _ h'; rw [htyp] at h'; cases h'
        · intro vs _ _ h' h'' hl
          rw [htyp] at h'
          rw [hrt] at h''
          cases h'
          cases h''
          exact i4 vs rfl hl
        · intro _ _ _ h' h'' hu
          rw [htyp] at h'
          rw [hrt] at h''
          cases h'
          cases h''
          exact c hu
      · intro h
        have hsup := h.tables
        have hnd : (decls f).Nodup := (decls_go f).nodup_iff.2 (decls_nodup f hsup)
        unfold TablesSupported at hsup
        rw [hrt] at hsup
        obtain ⟨c1, c2, _⟩ := hcons.1 h.constants
        rw [hrt] at c1
        obtain ⟨d, a, b⟩ := (constants_split _).1 (c2 _ _ _ htyp hrt)
        obtain ⟨j1, j2, j3⟩ := it.2 ⟨a, b, hsup, fun vs he hl => h.itemEnums vs r items (by rw [htyp, he]) hrt hl⟩
        exact ⟨⟨j1, c1, fun hu => h.unique e r items htyp hrt hu, d, j2, j3⟩, hnd⟩
    | unset =>
      simp only
      have hts : TablesSupported f := by unfold TablesSupported; rw [hrt]; trivial
      have hnd : (decls f).Nodup := (decls_go f).nodup_iff.2 (decls_nodup f hts)
      have hd : fieldDecls N isPrint f = [] := by unfold fieldDecls; rw [hrt]
      obtain ⟨T, has, hT, hco⟩ := elemCode_ok (G := G) (N := N) (f := f) (c := varCtx (itemType e)) (e := e)
        (rules := .absent) hp hpk hpm (.inr rfl) (fun _ => rfl) (by simp [FieldRules.type, Suits])
        (by simp [FieldRules.type, ProtoRanges]) (by simp [FieldRules.type, TextRules])
      rw [repeatedCode_ok hcv, hco, hd]
      refine iff_of_true ⟨⟨rfl, by simp [IntLimit], by simp, by simp [FieldRules.type, CodeConsts],
        by simp [FieldRules.type, HasPattern], by simp [FieldRules.type, ListsFound]⟩, hnd⟩
        ⟨hcons.2 ⟨by simp [hrt, CppConstants], ?_, ?_⟩, hts, ?_, ?_, ?_⟩
      · intro _ _ _ _ h'; rw [hrt] at h'; cases h'
      · intro _ _ _ _ _ _ h'; rw [hrt] at h'; cases h'
      · intro _ h'; rw [htyp] at h'; cases h'
      · intro _ _ _ _ h'; rw [hrt] at h'; cases h'
      · intro _ _ _ _ h'; rw [hrt] at h'; cases h'
    | _ => rw [hrt] at htop; simp [Suits] at htop
  | map k v =>
    rw [htyp] at htop
    have hcv : (fieldCtx N f).value = some .map := by simp [fieldCtx, ha, htyp]
    cases hrt : f.rules.type with
    | map r keys values =>
      simp only
      obtain ⟨m, hm⟩ := Java.forall_ruleAt.rules_mk hrt (by simp)
      have htp : RuleAt f (.map k v) (.mk m (.map r keys values)) := by rw [← htyp, ← hm]; exact .top
      obtain ⟨T, _, _, hck⟩ := elemCode_ok (G := G) (N := N) (f := f) (c := varCtx (getterType k)) (e := k)
        (rules := keys) hp hpk hpm (.inl rfl) (fun _ => rfl) (hs _ _ (.key htp)) (hr _ _ (.key htp)).1
        (hr _ _ (.key htp)).2
      obtain ⟨U, _, _, hcv'⟩ := elemCode_ok (G := G) (N := N) (f := f) (c := varCtx (getterType v)) (e := v)
        (rules := values) hp hpk hpm (.inl rfl) (fun _ => rfl) (hs _ _ (.value htp)) (hr _ _ (.value htp)).1
        (hr _ _ (.value htp)).2
      have mt := map_tables (N := N) (T := T) (U := U) hp hrt (hr _ _ (.key htp)).1 (hr _ _ (.value htp)).1
        (hpt r keys values hrt)
      rw [hG] at mt
      rw [mapCode_ok hcv, hck, hcv']
      constructor
      · rintro ⟨⟨a, b, ⟨c1, c2, c3⟩, d1, d2, d3⟩, nd⟩
        obtain ⟨⟨i1, i2⟩, ⟨i3, i4⟩, i5⟩ := mt.1 ⟨⟨a, c2, d2, c3, d3⟩, nd⟩
        refine ⟨hcons.2 ⟨?_, ?_, ?_⟩, i5, ?_, ?_, ?_⟩
        · rw [hrt]; exact b
        · intro _ _ _ h'; rw [htyp] at h'; cases h'
        · intro _ _ _ _ _ _ h'
          rw [hrt] at h'
          cases h'
          exact ⟨(constants_split _).2 ⟨c1, i1, i2⟩, (constants_split _).2 ⟨d1, i3, i4⟩⟩
        · intro _ h'; rw [htyp] at h'; cases h'
        · intro _ _ _ h'; rw [htyp] at h'; cases h'
        · intro _ _ _ h'; rw [htyp] at h'; cases h'
      · intro h
        obtain ⟨c1, _, c2⟩ := hcons.1 h.constants
        rw [hrt] at c1
        obtain ⟨ck, cv⟩ := c2 _ _ _ _ _ htyp hrt
        obtain ⟨d1, a1, b1⟩ := (constants_split _).1 ck
        obtain ⟨d2, a2, b2⟩ := (constants_split _).1 cv
        obtain ⟨⟨j1, j2, j3, j4, j5⟩, j6⟩ := mt.2 ⟨⟨a1, b1⟩, ⟨a2, b2⟩, h.tables⟩
        exact ⟨⟨j1, c1, ⟨d1, j2, j4⟩, d2, j3, j5⟩, j6⟩
    | unset =>
      simp only
      have hts : TablesSupported f := by unfold TablesSupported; rw [hrt]; trivial
      have hnd : (decls f).Nodup := (decls_go f).nodup_iff.2 (decls_nodup f hts)
      have hd : fieldDecls N isPrint f = [] := by unfold fieldDecls; rw [hrt]
      have absent : ∀ e : ElemT, (elemCode N isPrint f (varCtx (getterType e)) e .absent).all (Stmt.ok G) = true := by
        intro e
        obtain ⟨T, has, hT, hco⟩ := elemCode_ok (G := G) (N := N) (f := f) (c := varCtx (getterType e)) (e := e)
          (rules := .absent) hp hpk hpm (.inl rfl) (fun _ => rfl) (by simp [FieldRules.type, Suits])
          (by simp [FieldRules.type, ProtoRanges]) (by simp [FieldRules.type, TextRules])
        exact hco.2 ⟨by simp [FieldRules.type, CodeConsts], by simp [FieldRules.type, HasPattern],
          by simp [FieldRules.type, ListsFound]⟩
      refine iff_of_true ⟨⟨by rw [hd]; rfl, ?_⟩, hnd⟩
        ⟨hcons.2 ⟨by simp [hrt, CppConstants], ?_, ?_⟩, hts, ?_, ?_, ?_⟩
      · split
        · rw [mapCode_ok hcv]
          exact ⟨by simp [IntLimit], absent k, absent v⟩
        · rfl
      · intro _ _ _ _ h'; rw [hrt] at h'; cases h'
      · intro _ _ _ _ _ _ h'; rw [hrt] at h'; cases h'
      · intro _ h'; rw [htyp] at h'; cases h'
      · intro _ _ _ _ h'; rw [hrt] at h'; cases h'
      · intro _ _ _ _ h'; rw [hrt] at h'; cases h'
    | _ => rw [hrt] at htop; simp [Suits] at htop

end PGV.Cpp
