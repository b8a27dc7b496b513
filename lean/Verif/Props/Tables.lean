import Verif.Go.Tables
import Verif.Props.Emit
import Verif.Props.CppCompile

/-!
C80: each check of generated code uses the list or pattern of its own rule.
-/

set_option linter.unusedSimpArgs false

namespace PGV.Props
open PGV PGV.Spec
open PGV.Go (Var Table checkedField checkedRules checkedMsg checkedOneof checkedInfo fieldTables listTables listTable regexTable
  foundLists foundRegex withType declIf Env validate)

theorem fieldTables_names (f : FieldDesc) : (fieldTables f).map (·.1) = Go.decls f := by
  have h1 : ∀ {α : Type} (k : List α → Table) (ins notIns : List α), (listTables k ins notIns).map (·.1) =
      declIf (!ins.isEmpty) .inLookup ++ declIf (!notIns.isEmpty) .notInLookup := by
    intro α k ins notIns
    cases ins <;> cases notIns <;> simp [listTables, listTable, declIf]
  have h2 : ∀ p : Option Bytes, (regexTable p).map (·.1) = declIf p.isSome .pattern := by
    intro p; cases p <;> simp [regexTable, declIf]
  unfold fieldTables Go.decls
  cases f.rules.type with
  | repeated r items =>
    simp only
    cases items.type <;> simp [h1, h2]
  | map r keys values =>
    simp only [List.map_append]
    congr 1
    · cases keys.type <;> simp [Go.sideRegex, h2]
    · cases values.type <;> simp [Go.sideRegex, h2]
  | string r => simp only [List.map_append, h1, h2, Go.tables]
  | bytes r => simp only [List.map_append, h1, h2, Go.tables]
  | _ => simp [h1, h2, Go.tables, declIf]

theorem withType_self (rules : FieldRules) : withType rules rules.type = rules := by
  cases rules <;> rfl

theorem lookup_tables {α : Type} (k : List α → Table) (ins notIns : List α) (rest : List (Var × Table)) :
    (ins ≠ [] → (listTables k ins notIns ++ rest).lookup .inLookup = some (k ins)) ∧
    (notIns ≠ [] → (listTables k ins notIns ++ rest).lookup .notInLookup = some (k notIns)) ∧
    (listTables k ins notIns ++ rest).lookup .pattern = rest.lookup .pattern := by
  cases ins <;> cases notIns <;> refine ⟨fun h => ?_, fun h => ?_, ?_⟩ <;> first | rfl | exact absurd rfl h

theorem lookup_regex {p : Option Bytes} (rest : List (Var × Table)) :
    (∀ q, p = some q → (regexTable p ++ rest).lookup .pattern = some (.regex q)) ∧
    (regexTable p ++ rest).lookup .inLookup = rest.lookup .inLookup ∧
    (regexTable p ++ rest).lookup .notInLookup = rest.lookup .notInLookup := by
  cases p with
  | none => exact ⟨fun q h => absurd h (by simp), rfl, rfl⟩
  | some p => exact ⟨fun q h => by obtain rfl := Option.some.inj h; rfl, rfl, rfl⟩

theorem foundLists_own {α : Type} {G : Var → Option Table} {as : Table → Option (List α)} {k : List α → Table}
    (hk : ∀ l, as (k l) = some l) {ins notIns : List α} (h1 : ins ≠ [] → G .inLookup = some (k ins))
    (h2 : notIns ≠ [] → G .notInLookup = some (k notIns)) : foundLists G as ins notIns = some (ins, notIns) := by
  unfold foundLists
  cases ins with
  | cons a l => simp [h1, hk]
  | nil =>
    cases notIns with
    | cons a l => simp [h2, hk]
    | nil => simp

theorem foundRegex_own {G : Var → Option Table} {p : Option Bytes} (h : ∀ q, p = some q → G .pattern = some (.regex q)) :
    foundRegex G p = some p := by
  cases p with
  | none => rfl
  | some q => simp [foundRegex, h q rfl, Table.asRegex]

theorem foundLists_none {α : Type} {G : Var → Option Table} {as : Table → Option (List α)} {ins notIns : List α}
    (h1 : G .inLookup = none) (h2 : G .notInLookup = none) :
    foundLists G as ins notIns = if ins = [] ∧ notIns = [] then some (ins, notIns) else none := by
  unfold foundLists
  cases ins <;> cases notIns <;> simp [h1, h2]

/-- The variables hold what the rules say. -/
def Own (G : Var → Option Table) (t : TypeRules) : Prop :=
  match t with
  | .num _ r => (r.ins ≠ [] → G .inLookup = some (.nums r.ins)) ∧ (r.notIns ≠ [] → G .notInLookup = some (.nums r.notIns))
  | .string r => (r.ins ≠ [] → G .inLookup = some (.texts r.ins)) ∧
    (r.notIns ≠ [] → G .notInLookup = some (.texts r.notIns)) ∧ ∀ q, r.pattern = some q → G .pattern = some (.regex q)
  | .bytes r => (r.ins ≠ [] → G .inLookup = some (.texts r.ins)) ∧
    (r.notIns ≠ [] → G .notInLookup = some (.texts r.notIns)) ∧ ∀ q, r.pattern = some q → G .pattern = some (.regex q)
  | .enum r => (r.ins ≠ [] → G .inLookup = some (.enums r.ins)) ∧
    (r.notIns ≠ [] → G .notInLookup = some (.enums r.notIns))
  | .any r => (r.ins ≠ [] → G .inLookup = some (.texts r.ins)) ∧
    (r.notIns ≠ [] → G .notInLookup = some (.texts r.notIns))
  | .duration r => (r.ins ≠ [] → G .inLookup = some (.durs r.ins)) ∧
    (r.notIns ≠ [] → G .notInLookup = some (.durs r.notIns))
  | _ => True

theorem checkedRules_own {G : Var → Option Table} {t : TypeRules} (h : Own G t) : checkedRules G t = some t := by
  cases t with
  | num k r => simp only [checkedRules, foundLists_own (k := .nums) (as := Table.asNums) (fun _ => rfl) h.1 h.2]; rfl
  | string r =>
    simp only [checkedRules, foundLists_own (k := .texts) (as := Table.asTexts) (fun _ => rfl) h.1 h.2.1,
      foundRegex_own h.2.2]; rfl
  | bytes r =>
    simp only [checkedRules, foundLists_own (k := .texts) (as := Table.asTexts) (fun _ => rfl) h.1 h.2.1,
      foundRegex_own h.2.2]; rfl
  | enum r => simp only [checkedRules, foundLists_own (k := .enums) (as := Table.asEnums) (fun _ => rfl) h.1 h.2]; rfl
  | any r => simp only [checkedRules, foundLists_own (k := .texts) (as := Table.asTexts) (fun _ => rfl) h.1 h.2]; rfl
  | duration r => simp only [checkedRules, foundLists_own (k := .durs) (as := Table.asDurs) (fun _ => rfl) h.1 h.2]; rfl
  | _ => rfl

theorem own_plain {G : Var → Option Table} {t : TypeRules} (h1 : ¬ HasList t) (h2 : ¬ HasPattern t) : Own G t := by
  cases t <;> simp_all [HasList, HasPattern, Own]

theorem own_pattern {G : Var → Option Table} {r : StringRules} {p : Bytes} (h1 : ¬ HasList (.string r))
    (h2 : r.pattern = some p) (hG : G .pattern = some (.regex p)) : Own G (.string r) := by
  simp_all [HasList, Own]

/-- Without tables, lists and patterns are not found. -/
theorem checkedRules_bare {G : Var → Option Table} {t : TypeRules} (h1 : G .inLookup = none) (h2 : G .notInLookup = none)
    (h3 : HasPattern t → G .pattern = none) (h : HasList t ∨ HasPattern t) : checkedRules G t = none := by
  have hl : ∀ {α : Type} (as : Table → Option (List α)) (ins notIns : List α), ins ≠ [] ∨ notIns ≠ [] →
      foundLists G as ins notIns = none := by
    intro α as ins notIns h
    rw [foundLists_none h1 h2, if_neg]
    rintro ⟨rfl, rfl⟩
    simp at h
  have hp : ∀ p : Option Bytes, p ≠ none → G .pattern = none → foundRegex G p = none := by
    intro p hp hG
    cases p with
    | none => exact absurd rfl hp
    | some p => simp [foundRegex, hG]
  cases t with
  | string r =>
    rcases h with h | h
    · simp only [checkedRules, hl Table.asTexts _ _ h]; rfl
    · simp only [checkedRules, hp _ h (h3 h)]
      cases foundLists G Table.asTexts r.ins r.notIns <;> rfl
  | bytes r =>
    rcases h with h | h
    · simp only [checkedRules, hl Table.asTexts _ _ h]; rfl
    · simp only [checkedRules, hp _ h (h3 h)]
      cases foundLists G Table.asTexts r.ins r.notIns <;> rfl
  | num k r => exact h.elim (fun h => by simp only [checkedRules, hl Table.asNums _ _ h]; rfl) False.elim
  | enum r => exact h.elim (fun h => by simp only [checkedRules, hl Table.asEnums _ _ h]; rfl) False.elim
  | any r => exact h.elim (fun h => by simp only [checkedRules, hl Table.asTexts _ _ h]; rfl) False.elim
  | duration r => exact h.elim (fun h => by simp only [checkedRules, hl Table.asDurs _ _ h]; rfl) False.elim
  | _ => rcases h with h | h <;> cases h

theorem checkedRules_list {G : Var → Option Table} {t : TypeRules} (h1 : G .inLookup = none) (h2 : G .notInLookup = none)
    (h : HasList t) : checkedRules G t = none := by
  have hl : ∀ {α : Type} (as : Table → Option (List α)) (ins notIns : List α), ins ≠ [] ∨ notIns ≠ [] →
      foundLists G as ins notIns = none := by
    intro α as ins notIns h
    rw [foundLists_none h1 h2, if_neg]
    rintro ⟨rfl, rfl⟩
    simp at h
  cases t with
  | string r => simp only [checkedRules, hl Table.asTexts _ _ h]; rfl
  | bytes r => simp only [checkedRules, hl Table.asTexts _ _ h]; rfl
  | num k r => simp only [checkedRules, hl Table.asNums _ _ h]; rfl
  | enum r => simp only [checkedRules, hl Table.asEnums _ _ h]; rfl
  | any r => simp only [checkedRules, hl Table.asTexts _ _ h]; rfl
  | duration r => simp only [checkedRules, hl Table.asDurs _ _ h]; rfl
  | _ => exact h.elim

/-! ### Fields -/

theorem lookup_append_nil (l : List (Var × Table)) (v : Var) : (l ++ []).lookup v = l.lookup v := by
  rw [List.append_nil]

/-- **C80** Where lists and patterns are where the templates make tables for them, the code of a field finds all the names
it uses, declared once, and under each name the list or pattern of the very rule it checks. -/
theorem C80_own_partial (f : FieldDesc) (h : TablesSupported f) : checkedField f = some f := by
  unfold checkedField
  rw [if_pos (by rw [fieldTables_names]; exact decls_nodup f h)]
  have hself : ∀ t, t = f.rules.type → ({ f with rules := withType f.rules t } : FieldDesc) = f := by
    rintro t rfl; rw [withType_self]
  have htop : Own (fun v => (fieldTables f).lookup v) f.rules.type := by
    unfold fieldTables
    cases f.rules.type with
    | num k r => exact ⟨by simpa using (lookup_tables .nums r.ins r.notIns []).1,
        by simpa using (lookup_tables .nums r.ins r.notIns []).2.1⟩
    | enum r => exact ⟨by simpa using (lookup_tables .enums r.ins r.notIns []).1,
        by simpa using (lookup_tables .enums r.ins r.notIns []).2.1⟩
    | any r => exact ⟨by simpa using (lookup_tables .texts r.ins r.notIns []).1,
        by simpa using (lookup_tables .texts r.ins r.notIns []).2.1⟩
    | duration r => exact ⟨by simpa using (lookup_tables .durs r.ins r.notIns []).1,
        by simpa using (lookup_tables .durs r.ins r.notIns []).2.1⟩
    | string r =>
      have hl := lookup_tables .texts r.ins r.notIns (regexTable r.pattern)
      refine ⟨hl.1, hl.2.1, fun q hq => ?_⟩
      have := (lookup_regex (p := r.pattern) []).1 q hq
      rw [List.append_nil] at this
      exact hl.2.2.trans this
    | bytes r =>
      have hl := lookup_tables .texts r.ins r.notIns (regexTable r.pattern)
      refine ⟨hl.1, hl.2.1, fun q hq => ?_⟩
      have := (lookup_regex (p := r.pattern) []).1 q hq
      rw [List.append_nil] at this
      exact hl.2.2.trans this
    | _ => trivial
  cases htyp : f.typ with
  | one e =>
    simp only [checkedRules_own htop, Option.map_some]
    exact congrArg some ((by rw [← htyp]) : _ = ({ f with rules := withType f.rules f.rules.type } : FieldDesc)) |>.trans
      (congrArg some (hself _ rfl))
  | rep e =>
    cases hr : f.rules.type with
    | repeated r items =>
      have hi : Own (fun v => (fieldTables f).lookup v) items.type := by
        unfold TablesSupported at h
        unfold fieldTables
        simp only [hr] at h ⊢
        cases hit : items.type with
        | string s =>
          have hl := lookup_tables .texts s.ins s.notIns []
          have hx := lookup_regex (p := s.pattern) (listTables .texts s.ins s.notIns)
          simp only [List.append_nil] at hl
          exact ⟨fun h => hx.2.1.trans (hl.1 h), fun h => hx.2.2.trans (hl.2.1 h), hx.1⟩
        | enum s => exact ⟨by simpa using (lookup_tables .enums s.ins s.notIns []).1,
            by simpa using (lookup_tables .enums s.ins s.notIns []).2.1⟩
        | _ =>
          rw [hit] at h
          refine own_plain (fun hl => ?_) (fun hp => ?_)
          · simpa [IsString, IsEnum] using h (.inl hl)
          · simpa [IsString, IsEnum] using h (.inr hp)
      simp only [checkedRules_own hi, Option.map_some, withType_self]
      rw [← hr, ← htyp]
      exact congrArg some (hself _ rfl)
    | _ => simp only [← htyp]
  | map k v =>
    cases hr : f.rules.type with
    | map r keys values =>
      have hkv : Own (fun v => (fieldTables f).lookup v) keys.type ∧ Own (fun v => (fieldTables f).lookup v) values.type := by
        unfold TablesSupported at h
        unfold fieldTables
        simp only [hr] at h ⊢
        obtain ⟨hlk, hlv, hpk, hpv⟩ := h
        by_cases hp : HasPattern keys.type
        · obtain ⟨hs, hnv⟩ := hpk hp
          refine ⟨?_, own_plain hlv hnv⟩
          cases hkt : keys.type with
          | string s =>
            rw [hkt] at hp hlk
            cases hsp : s.pattern with
            | none => exact absurd hsp hp
            | some p => exact own_pattern hlk hsp (by simp only [Go.sideRegex, hsp]; rfl)
          | _ => rw [hkt] at hs; exact hs.elim
        · refine ⟨own_plain hlk hp, ?_⟩
          by_cases hp' : HasPattern values.type
          · have hs := hpv hp'
            have hnil : Go.sideRegex keys.type = [] := by
              cases hkt : keys.type with
              | string s =>
                rw [hkt] at hp
                cases hsp : s.pattern with
                | none => simp only [Go.sideRegex, hsp]; rfl
                | some p => exact absurd (by simp [HasPattern, hsp]) hp
              | _ => rfl
            cases hvt : values.type with
            | string s =>
              rw [hvt] at hp' hlv
              cases hsp : s.pattern with
              | none => exact absurd hsp hp'
              | some p =>
                refine own_pattern hlv hsp ?_
                rw [hnil]
                simp only [Go.sideRegex, hsp]
                rfl
            | _ => rw [hvt] at hs; exact hs.elim
          · exact own_plain hlv hp'
      simp only [checkedRules_own hkv.1, checkedRules_own hkv.2, Option.bind_some, Option.map_some, withType_self]
      rw [← hr, ← htyp]
      exact congrArg some (hself _ rfl)
    | _ => simp only [← htyp]

/-- The field's map has a pattern `p` for its keys, which are strings, and a pattern `q` for its values, which are
bytes, and no lists. -/
def SharedPattern (f : FieldDesc) (p q : Bytes) : Prop :=
  ∃ r keys values kr vr, f.rules.type = .map r keys values ∧ keys.type = .string kr ∧ values.type = .bytes vr ∧
    kr.pattern = some p ∧ vr.pattern = some q ∧ ¬ HasList keys.type ∧ ¬ HasList values.type

/-- The field with `p` as the pattern of its map's values. -/
def withValuesPattern (f : FieldDesc) (p : Bytes) : FieldDesc :=
  match f.rules with
  | .mk m (.map r keys (.mk n (.bytes vr))) =>
    { f with rules := .mk m (.map r keys (.mk n (.bytes { vr with pattern := some p }))) }
  | _ => f

/-- **C80** Where the keys of a map have the pattern `p` and its `bytes` values the pattern `q`, the code compiles and
checks the values against `p`. -/
theorem C80_shared (f : FieldDesc) (p q : Bytes) (hm : ∃ k v, f.typ = .map k v) (h : SharedPattern f p q) :
    checkedField f = some (withValuesPattern f p) := by
  obtain ⟨k, v, htyp⟩ := hm
  obtain ⟨r, keys, values, kr, vr, hr, hk, hv, hp, hq, hlk, hlv⟩ := h
  have hG : fieldTables f = [(.pattern, .regex p)] := by
    unfold fieldTables
    simp only [hr, hk, hv, Go.sideRegex, hp]
    rfl
  unfold checkedField
  rw [hG, if_pos (by simp), htyp, hr]
  simp only [hk, hv]
  rw [hk] at hlk
  rw [checkedRules_own (own_pattern hlk hp (by rfl))]
  simp only [hv, HasList, not_or, Classical.not_not] at hlv
  have : checkedRules (fun v => [(Var.pattern, Table.regex p)].lookup v) (.bytes vr) =
      some (.bytes { vr with pattern := some p }) := by
    simp only [checkedRules, foundLists, foundRegex, hlv.1, hlv.2, hq]
    rcases vr with ⟨⟩
    simp_all [List.lookup, Table.asRegex]
  rw [this]
  simp only [Option.bind_some, Option.map_some]
  rw [← hk, withType_self]
  cases hf : f.rules with
  | absent => rw [hf] at hr; cases hr
  | mk m t =>
    cases hval : values with
    | absent => rw [hval] at hv; cases hv
    | mk n t' =>
      rw [hf] at hr
      rw [hval] at hv hr
      simp only [FieldRules.type] at hr hv
      subst hr; subst hv
      simp only [withValuesPattern, hf, withType, htyp]

/-- **C80** All other fields are not compiled: a name is missing or there twice. -/
theorem C80_otherwise (f : FieldDesc) (hs : ∀ t r, RuleAt f t r → Suits t r.type)
    (hkey : ∀ k v, f.typ = .map k v → k.isEmbed = false ∧ k ≠ .bytes)
    (h : ¬ TablesSupported f) (h' : ∀ p q, ¬ SharedPattern f p q) : checkedField f = none := by
  have htop := hs _ _ .top
  cases hr : f.rules.type with
  | repeated r items =>
    rw [hr] at htop
    obtain ⟨e, he⟩ := htop
    have hG : fieldTables f = [] ∧ (HasList items.type ∨ HasPattern items.type) := by
      unfold TablesSupported at h
      unfold fieldTables
      simp only [hr] at h ⊢
      refine ⟨?_, Classical.byContradiction fun hn => h fun hx => absurd hx hn⟩
      cases hi : items.type with
      | string s => exact absurd (fun _ => .inl (by rw [hi]; trivial)) h
      | enum s => exact absurd (fun _ => .inr (by rw [hi]; trivial)) h
      | _ => rfl
    unfold checkedField
    rw [hG.1, if_pos (by simp), he, hr]
    simp only
    rw [checkedRules_bare rfl rfl (fun _ => rfl) hG.2]
    rfl
  | map r keys values =>
    rw [hr] at htop
    obtain ⟨k, v, he⟩ := htop
    obtain ⟨m, hm⟩ := Java.forall_ruleAt.rules_mk hr (by simp)
    have hat : RuleAt f (.map k v) (.mk m (.map r keys values)) := by rw [← he, ← hm]; exact .top
    have hks := hs _ _ (.key hat)
    have hnb : ∀ b, keys.type ≠ .bytes b := by
      intro b hb
      rw [hb] at hks
      have := hkey k v he
      rcases hks with h1 | ⟨n, h1⟩
      · exact this.2 (by injection h1)
      · injection h1 with h1; rw [h1] at this; simp [ElemT.isEmbed] at this
    unfold checkedField
    split
    · rename_i hnd
      rw [he, hr]
      simp only
      have hG : fieldTables f = Go.sideRegex keys.type ++ Go.sideRegex values.type := by
        unfold fieldTables; simp only [hr]
      have hside : ∀ t : TypeRules, Go.sideRegex t = [] ∨ ∃ p, Go.sideRegex t = [(.pattern, .regex p)] ∧ HasPattern t ∧
          ∃ s, t = .string s ∧ s.pattern = some p := by
        intro t
        cases t with
        | string s =>
          cases hp : s.pattern with
          | none => left; simp [Go.sideRegex, regexTable, hp]
          | some p => right; exact ⟨p, by simp [Go.sideRegex, regexTable, hp], by simp [HasPattern, hp], s, rfl, hp⟩
        | _ => exact .inl rfl
      have hnone : ∀ v, v ≠ .pattern → (fieldTables f).lookup v = none := by
        intro v hv
        rw [hG]
        rcases hside keys.type with h1 | ⟨p, h1, -⟩ <;> rcases hside values.type with h2 | ⟨q, h2, -⟩ <;>
          rw [h1, h2] <;> cases v <;> first | rfl | exact absurd rfl hv
      by_cases hlk : HasList keys.type
      · rw [checkedRules_list (hnone _ (by simp)) (hnone _ (by simp)) hlk]; rfl
      by_cases hlv : HasList values.type
      · rw [checkedRules_list (t := values.type) (hnone _ (by simp)) (hnone _ (by simp)) hlv]
        cases checkedRules (fun v => (fieldTables f).lookup v) keys.type <;> rfl
      have hsk : HasPattern keys.type → IsString keys.type := by
        intro hp
        cases hk : keys.type with
        | bytes b => exact absurd hk (hnb b)
        | string s => trivial
        | _ => rw [hk] at hp; exact hp
      have hcase : ¬ ((HasPattern keys.type → ¬ HasPattern values.type) ∧ (HasPattern values.type → IsString values.type)) := by
        intro hc
        refine h ?_
        unfold TablesSupported
        rw [hr]
        exact ⟨hlk, hlv, fun hp => ⟨hsk hp, hc.1 hp⟩, hc.2⟩
      by_cases hpk : HasPattern keys.type
      · exfalso
        have hpv : HasPattern values.type := by
          refine Classical.byContradiction fun hn => hcase ⟨fun _ => hn, fun hp => absurd hp hn⟩
        cases hk : keys.type with
        | string s =>
          rw [hk] at hpk
          cases hsp : s.pattern with
          | none => exact hpk hsp
          | some p =>
            cases hv : values.type with
            | string s' =>
              rw [hv] at hpv
              cases hsp' : s'.pattern with
              | none => exact hpv hsp'
              | some q =>
                rw [hG, hk, hv] at hnd
                simp [Go.sideRegex, regexTable, hsp, hsp'] at hnd
            | bytes b =>
              rw [hv] at hpv
              cases hbp : b.pattern with
              | none => exact hpv hbp
              | some q =>
                exact h' p q ⟨r, keys, values, s, b, hr, hk, hv, hsp, hbp, hlk, hlv⟩
            | _ => rw [hv] at hpv; exact hpv
        | _ => have := hsk hpk; rw [hk] at this; exact this
      · have hpv : HasPattern values.type ∧ ¬ IsString values.type := by
          refine ⟨Classical.byContradiction fun hn => hcase ⟨fun hp => absurd hp hpk, fun hp => absurd hp hn⟩, fun hn => ?_⟩
          exact hcase ⟨fun hp => absurd hp hpk, fun _ => hn⟩
        have hnp : (fieldTables f).lookup .pattern = none := by
          rw [hG]
          rcases hside keys.type with h1 | ⟨p, -, h1, -⟩
          · rcases hside values.type with h2 | ⟨q, -, -, s, h2, -⟩
            · rw [h1, h2]; rfl
            · exact absurd (by rw [h2]; trivial) hpv.2
          · exact absurd h1 hpk
        rw [checkedRules_bare (t := values.type) (hnone _ (by simp)) (hnone _ (by simp)) (fun _ => hnp) (.inr hpv.1)]
        cases checkedRules (fun v => (fieldTables f).lookup v) keys.type <;> rfl
    · rfl
  | _ => exact absurd (by unfold TablesSupported; rw [hr]; trivial) h

theorem shared_pattern_eq {f : FieldDesc} {p q : Bytes} (h : SharedPattern f p q) :
    withValuesPattern f p = f ↔ p = q := by
  obtain ⟨r, keys, values, kr, vr, hr, hk, hv, hp, hq, hlk, hlv⟩ := h
  rcases f with ⟨name, typ, rules⟩
  cases rules with
  | absent => cases hr
  | mk m t =>
    cases values with
    | absent => cases hv
    | mk n t' =>
      simp only [FieldRules.type] at hr hv
      subst hr; subst hv
      rcases vr with ⟨⟩
      simp_all [withValuesPattern]

/-- **C80** The code of a field checks the rules of the field exactly if their lists and patterns are where the templates
make tables for them, or the two patterns that get one regular expression are the same. -/
theorem C80_iff (f : FieldDesc) (hs : ∀ t r, RuleAt f t r → Suits t r.type)
    (hkey : ∀ k v, f.typ = .map k v → k.isEmbed = false ∧ k ≠ .bytes) :
    checkedField f = some f ↔ TablesSupported f ∨ ∃ p, SharedPattern f p p := by
  by_cases h : TablesSupported f
  · exact iff_of_true (C80_own_partial f h) (.inl h)
  by_cases h' : ∃ p q, SharedPattern f p q
  · obtain ⟨p, q, h'⟩ := h'
    have htop := hs _ _ .top
    have hm : ∃ k v, f.typ = .map k v := by
      obtain ⟨r, keys, values, kr, vr, hr, -⟩ := h'
      rw [hr] at htop
      exact htop
    rw [C80_shared f p q hm h', Option.some.injEq, shared_pattern_eq h']
    constructor
    · rintro rfl; exact .inr ⟨p, h'⟩
    · rintro (h1 | ⟨p', h1⟩)
      · exact absurd h1 h
      · obtain ⟨r, keys, values, kr, vr, hr, hk, hv, hp, hq, -⟩ := h'
        obtain ⟨r', keys', values', kr', vr', hr', hk', hv', hp', hq', -⟩ := h1
        rw [hr] at hr'
        injection hr' with _ e1 e2
        subst e1; subst e2
        rw [hk] at hk'; rw [hv] at hv'
        injection hk' with e1
        injection hv' with e2
        subst e1; subst e2
        rw [hp] at hp'; rw [hq] at hq'
        injection hp' with e1
        injection hq' with e2
        rw [e1, e2]
  · rw [C80_otherwise f hs hkey h fun p q hp => h' ⟨p, q, hp⟩]
    refine iff_of_false (by simp) ?_
    rintro (h1 | ⟨p, h1⟩)
    · exact h h1
    · exact h' ⟨p, p, h1⟩

/-- A list of bytes that must be of a list. -/
def bytesItems : FieldDesc :=
  { name := "X", typ := .rep .bytes, rules := .mk none (.repeated {} (.mk none (.bytes { ins := [asc "a"] }))) }

example : ¬ TablesSupported bytesItems ∧ checkedField bytesItems = none := by
  have h : ¬ TablesSupported bytesItems := by
    simp [TablesSupported, bytesItems, FieldRules.type, HasList, IsString, IsEnum]
  refine ⟨h, C80_otherwise _ (fun t r hr => ?_) (by intro k v h; cases h) h ?_⟩
  · cases hr with
    | top => exact ⟨_, rfl⟩
    | item h => cases h; exact .inl rfl
    | key h => cases h
    | value h => cases h
  · rintro p q ⟨_, _, _, _, _, h, -⟩; cases h

/-- A map with patterned keys. -/
def patternedKeys : FieldDesc :=
  { name := "X", typ := .map .string .bytes,
    rules := .mk none (.map {} (.mk none (.string { pattern := some (asc "^a+$") })) .absent) }

example : TablesSupported patternedKeys ∧ (fieldTables patternedKeys) = [(.pattern, .regex (asc "^a+$"))] ∧
    checkedField patternedKeys = some patternedKeys := by
  have h : TablesSupported patternedKeys := by
    simp [TablesSupported, patternedKeys, FieldRules.type, HasList, HasPattern, IsString]
  exact ⟨h, rfl, C80_own_partial _ h⟩

/-! ### Messages -/

theorem mapM_self {α : Type} {g : α → Option α} {l : List α} (h : ∀ a ∈ l, g a = some a) : l.mapM g = some l := by
  induction l with
  | nil => rfl
  | cons a l ih =>
    rw [List.mapM_cons, h a (by simp), ih fun b hb => h b (by simp [hb])]
    rfl

theorem checkedInfo_self {i : TypeInfo} (h : ∀ d, i = .generated d → ∀ f, FieldOf d f → TablesSupported f) :
    checkedInfo i = some i := by
  cases i with
  | generated d =>
    have h := h d rfl
    have hd : checkedMsg d = some d := by
      unfold checkedMsg
      split
      · rfl
      split
      · rw [if_pos]
        refine List.all_eq_true.2 fun f hf => decide_eq_true ?_
        rw [fieldTables_names]
        exact decls_nodup f (h f (mem_allFields.1 hf))
      · rw [mapM_self fun f hf => C80_own_partial f (h f (.inl hf)), mapM_self (l := d.oneofs)]
        · rfl
        · intro o ho
          unfold checkedOneof
          rw [mapM_self fun f hf => C80_own_partial f (h f (.inr ⟨o, ho, hf⟩))]
          rfl
    simp only [checkedInfo, hd, Option.map_some]
  | _ => rfl

/-- `S'` is what the generated code of the message types `S` checks. -/
def Linked (S S' : Schema) : Prop := ∀ t, checkedInfo (S t) = some (S' t)

/-- All lists and patterns are where the templates make tables for them. -/
def SchemaSupported (S : Schema) : Prop := ∀ t d, S t = .generated d → ∀ f, FieldOf d f → TablesSupported f

/-- **C80** A program all of whose lists and patterns have their tables accepts exactly the messages that satisfy their
rules, with its tables looked up by name. -/
theorem C80_verdict_partial (E : Env) (S S' : Schema) (hS : SchemaSupported S) (hl : Linked S S') (v : Val) :
    validate E S' false v = none ↔ MessageOk E S (fun w => validate E S' false w = none) v := by
  have : S' = S := funext fun t => Option.some.inj ((hl t).symm.trans (checkedInfo_self (hS t)))
  subst this
  exact Go.validate_spec E S' v

/-- Regular expressions of which `^a+$` takes words of `a`, and any other words of `b`. -/
def lettersEnv : Env :=
  { Fixtures.env with matchRe := fun p s => if p = asc "^a+$" then s.all (· == 0x61) else s.all (· == 0x62) }

/-- A message with a map from the key `a` to one byte. -/
def lettersMsg (c : UInt8) : Val := .msg "M" [("X", .map [(.str [0x61], .sc (.bytes [c]))])] []

/-- **C80** (the full statement does not hold) The schema of `C79_shared_pattern` passes the checks of the generator and
its code compiles. The code takes a map with the value `a`, which does not match the values' pattern `^b+$`, and does not
take one with the value `b`, which does. -/
theorem C80_wrong_pattern :
    ∃ S', Linked (Fixtures.only twoKindsOfPatterns) S' ∧
      (validate lettersEnv S' false (lettersMsg 0x61) = none ∧
        ¬ MessageOk lettersEnv (Fixtures.only twoKindsOfPatterns) (fun _ => True) (lettersMsg 0x61)) ∧
      validate lettersEnv S' false (lettersMsg 0x62) ≠ none ∧
        MessageOk lettersEnv (Fixtures.only twoKindsOfPatterns) (fun _ => True) (lettersMsg 0x62) := by
  have hok : ∀ c, MessageOk lettersEnv (Fixtures.only twoKindsOfPatterns) (fun _ => True) (lettersMsg c) ↔
      validate lettersEnv (Fixtures.only twoKindsOfPatterns) false (lettersMsg c) = none := by
    intro c
    rw [Go.validate_spec]
    simp [MessageOk, lettersMsg, Fixtures.only, FieldOk, ValueOk, MapOk, getField, twoKindsOfPatterns, FieldRules.type]
  rw [hok, hok]
  refine ⟨Fixtures.only (withValuesPattern twoKindsOfPatterns (asc "^a+$")), ?_, ?_⟩
  · intro t
    have : checkedField twoKindsOfPatterns = some (withValuesPattern twoKindsOfPatterns (asc "^a+$")) :=
      C80_shared _ _ (asc "^b+$") ⟨_, _, rfl⟩
        ⟨_, _, _, _, _, rfl, rfl, rfl, rfl, rfl, by simp [HasList, FieldRules.type], by simp [HasList, FieldRules.type]⟩
    simp [Fixtures.only, checkedInfo, checkedMsg, this]
  · decide +kernel

example : SchemaSupported (Fixtures.only headerField) ∧ Linked (Fixtures.only headerField) (Fixtures.only headerField) := by
  have h : SchemaSupported (Fixtures.only headerField) := by
    intro t d hd f hf
    cases hd
    rcases hf with hf | ⟨o, ho, -⟩
    · simp at hf; subst hf; simp [TablesSupported, headerField, FieldRules.type]
    · simp at ho
  exact ⟨h, fun t => checkedInfo_self (h t)⟩

end PGV.Props
