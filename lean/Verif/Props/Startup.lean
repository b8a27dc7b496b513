import Verif.Props.Tables
import Verif.Props.Checker

/-!
C81: a program with generated Go code in it starts.
-/

set_option linter.unusedSimpArgs false

namespace PGV.Props
open PGV PGV.Spec PGV.Checker
open PGV.Go (Var Table fieldTables listTables regexTable msgRegexes startPanics)

/-- The pattern of the rules, if they have one. -/
def patternOf : TypeRules → Option Bytes
  | .string r => r.pattern
  | .bytes r => r.pattern
  | _ => none

theorem checkPattern_iff {compiles : Bytes → Bool} {p : Option Bytes} {n : Nat} :
    checkPattern compiles p n = true ↔ ∀ q, p = some q → n = 0 ∧ compiles q = true := by
  cases p <;> simp [checkPattern]

theorem checkString_pattern {compiles : Bytes → Bool} {r r' : StringRules} (h : checkString compiles r = some r') :
    ∀ p, r'.pattern = some p → r'.ins = [] ∧ compiles p = true := by
  unfold checkString at h
  split at h
  · cases hw : checkWellKnownRegex r with
    | none => simp [hw] at h
    | some r1 =>
      simp only [hw] at h
      rw [Option.ite_none_right_eq_some] at h
      obtain ⟨hc, h⟩ := h
      cases h
      simp only [Bool.and_eq_true] at hc
      intro p hp
      have := checkPattern_iff.1 hc.1.1 p hp
      exact ⟨List.eq_nil_of_length_eq_zero this.1, this.2⟩
  · cases h

theorem checkTypeRules_pattern {compiles : Bytes → Bool} {y : Ty} {t t' : TypeRules}
    (h : checkTypeRules compiles y t = some t') : ∀ p, patternOf t' = some p → compiles p = true := by
  intro p hp
  cases t with
  | string r =>
    simp only [checkTypeRules] at h
    split at h
    · obtain ⟨r', h1, rfl⟩ := Option.map_eq_some_iff.1 h
      exact (checkString_pattern h1 p hp).2
    · cases h
  | bytes r =>
    simp only [checkTypeRules] at h
    split at h
    · rename_i hc
      cases h
      simp only [Bool.and_eq_true, checkBytes] at hc
      exact (checkPattern_iff.1 hc.2.1.2 p hp).2
    · cases h
  | repeated r items =>
    simp only [checkTypeRules] at h
    split at h
    · split at h
      · obtain ⟨x, -, rfl⟩ := Option.map_eq_some_iff.1 h; cases hp
      · cases h
    · cases h
  | map r keys values =>
    simp only [checkTypeRules] at h
    split at h
    · split at h
      · split at h
        · cases h
        · obtain ⟨x, -, rfl⟩ := Option.map_eq_some_iff.1 h; cases hp
      · cases h
    · cases h
  | unset => simp only [checkTypeRules] at h; cases h; cases hp
  | _ =>
    simp only [checkTypeRules] at h
    split at h
    · cases h; cases hp
    · cases h

theorem checkFieldRules_pattern {compiles : Bytes → Bool} {y : Ty} {r r' : FieldRules}
    (h : checkFieldRules compiles y r = some r') : ∀ p, patternOf r'.type = some p → compiles p = true := by
  cases r with
  | absent => rw [checkFieldRules] at h; cases h; intro p hp; cases hp
  | mk m t =>
    rw [checkFieldRules] at h
    obtain ⟨t', h1, rfl⟩ := Option.map_eq_some_iff.1 h
    exact checkTypeRules_pattern h1

theorem regex_of_listTables {α : Type} {k : List α → Table} (hk : ∀ l, (k l).asRegex = none) (ins notIns : List α) :
    (listTables k ins notIns).filterMap (fun v => v.2.asRegex) = [] := by
  cases ins <;> cases notIns <;> simp [listTables, Go.listTable, hk]

theorem regex_of_regexTable {p : Option Bytes} : (regexTable p).filterMap (fun v => v.2.asRegex) = p.toList := by
  cases p <;> simp [regexTable, Table.asRegex]

/-- The patterns of a field's code: its own, and those of string items, keys and values. -/
theorem fieldTables_regex {f : FieldDesc} {p : Bytes} (h : p ∈ (fieldTables f).filterMap fun v => v.2.asRegex) :
    patternOf f.rules.type = some p ∨
    (∃ r items, f.rules.type = .repeated r items ∧ patternOf items.type = some p) ∨
    ∃ r keys values, f.rules.type = .map r keys values ∧
      (patternOf keys.type = some p ∨ patternOf values.type = some p) := by
  have hside : ∀ t, p ∈ (Go.sideRegex t).filterMap (fun v => v.2.asRegex) → patternOf t = some p := by
    intro t ht
    cases t with
    | string r => simpa [Go.sideRegex, regex_of_regexTable, patternOf] using ht
    | _ => simp [Go.sideRegex] at ht
  unfold fieldTables at h
  cases hr : f.rules.type with
  | string r =>
    rw [hr] at h
    simp only [List.filterMap_append, regex_of_listTables (k := .texts) (fun _ => rfl), List.nil_append,
      regex_of_regexTable] at h
    exact .inl (by simpa [patternOf] using h)
  | bytes r =>
    rw [hr] at h
    simp only [List.filterMap_append, regex_of_listTables (k := .texts) (fun _ => rfl), List.nil_append,
      regex_of_regexTable] at h
    exact .inl (by simpa [patternOf] using h)
  | repeated r items =>
    rw [hr] at h
    simp only at h
    refine .inr (.inl ⟨r, items, rfl, ?_⟩)
    cases hi : items.type with
    | string s =>
      rw [hi] at h
      simp only [List.filterMap_append, regex_of_listTables (k := .texts) (fun _ => rfl), List.append_nil,
        regex_of_regexTable] at h
      simpa [patternOf] using h
    | enum s =>
      rw [hi] at h
      simp only [regex_of_listTables (k := .enums) (fun _ => rfl)] at h
      cases h
    | _ => rw [hi] at h; cases h
  | map r keys values =>
    rw [hr] at h
    simp only [List.filterMap_append, List.mem_append] at h
    exact .inr (.inr ⟨r, keys, values, rfl, h.imp (hside _) (hside _)⟩)
  | num k r => rw [hr] at h; simp only [regex_of_listTables (k := .nums) (fun _ => rfl)] at h; cases h
  | enum r => rw [hr] at h; simp only [regex_of_listTables (k := .enums) (fun _ => rfl)] at h; cases h
  | any r => rw [hr] at h; simp only [regex_of_listTables (k := .texts) (fun _ => rfl)] at h; cases h
  | duration r => rw [hr] at h; simp only [regex_of_listTables (k := .durs) (fun _ => rfl)] at h; cases h
  | _ => rw [hr] at h; cases h

theorem checkField_regex {compiles : Bytes → Bool} {f f' : FieldDesc} (h : checkField compiles f = some f') {p : Bytes}
    (hp : p ∈ (fieldTables f').filterMap fun v => v.2.asRegex) : compiles p = true := by
  unfold checkField at h
  split at h
  · cases h
  obtain ⟨rules, h1, rfl⟩ := Option.map_eq_some_iff.1 h
  rcases fieldTables_regex hp with h2 | ⟨r, items, h2, h3⟩ | ⟨r, keys, values, h2, h3⟩
  · exact checkFieldRules_pattern h1 p h2
  · cases hr : f.rules with
    | absent => rw [hr, checkFieldRules] at h1; cases h1; cases h2
    | mk m t =>
      rw [hr, checkFieldRules] at h1
      obtain ⟨t', h4, rfl⟩ := Option.map_eq_some_iff.1 h1
      simp only [FieldRules.type] at h2
      subst h2
      cases t with
      | repeated r' items' =>
        simp only [checkTypeRules] at h4
        split at h4
        · split at h4
          · obtain ⟨x, h5, h6⟩ := Option.map_eq_some_iff.1 h4
            injection h6 with _ h6
            subst h6
            exact checkFieldRules_pattern h5 p h3
          · cases h4
        · cases h4
      | map r' keys' values' =>
        simp only [checkTypeRules] at h4
        split at h4
        · split at h4
          · split at h4
            · cases h4
            · obtain ⟨x, h5, h6⟩ := Option.map_eq_some_iff.1 h4; cases h6
          · cases h4
        · cases h4
      | string s =>
        simp only [checkTypeRules] at h4
        split at h4
        · obtain ⟨x, h5, h6⟩ := Option.map_eq_some_iff.1 h4; cases h6
        · cases h4
      | unset => simp [checkTypeRules] at h4
      | _ => simp only [checkTypeRules] at h4; split at h4 <;> cases h4
  · cases hr : f.rules with
    | absent => rw [hr, checkFieldRules] at h1; cases h1; cases h2
    | mk m t =>
      rw [hr, checkFieldRules] at h1
      obtain ⟨t', h4, rfl⟩ := Option.map_eq_some_iff.1 h1
      simp only [FieldRules.type] at h2
      subst h2
      cases t with
      | map r' keys' values' =>
        simp only [checkTypeRules] at h4
        split at h4
        · split at h4
          · split at h4
            · cases h4
            · rename_i hk
              obtain ⟨x, h5, h6⟩ := Option.map_eq_some_iff.1 h4
              injection h6 with _ h6 h7
              subst h6; subst h7
              exact h3.elim (checkFieldRules_pattern hk p) (checkFieldRules_pattern h5 p)
          · cases h4
        · cases h4
      | repeated r' items' =>
        simp only [checkTypeRules] at h4
        split at h4
        · split at h4
          · obtain ⟨x, h5, h6⟩ := Option.map_eq_some_iff.1 h4; cases h6
          · cases h4
        · cases h4
      | string s =>
        simp only [checkTypeRules] at h4
        split at h4
        · obtain ⟨x, h5, h6⟩ := Option.map_eq_some_iff.1 h4; cases h6
        · cases h4
      | unset => simp [checkTypeRules] at h4
      | _ => simp only [checkTypeRules] at h4; split at h4 <;> cases h4

theorem checkFields_origin {compiles : Bytes → Bool} {l l' : List FieldDesc} (h : checkFields compiles l = some l') :
    ∀ f' ∈ l', ∃ f ∈ l, checkField compiles f = some f' := by
  induction l generalizing l' with
  | nil => cases h; simp
  | cons f l ih =>
    simp only [checkFields] at h
    split at h
    · rename_i g gs h1 h2
      cases h
      intro f' hf'
      rcases List.mem_cons.1 hf' with rfl | hf'
      · exact ⟨f, by simp, h1⟩
      · obtain ⟨a, ha, h3⟩ := ih h2 f' hf'
        exact ⟨a, by simp [ha], h3⟩
    · cases h

theorem checkOneofs_origin {compiles : Bytes → Bool} {l l' : List OneofDesc} (h : checkOneofs compiles l = some l') :
    ∀ o' ∈ l', ∀ f' ∈ o'.fields, ∃ f, checkField compiles f = some f' := by
  induction l generalizing l' with
  | nil => cases h; simp
  | cons o l ih =>
    simp only [checkOneofs] at h
    split at h
    · rename_i g gs h1 h2
      cases h
      intro o' ho' f' hf'
      rcases List.mem_cons.1 ho' with rfl | ho'
      · obtain ⟨a, -, h3⟩ := checkFields_origin h1 f' hf'
        exact ⟨a, h3⟩
      · exact ih h2 o' ho' f' hf'
    · cases h

/-- `F'` is the file with the patterns that the checks of the generator have written into it. -/
def CheckedFile (compiles : Bytes → Bool) (F F' : Go.FileDesc) : Prop :=
  F.top.map (checkMsg compiles) = F'.top.map some ∧ F.nested.map (checkMsg compiles) = F'.nested.map some

theorem checkedFile_mem {compiles : Bytes → Bool} {F F' : Go.FileDesc} (h : CheckedFile compiles F F') :
    ∀ d' ∈ F'.all, ∃ d ∈ F.all, checkMsg compiles d = some d' := by
  have one : ∀ l l' : List MsgDesc, l.map (checkMsg compiles) = l'.map some →
      ∀ d' ∈ l', ∃ d ∈ l, checkMsg compiles d = some d' := by
    intro l l' h d' hd'
    have : some d' ∈ l.map (checkMsg compiles) := by rw [h]; exact List.mem_map.2 ⟨d', hd', rfl⟩
    exact List.mem_map.1 this
  intro d' hd'
  rcases List.mem_append.1 hd' with hd' | hd'
  · obtain ⟨d, hd, e⟩ := one _ _ h.1 d' hd'
    exact ⟨d, List.mem_append_left _ hd, e⟩
  · obtain ⟨d, hd, e⟩ := one _ _ h.2 d' hd'
    exact ⟨d, List.mem_append_right _ hd, e⟩


theorem checkMsg_flags {compiles : Bytes → Bool} {d d' : MsgDesc} (h : checkMsg compiles d = some d') :
    d'.disabled = d.disabled ∧ d'.ignored = d.ignored ∧ (d.disabled = true → d' = d) ∧
    (d.disabled = false → ∀ f', FieldOf d' f' → ∃ f, checkField compiles f = some f') := by
  unfold checkMsg at h
  split at h
  · rename_i hd
    cases h
    exact ⟨rfl, rfl, fun _ => rfl, fun h => by rw [hd] at h; cases h⟩
  · rename_i hd
    split at h
    · rename_i fs os h1 h2
      cases h
      refine ⟨rfl, rfl, fun h => absurd h hd, fun _ f' hf' => ?_⟩
      rcases hf' with hf' | ⟨o, ho, hf'⟩
      · obtain ⟨a, -, h3⟩ := checkFields_origin h1 f' hf'
        exact ⟨a, h3⟩
      · exact checkOneofs_origin h2 o ho f' hf'
    · cases h

theorem mem_regexes {f : FieldDesc} {p : Bytes} :
    p ∈ (fieldTables f).filterMap (fun v => v.2.asRegex) ↔ ∃ v, (v, Table.regex p) ∈ fieldTables f := by
  simp only [List.mem_filterMap]
  constructor
  · rintro ⟨⟨v, t⟩, h1, h2⟩
    cases t <;> cases h2
    exact ⟨v, h1⟩
  · rintro ⟨v, h⟩
    exact ⟨_, h, rfl⟩

theorem msgRegexes_mem {d : MsgDesc} {p : Bytes} :
    p ∈ msgRegexes d ↔ d.ignored = false ∧ ∃ f, FieldOf d f ∧ ∃ v, (v, Table.regex p) ∈ fieldTables f := by
  unfold msgRegexes
  cases d.ignored
  · simp only [Bool.false_eq_true, if_false, List.mem_flatMap, mem_allFields, mem_regexes, true_and]
  · simp

/-- **C81** A program with the code of an accepted file in it panics before `main` exactly if a message for which
validation is disabled has a pattern that does not compile. (That the pattern of the `uuid` rule compiles is given.) -/
theorem C81_starts_iff_partial (compiles : Bytes → Bool)
    (huuid : compiles (asc "^[0-9a-fA-F]{8}-[0-9a-fA-F]{4}-[0-9a-fA-F]{4}-[0-9a-fA-F]{4}-[0-9a-fA-F]{12}$") = true) (F F' : Go.FileDesc)
    (h : CheckedFile compiles F F') :
    startPanics compiles F' = true ↔
      ∃ d ∈ F'.all, d.disabled = true ∧ d.ignored = false ∧ ∃ f, FieldOf d f ∧ ∃ v p,
        (v, Table.regex p) ∈ fieldTables f ∧ compiles p = false := by
  have huuid : compiles Go.uuidSource = true := huuid
  unfold startPanics
  simp only [huuid, Bool.not_true, Bool.and_false, Bool.false_or, List.any_eq_true, Bool.not_eq_true', msgRegexes_mem]
  constructor
  · rintro ⟨d, hd, p, ⟨hi, f, hf, v, hp⟩, hc⟩
    refine ⟨d, hd, ?_, hi, f, hf, v, p, hp, hc⟩
    obtain ⟨d0, -, h0⟩ := checkedFile_mem h d hd
    obtain ⟨e1, -, -, e4⟩ := checkMsg_flags h0
    cases hdis : d.disabled with
    | true => rfl
    | false =>
      obtain ⟨f0, hf0⟩ := e4 (by rw [← e1, hdis]) f hf
      rw [checkField_regex hf0 (mem_regexes.2 ⟨v, hp⟩)] at hc
      cases hc
  · rintro ⟨d, hd, -, hi, f, hf, v, p, hp, hc⟩
    exact ⟨d, hd, p, ⟨hi, f, hf, v, hp⟩, hc⟩

/-- **C81** In particular, a file in which validation is disabled for no message makes no program panic. -/
theorem C81_starts (compiles : Bytes → Bool)
    (huuid : compiles (asc "^[0-9a-fA-F]{8}-[0-9a-fA-F]{4}-[0-9a-fA-F]{4}-[0-9a-fA-F]{4}-[0-9a-fA-F]{12}$") = true) (F F' : Go.FileDesc)
    (h : CheckedFile compiles F F') (hd : ∀ d ∈ F.all, d.disabled = false) : startPanics compiles F' = false := by
  rw [Bool.eq_false_iff, Ne, C81_starts_iff_partial compiles huuid F F' h]
  rintro ⟨d, hd', hdis, -⟩
  obtain ⟨d0, h0, h1⟩ := checkedFile_mem h d hd'
  rw [(checkMsg_flags h1).1, hd d0 h0] at hdis
  cases hdis

/-- A message with a pattern, for which validation is disabled. -/
def disabledPattern (p : Bytes) : MsgDesc :=
  { name := "M", disabled := true,
    fields := [{ name := "X", typ := .one .string, rules := .mk none (.string { pattern := some p }) }] }

/-- **C81** (the full statement does not hold) The generator accepts any pattern where validation is disabled, and writes
it into the code. -/
theorem C81_disabled (compiles : Bytes → Bool) (p : Bytes) (hp : compiles p = false) :
    CheckedFile compiles ⟨[disabledPattern p], []⟩ ⟨[disabledPattern p], []⟩ ∧
      startPanics compiles ⟨[disabledPattern p], []⟩ = true := by
  refine ⟨⟨rfl, rfl⟩, ?_⟩
  have h : msgRegexes (disabledPattern p) = [p] := rfl
  simp [startPanics, Go.FileDesc.all, h, hp]

/-- A field for names of headers. -/
def headerNameField : FieldDesc :=
  { name := "H", typ := .one .string, rules := .mk none (.string { wellKnown := some (.regex .headerName) }) }

/-- The generator does accept files with patterns, and adds its own. -/
example : ∃ d', CheckedFile (fun _ => true)
      ⟨[{ name := "M", fields := [twoKindsOfPatterns, headerNameField] }], []⟩ ⟨[d'], []⟩ ∧
    msgRegexes d' = [asc "^a+$", httpHeaderName] :=
  ⟨_, ⟨rfl, rfl⟩, rfl⟩

/-- The rules that the checks leave are those they got, but for a pattern. -/
theorem checkWellKnown_same {r r' : StringRules} (h : checkWellKnownRegex r = some r') :
    r'.ins = r.ins ∧ (∀ p, r.pattern = some p → r' = r ∧ r.getRegex = .unknown) ∧
    (r.getRegex = .headerName ∨ r.getRegex = .headerValue → r'.pattern ≠ none) := by
  unfold checkWellKnownRegex at h
  cases hg : r.getRegex with
  | unknown => simp only [hg] at h; cases h; simp
  | headerName =>
    simp only [hg] at h
    split at h
    · cases h
    · rename_i hp
      split at h <;> (cases h; simp_all [regexMap])
  | headerValue =>
    simp only [hg] at h
    split at h
    · cases h
    · rename_i hp
      split at h <;> (cases h; simp_all [regexMap])
  | other n =>
    simp only [hg] at h
    split at h
    · cases h
    · rename_i hp
      split at h <;> (cases h; simp_all [regexMap])

/-- **C32** Accepted patterns compile, are not combined with `in`, nor with `well_known_regex`, at any depth. Nor are the
patterns that `well_known_regex` stands for combined with `in`. -/
theorem C32_patterns (compiles : Bytes → Bool) (d : MsgDesc) (ha : AcceptedMsg compiles d) (hd : d.disabled = false)
    (f : FieldDesc) (hf : FieldOf d f) (t : FieldT) (m : Option MessageRules) :
    (∀ r, RuleAt f t (.mk m (.string r)) →
      (∀ p, r.pattern = some p → compiles p = true ∧ r.ins = [] ∧
        r.wellKnown ≠ some (.regex .headerName) ∧ r.wellKnown ≠ some (.regex .headerValue)) ∧
      (r.wellKnown = some (.regex .headerName) ∨ r.wellKnown = some (.regex .headerValue) → r.ins = [])) ∧
    ∀ r, RuleAt f t (.mk m (.bytes r)) → ∀ p, r.pattern = some p → compiles p = true ∧ r.ins = [] := by
  constructor
  · intro r h
    obtain ⟨y, -, hc⟩ := ruleAt_type (accepted_of_msg ha hd hf) h
    obtain ⟨r', hr'⟩ : ∃ r', checkString compiles r = some r' := by
      cases hs : checkString compiles r with
      | some r' => exact ⟨r', rfl⟩
      | none => simp [checkTypeRules, hs] at hc
    have hpat := checkString_pattern hr'
    unfold checkString at hr'
    rw [Option.ite_none_right_eq_some] at hr'
    obtain ⟨-, hr'⟩ := hr'
    cases hw : checkWellKnownRegex r with
    | none => simp [hw] at hr'
    | some r1 =>
      simp only [hw] at hr'
      rw [Option.ite_none_right_eq_some] at hr'
      obtain ⟨-, hr'⟩ := hr'
      cases hr'
      obtain ⟨e1, e2, e3⟩ := checkWellKnown_same hw
      refine ⟨fun p hp => ?_, fun hk => ?_⟩
      · obtain ⟨e4, e5⟩ := e2 p hp
        subst e4
        refine ⟨(hpat p hp).2, (hpat p hp).1, ?_, ?_⟩ <;> intro hk <;> simp [StringRules.getRegex, hk] at e5
      · have : r.getRegex = .headerName ∨ r.getRegex = .headerValue := by
          rcases hk with hk | hk <;> simp [StringRules.getRegex, hk]
        cases hp : r'.pattern with
        | none => exact absurd hp (e3 this)
        | some p => rw [← e1]; exact (hpat p hp).1
  · intro r h p hp
    obtain ⟨y, -, hc⟩ := ruleAt_type (accepted_of_msg ha hd hf) h
    simp only [checkTypeRules] at hc
    have hb : checkBytes compiles r = true := by
      cases hn : checkBytes compiles r <;> simp_all
    simp only [checkBytes, Bool.and_eq_true] at hb
    have := checkPattern_iff.1 hb.1.2 p hp
    exact ⟨this.2, List.eq_nil_of_length_eq_zero this.1⟩

example : AcceptedMsg (fun _ => true) { name := "M", fields := [twoKindsOfPatterns] } ∧
    RuleAt twoKindsOfPatterns (.one .bytes) (.mk none (.bytes { pattern := some (asc "^b+$") })) ∧
    ¬ AcceptedMsg (fun p => p != asc "^b+$") { name := "M", fields := [twoKindsOfPatterns] } := by
  refine ⟨by unfold AcceptedMsg; exact Option.some_ne_none _, .value .top, ?_⟩
  intro h
  have := (C32_patterns _ _ h rfl twoKindsOfPatterns (.inl (by simp)) (.one .bytes) none).2 _ (.value .top) _ rfl
  exact absurd this.1 (by decide)

end PGV.Props
