import Verif.Spec.GoImports
import Verif.Props.GoCompile

/-!
C73: enum types of other packages are imported.
-/

set_option linter.unusedSimpArgs false

namespace PGV.Props
open PGV PGV.Go PGV.Spec

theorem mem_mapPut {k v : String} {m : List (String × String)} {x : String × String}
    (h : x ∈ mapPut k v m) : x = (k, v) ∨ x ∈ m := by
  induction m with
  | nil => simpa [mapPut] using h
  | cons y m ih =>
    obtain ⟨k', v'⟩ := y
    unfold mapPut at h
    split at h
    · rcases List.mem_cons.1 h with h | h
      · exact .inl h
      · exact .inr (List.mem_cons_of_mem _ h)
    · rcases List.mem_cons.1 h with h | h
      · exact .inr (List.mem_cons.2 (.inl h))
      · rcases ih h with h | h
        · exact .inl h
        · exact .inr (List.mem_cons_of_mem _ h)

theorem mapPut_self (k v : String) (m : List (String × String)) : (k, v) ∈ mapPut k v m := by
  induction m with
  | nil => simp [mapPut]
  | cons y m ih =>
    obtain ⟨k', v'⟩ := y
    unfold mapPut
    split
    · simp
    · exact List.mem_cons_of_mem _ ih

theorem mapPut_keep {k v : String} {m : List (String × String)} {x : String × String} (h : x ∈ m) (hk : x.1 ≠ k) :
    x ∈ mapPut k v m := by
  induction m with
  | nil => simp at h
  | cons y m ih =>
    obtain ⟨k', v'⟩ := y
    unfold mapPut
    rcases List.mem_cons.1 h with rfl | h
    · rw [if_neg hk]; exact List.mem_cons_self
    · split
      · exact List.mem_cons_of_mem _ h
      · exact List.mem_cons_of_mem _ (ih h)

theorem mapPut_keys {k v : String} {m : List (String × String)} (h : (m.map Prod.fst).Nodup) :
    ((mapPut k v m).map Prod.fst).Nodup := by
  induction m with
  | nil => simp [mapPut]
  | cons y m ih =>
    obtain ⟨k', v'⟩ := y
    rw [List.map_cons, List.nodup_cons] at h
    unfold mapPut
    split
    · rename_i hk
      subst hk
      rw [List.map_cons, List.nodup_cons]
      exact h
    · rename_i hk
      rw [List.map_cons, List.nodup_cons]
      refine ⟨?_, ih h.2⟩
      intro hm
      obtain ⟨x, hx, he⟩ := List.mem_map.1 hm
      rcases mem_mapPut hx with rfl | hx
      · exact hk he.symm
      · exact h.1 (List.mem_map.2 ⟨x, hx, he⟩)

/-- What `enumPackages` computes, on enums for which the path determines the name. -/
theorem enumPackages_spec (es : List EnumRef)
    (hd : ∀ a ∈ es, ∀ b ∈ es, a.pkg.path = b.pkg.path → a.pkg.goName = b.pkg.goName) :
    ((enumPackages es).map Prod.fst).Nodup ∧
      ∀ x, x ∈ enumPackages es ↔ ∃ e ∈ es, x = (e.pkg.path, e.pkg.goName) := by
  have gen : ∀ (es done : List EnumRef) (m : List (String × String)),
      (∀ a ∈ done ++ es, ∀ b ∈ done ++ es, a.pkg.path = b.pkg.path → a.pkg.goName = b.pkg.goName) →
      (m.map Prod.fst).Nodup → (∀ x, x ∈ m ↔ ∃ e ∈ done, x = (e.pkg.path, e.pkg.goName)) →
      ((es.foldl (fun m e => mapPut e.pkg.path e.pkg.goName m) m).map Prod.fst).Nodup ∧
      ∀ x, x ∈ es.foldl (fun m e => mapPut e.pkg.path e.pkg.goName m) m ↔
        ∃ e ∈ done ++ es, x = (e.pkg.path, e.pkg.goName) := by
    intro es
    induction es with
    | nil => intro done m _ h1 h2; rw [List.append_nil]; exact ⟨h1, h2⟩
    | cons e es ih =>
      intro done m hd h1 h2
      have := ih (done ++ [e]) (mapPut e.pkg.path e.pkg.goName m) (by simpa using hd) (mapPut_keys h1) ?_
      · simpa using this
      intro x
      constructor
      · intro hx
        rcases mem_mapPut hx with rfl | hx
        · exact ⟨e, by simp, rfl⟩
        · obtain ⟨e', he', rfl⟩ := (h2 x).1 hx
          exact ⟨e', by simp [he'], rfl⟩
      · rintro ⟨e', he', rfl⟩
        rcases List.mem_append.1 he' with he' | he'
        · by_cases hp : e'.pkg.path = e.pkg.path
          · have hn := hd e' (by simp [he']) e (by simp) hp
            rw [hp, hn]
            exact mapPut_self _ _ _
          · exact mapPut_keep ((h2 _).2 ⟨e', he', rfl⟩) hp
        · simp only [List.mem_singleton] at he'
          subst he'
          exact mapPut_self _ _ _
  have := gen es [] [] (by simpa using hd) (by simp) (by simp)
  simpa [enumPackages] using this

theorem mem_external {F : PkgFile} {e : EnumRef} : e ∈ externalEnums F ↔
    ∃ d f vs, EnumField F d f ∧ f.typ = .one (.enum vs) ∧ FarEnum F e ∧ e = F.enumOf d f := by
  unfold externalEnums
  simp only [List.mem_flatMap, mem_allFields]
  constructor
  · rintro ⟨d, hd, f, hf, h⟩
    have hd' : d ∈ F.file.top ∨ d ∈ F.file.nested := List.mem_append.1 hd
    split at h
    · rename_i vs ht
      split at h
      · rename_i hc
        simp only [List.mem_singleton] at h
        subst h
        simp only [Bool.and_eq_true, bne_iff_ne, ne_eq] at hc
        exact ⟨d, f, vs, ⟨hd', hf, .inl ⟨vs, ht⟩⟩, ht, hc, rfl⟩
      · simp at h
    · simp at h
  · rintro ⟨d, f, vs, ⟨hd, hf, _⟩, ht, hfar, rfl⟩
    refine ⟨d, List.mem_append.2 hd, f, hf, ?_⟩
    rw [ht]
    simp [hfar.1, hfar.2]

theorem mentions_needs {d : MsgDesc} {f : FieldDesc} (h : mentionsEnum d f = true) :
    ((∃ vs, f.typ = .one (.enum vs)) ∨ (∃ vs, f.typ = .rep (.enum vs)) ∨ ∃ k vs, f.typ = .map k (.enum vs)) ∧
    NeedsEnumType f := by
  have some_true : ∀ o : Option Bool, optB o = true → o = some true := by
    intro o; cases o with
    | none => simp [optB]
    | some b => cases b <;> simp [optB]
  have en : ∀ (r : EnumRules) (b : Bool), (enumInTable r = true ∨ (b = true ∧ enumInBody r = true)) →
      r.ins ≠ [] ∨ r.notIns ≠ [] ∨ r.definedOnly = some true := by
    intro r b h
    rcases h with h | ⟨_, h⟩
    · unfold enumInTable at h
      rw [Bool.or_eq_true] at h
      rcases h with h | h
      · exact .inl (by simpa using h)
      · exact .inr (.inl (by simpa using h))
    · exact .inr (.inr (some_true _ h))
  have rules : ∀ (x : FieldRules) (t : TypeRules), x.type = t → t ≠ .unset → ∃ m, x = .mk m t := by
    intro x t h ht
    cases x with
    | absent => exact absurd h.symm (by simpa [FieldRules.type] using ht)
    | mk m t' => exact ⟨m, by rw [← h]; rfl⟩
  unfold mentionsEnum at h
  rw [Bool.and_eq_true] at h
  have h := h.2
  have htop : RuleAt f f.typ f.rules := .top
  split at h
  · rename_i vs r ht hr
    obtain ⟨m, hm⟩ := rules _ _ hr (by simp)
    rw [hm] at htop
    refine ⟨.inl ⟨vs, ht⟩, .inl ⟨_, m, r, htop, en r (!d.disabled) ?_⟩⟩
    simpa using h
  · rename_i vs r items ht hr
    obtain ⟨m, hm⟩ := rules _ _ hr (by simp)
    refine ⟨.inr (.inl ⟨vs, ht⟩), ?_⟩
    rw [Bool.or_eq_true] at h
    rcases h with h | h
    · rw [Bool.and_eq_true] at h
      exact .inr ⟨m, r, items, hm, some_true _ h.2⟩
    · split at h
      · rename_i i hi
        obtain ⟨m', hm'⟩ := rules _ _ hi (by simp)
        rw [ht, hm, hm'] at htop
        refine .inl ⟨_, m', i, RuleAt.item htop, en i (!d.disabled) ?_⟩
        simpa using h
      · cases h
  · rename_i kt vs r keys values ht hr
    obtain ⟨m, hm⟩ := rules _ _ hr (by simp)
    refine ⟨.inr (.inr ⟨kt, vs, ht⟩), ?_⟩
    split at h
    · rename_i i hi
      obtain ⟨m', hm'⟩ := rules _ _ hi (by simp)
      rw [ht, hm, hm'] at htop
      refine .inl ⟨_, m', i, RuleAt.value htop, en i (!d.disabled) (.inr ?_)⟩
      simpa using h
    · cases h
  · cases h

/-- **C73, partial** When every package of an enum that rules need as a type is also reached by a singular field
whose enum is in another proto package and in a Go package of another name, and the names of these packages are
different from each other and from the fixed imports, then the import block has no name twice and imports every
package whose name the code writes. (`hpath`: an import path has one package name, as in Go.) Missing: other files
with enums of other packages, see `C73_repeated_enum`, `C73_same_package_name`, `C73_same_proto_package` and
`C73_names_collide`. -/
theorem C73_imports_partial (F : PkgFile)
    (hpath : ∀ d f d' f', EnumField F d f → EnumField F d' f' →
      (F.enumOf d f).pkg.path = (F.enumOf d' f').pkg.path → (F.enumOf d f).pkg.goName = (F.enumOf d' f').pkg.goName)
    (hreach : ∀ d f, EnumField F d f → NeedsEnumType f → (F.enumOf d f).pkg.path ≠ F.pkg.path →
      ReachedBySingular F (F.enumOf d f).pkg.path)
    (hnames : ∀ d f d' f', EnumField F d f → EnumField F d' f' →
      (F.enumOf d f).pkg.goName = (F.enumOf d' f').pkg.goName → (F.enumOf d f).pkg.path = (F.enumOf d' f').pkg.path)
    (hfixed : ∀ d f, EnumField F d f → (F.enumOf d f).pkg.goName ∉ fixedNames) :
    importsCompile F = true := by
  obtain ⟨hkeys, hmem⟩ := enumPackages_spec (externalEnums F) (by
    intro a ha b hb hp
    obtain ⟨d, f, _, hf, _, _, rfl⟩ := mem_external.1 ha
    obtain ⟨d', f', _, hf', _, _, rfl⟩ := mem_external.1 hb
    exact hpath d f d' f' hf hf' hp)
  have hin : ∀ e ∈ externalEnums F, (e.pkg.goName, e.pkg.path) ∈ imports F := by
    intro e he
    unfold imports
    exact List.mem_append.2 (.inr (List.mem_map.2 ⟨_, (hmem _).2 ⟨e, he, rfl⟩, rfl⟩))
  unfold importsCompile
  rw [Bool.and_eq_true, decide_eq_true_eq, List.all_eq_true]
  refine ⟨?_, ?_⟩
  · unfold imports
    rw [List.map_append, List.nodup_append]
    have hfix : fixedImports.map Prod.fst = fixedNames := rfl
    refine ⟨by decide, ?_, ?_⟩
    · rw [List.map_map, List.Nodup, List.pairwise_map]
      rw [List.Nodup, List.pairwise_map] at hkeys
      refine hkeys.imp_of_mem ?_
      intro a b ha hb hab
      obtain ⟨ea, hea, rfl⟩ := (hmem a).1 ha
      obtain ⟨eb, heb, rfl⟩ := (hmem b).1 hb
      obtain ⟨d, f, _, hf, _, _, rfl⟩ := mem_external.1 hea
      obtain ⟨d', f', _, hf', _, _, rfl⟩ := mem_external.1 heb
      exact fun he => hab (hnames d f d' f' hf hf' he)
    · intro a ha b hb hab
      subst hab
      rw [hfix] at ha
      rw [List.map_map] at hb
      obtain ⟨x, hx, rfl⟩ := List.mem_map.1 hb
      obtain ⟨e, he, rfl⟩ := (hmem x).1 hx
      obtain ⟨d, f, _, hf, _, _, rfl⟩ := mem_external.1 he
      exact hfixed d f hf ha
  · intro e he
    rw [List.contains_iff_mem]
    rcases List.mem_append.1 he with he | he
    · exact hin e he
    · unfold qualified at he
      simp only [List.mem_flatMap, mem_allFields] at he
      obtain ⟨d, hd, f, hf, he⟩ := he
      split at he
      · rename_i hc
        simp only [List.mem_singleton] at he
        subst he
        rw [Bool.and_eq_true, bne_iff_ne] at hc
        obtain ⟨htyp, hneeds⟩ := mentions_needs hc.1
        have hef : EnumField F d f := ⟨List.mem_append.1 hd, hf, htyp⟩
        obtain ⟨d', f', vs, hf', ht', hfar, hp⟩ := hreach d f hef hneeds hc.2
        have := hin _ (mem_external.2 ⟨d', f', vs, hf', ht', hfar, rfl⟩)
        rw [hp, hpath d' f' d f hf' hef hp] at this
        exact this
      · simp at he

/-- Entries of `enumPackages` come from the enums. -/
theorem enumPackages_from {es : List EnumRef} {x : String × String} (h : x ∈ enumPackages es) :
    ∃ e ∈ es, x = (e.pkg.path, e.pkg.goName) := by
  have gen : ∀ (es : List EnumRef) (m : List (String × String)),
      x ∈ es.foldl (fun m e => mapPut e.pkg.path e.pkg.goName m) m →
      x ∈ m ∨ ∃ e ∈ es, x = (e.pkg.path, e.pkg.goName) := by
    intro es
    induction es with
    | nil => intro m h; exact .inl h
    | cons e es ih =>
      intro m h
      rcases ih _ h with h | ⟨e', he', h⟩
      · rcases mem_mapPut h with h | h
        · exact .inr ⟨e, by simp, h⟩
        · exact .inl h
      · exact .inr ⟨e', by simp [he'], h⟩
  rcases gen es [] h with h | h
  · simp at h
  · exact h

theorem needs_mentions {d : MsgDesc} {f : FieldDesc} (hi : d.ignored = false) (hd : d.disabled = false)
    (hs : ∀ t r, RuleAt f t r → Suits t r.type) (ht : TablesSupported f)
    (htyp : (∃ vs, f.typ = .one (.enum vs)) ∨ (∃ vs, f.typ = .rep (.enum vs)) ∨ ∃ k vs, f.typ = .map k (.enum vs))
    (hk : ∀ k v, f.typ = .map k v → ¬ ∃ vs, k = .enum vs)
    (hn : NeedsEnumType f) : mentionsEnum d f = true := by
  have en : ∀ (r : EnumRules), (r.ins ≠ [] ∨ r.notIns ≠ [] ∨ r.definedOnly = some true) →
      (enumInTable r || enumInBody r) = true := by
    intro r h
    rcases h with h | h | h
    · simp [enumInTable, h]
    · simp [enumInTable, h]
    · simp [enumInBody, h, optB]
  unfold mentionsEnum
  rw [hi, hd]
  simp only [Bool.not_false, Bool.true_and]
  rcases hn with ⟨t, m, r, hr, hw⟩ | ⟨m, r, items, hr, hu⟩
  · have := hs _ _ hr
    rw [type_mk] at this
    obtain ⟨vs, rfl⟩ := this
    generalize hx : FieldRules.mk m (.enum r) = x at hr
    generalize htt : FieldT.one (.enum vs) = tt at hr
    cases hr with
    | top =>
      rw [← htt, ← hx, type_mk]
      exact en r hw
    | item hr =>
      cases htt
      obtain ⟨h1, h2⟩ := ruleAt_top hr (by simp)
      rw [h1, h2, type_mk, ← hx]
      simp only [type_mk]
      rw [en r hw, Bool.or_true]
    | key hr =>
      cases htt
      obtain ⟨h1, h2⟩ := ruleAt_top hr (by simp)
      exact absurd ⟨vs, rfl⟩ (hk _ _ h1)
    | value hr =>
      cases htt
      obtain ⟨h1, h2⟩ := ruleAt_top hr (by simp)
      unfold TablesSupported at ht
      rw [h2, type_mk] at ht
      have hl := ht.2.1
      rw [← hx, type_mk] at hl
      rw [h1, h2, type_mk, ← hx]
      simp only [type_mk]
      rcases hw with h | h | h
      · exact absurd (by simp [HasList, h]) hl
      · exact absurd (by simp [HasList, h]) hl
      · simp [enumInBody, h, optB]
  · have := hs _ _ (.top : RuleAt f f.typ f.rules)
    rw [hr, type_mk] at this
    obtain ⟨e, he⟩ := this
    rcases htyp with ⟨vs, h⟩ | ⟨vs, h⟩ | ⟨k, vs, h⟩
    · rw [he] at h; cases h
    · rw [h, hr, type_mk]
      simp [hu, optB]
    · rw [he] at h; cases h

/-- **C73** The condition of `C73_imports_partial` is needed: when the imports compile, each package of an enum that the
rules of a field need as a type, other than the file's own, is reached by a singular field as described there (for
messages with validation and rules that suit their types, whose tables are declared). -/
theorem C73_needed (F : PkgFile) (h : importsCompile F = true) (d : MsgDesc) (f : FieldDesc) (hf : EnumField F d f)
    (hi : d.ignored = false) (hd : d.disabled = false)
    (hs : ∀ t r, RuleAt f t r → Suits t r.type) (ht : TablesSupported f)
    (hk : ∀ k v, f.typ = .map k v → ¬ ∃ vs, k = .enum vs)
    (hn : NeedsEnumType f) (hp : (F.enumOf d f).pkg.path ≠ F.pkg.path)
    (hfixed : (F.enumOf d f).pkg.goName ∉ fixedNames) : ReachedBySingular F (F.enumOf d f).pkg.path := by
  unfold importsCompile at h
  rw [Bool.and_eq_true, List.all_eq_true] at h
  have hq : F.enumOf d f ∈ qualified F := by
    unfold qualified
    simp only [List.mem_flatMap, mem_allFields]
    refine ⟨d, List.mem_append.2 hf.1, f, hf.2.1, ?_⟩
    rw [needs_mentions hi hd hs ht hf.2.2 hk hn, Bool.true_and, if_pos (by simpa using hp)]
    exact List.mem_singleton.2 rfl
  have := h.2 _ (List.mem_append.2 (.inr hq))
  rw [List.contains_iff_mem] at this
  unfold imports at this
  rcases List.mem_append.1 this with h' | h'
  · exact absurd (List.mem_map.2 ⟨_, h', rfl⟩ : (F.enumOf d f).pkg.goName ∈ fixedImports.map Prod.fst) hfixed
  · obtain ⟨x, hx, he⟩ := List.mem_map.1 h'
    obtain ⟨e, hem, rfl⟩ := enumPackages_from hx
    obtain ⟨d', f', vs, hf', ht', hfar, rfl⟩ := mem_external.1 hem
    simp only [Prod.mk.injEq] at he
    exact ⟨d', f', vs, hf', ht', hfar, he.2⟩

/-! ### Enums that are not imported -/

/-- A file of package `a.v1` with one message with the given field, whose enum is in the given package. -/
def fileWithEnum (f : FieldDesc) (p : Pkg) : PkgFile :=
  ⟨⟨"a.v1", "v1", "example.com/a/v1"⟩, oneMessage [f], fun _ _ => ⟨p, "Color"⟩⟩

/-- A list of defined colours. -/
def colorList : FieldDesc :=
  { name := "Colors", typ := .rep (.enum [0, 1]),
    rules := .mk none (.repeated {} (.mk none (.enum { definedOnly := some true }))) }

/-- One defined colour. -/
def colorField : FieldDesc :=
  { name := "Color", typ := .one (.enum [0, 1]), rules := .mk none (.enum { definedOnly := some true }) }

/-- **C73** The fixed imports are under the names that Go gives these packages, which are the last parts of their
paths. -/
theorem C73_fixed_names : fixedImports.map Prod.fst = fixedNames ∧
    ∀ x ∈ fixedImports, x.2 = x.1 ∨ ∃ dir, x.2 = dir ++ "/" ++ x.1 := by
  refine ⟨rfl, fun x hx => ?_⟩
  simp only [fixedImports, List.mem_cons, List.not_mem_nil, or_false] at hx
  rcases hx with rfl | rfl | rfl | rfl | rfl | rfl | rfl | rfl | rfl | rfl | rfl <;>
    first
      | exact .inl rfl
      | exact .inr ⟨"net", rfl⟩
      | exact .inr ⟨"unicode", rfl⟩
      | exact .inr ⟨"google.golang.org/protobuf/types/known", rfl⟩

/-- **C73** (negation) An accepted list of enums of another package: the package is not imported. -/
theorem C73_repeated_enum : AcceptedMsg (fun _ => true) { name := "M", fields := [colorList] } ∧
    qualified (fileWithEnum colorList ⟨"paint", "paint", "example.com/paint"⟩) = [⟨⟨"paint", "paint", "example.com/paint"⟩, "Color"⟩] ∧
    imports (fileWithEnum colorList ⟨"paint", "paint", "example.com/paint"⟩) = fixedImports :=
  ⟨acceptedMsg_of _ _ (by decide), by decide, by decide⟩

/-- **C73** (negation) An enum of package `b.v1` used in package `a.v1`, both called `v1` in Go: not imported. -/
theorem C73_same_package_name : AcceptedMsg (fun _ => true) { name := "M", fields := [colorField] } ∧
    qualified (fileWithEnum colorField ⟨"b.v1", "v1", "example.com/b/v1"⟩) = [⟨⟨"b.v1", "v1", "example.com/b/v1"⟩, "Color"⟩] ∧
    imports (fileWithEnum colorField ⟨"b.v1", "v1", "example.com/b/v1"⟩) = fixedImports :=
  ⟨acceptedMsg_of _ _ (by decide), by decide, by decide⟩

/-- **C73** (negation) An enum of the same proto package, generated into another Go package: not imported. -/
theorem C73_same_proto_package : AcceptedMsg (fun _ => true) { name := "M", fields := [colorField] } ∧
    qualified (fileWithEnum colorField ⟨"a.v1", "paint", "example.com/paint"⟩) = [⟨⟨"a.v1", "paint", "example.com/paint"⟩, "Color"⟩] ∧
    imports (fileWithEnum colorField ⟨"a.v1", "paint", "example.com/paint"⟩) = fixedImports :=
  ⟨acceptedMsg_of _ _ (by decide), by decide, by decide⟩

/-- **C73** (negation) An enum of a package called `errors` in Go, without any rule: the name is imported twice. -/
theorem C73_names_collide :
    let f : FieldDesc := { name := "Code", typ := .one (.enum [0]), rules := .absent }
    AcceptedMsg (fun _ => true) { name := "M", fields := [f] } ∧
    (imports (fileWithEnum f ⟨"errors", "errors", "example.com/errors"⟩)).filter (·.1 == "errors") =
      [("errors", "errors"), ("errors", "example.com/errors")] :=
  ⟨acceptedMsg_of _ _ (by decide), by decide⟩

/-- **C73** (negation) Enums of two packages that are both called `v1` in Go: the name is imported twice. -/
theorem C73_two_packages :
    let f : FieldDesc := { name := "From", typ := .one (.enum [0]), rules := .absent }
    let g : FieldDesc := { name := "To", typ := .one (.enum [0]), rules := .absent }
    let F : PkgFile := ⟨⟨"a", "a", "example.com/a"⟩, oneMessage [f, g], fun _ x =>
      if x.name = "From" then ⟨⟨"b.v1", "v1", "example.com/b/v1"⟩, "Color"⟩
      else ⟨⟨"c.v1", "v1", "example.com/c/v1"⟩, "Shade"⟩⟩
    AcceptedMsg (fun _ => true) { name := "M", fields := [f, g] } ∧
    imports F = fixedImports ++ [("v1", "example.com/b/v1"), ("v1", "example.com/c/v1")] ∧ importsCompile F = false :=
  ⟨acceptedMsg_of _ _ (by decide), by decide, by decide⟩

/-- C73's hypotheses are met by a file with a singular and a repeated enum of another package. -/
example : ∃ F : PkgFile, (∀ d f, EnumField F d f → (F.enumOf d f).pkg.goName ∉ fixedNames) ∧
    (∀ d f, EnumField F d f → NeedsEnumType f → (F.enumOf d f).pkg.path ≠ F.pkg.path →
      ReachedBySingular F (F.enumOf d f).pkg.path) ∧
    (∀ d f d' f', EnumField F d f → EnumField F d' f' →
      (F.enumOf d f).pkg.goName = (F.enumOf d' f').pkg.goName → (F.enumOf d f).pkg.path = (F.enumOf d' f').pkg.path) ∧
    F.file.all.flatMap (·.fields) = [colorField, colorList] ∧ (qualified F).length = 2 ∧
    importsCompile F = true := by
  refine ⟨⟨⟨"a", "a", "example.com/a"⟩, oneMessage [colorField, colorList],
    fun _ _ => ⟨⟨"paint", "paint", "example.com/paint"⟩, "Color"⟩⟩, ?_, ?_, ?_, rfl, by decide, by decide⟩
  · intro d f _
    show "paint" ∉ fixedNames
    decide
  · intro d f hf _ _
    exact ⟨{ name := "M", fields := [colorField, colorList] }, colorField, [0, 1],
      ⟨.inl (by simp [oneMessage]), .inl (by simp), .inl ⟨_, rfl⟩⟩, rfl, ⟨by decide, by decide⟩, rfl⟩
  · intros; rfl

end PGV.Props
