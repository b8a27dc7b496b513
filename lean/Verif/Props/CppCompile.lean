import Verif.Lemmas.CppField
import Verif.Props.CppNames
import Verif.Props.JavaCompile

/-!
C79: the generated C++ code compiles.
-/

set_option linter.unusedSimpArgs false

namespace PGV.Props
open PGV PGV.Spec PGV.Spec.Cpp
open PGV.Go (allFields)

theorem locals_unique {msg : String} {f : FieldDesc} (h : UniqueList f) : "cmp" ∈ Cpp.locals msg f := by
  obtain ⟨e, r, items, he, hr, hu, hi⟩ := h
  unfold Cpp.locals
  have : optB r.ignoreEmpty = false := by
    cases hq : r.ignoreEmpty with
    | none => rfl
    | some b => cases b <;> simp_all [optB]
  have hu' : optB r.unique = true := by simp [hu, optB]
  simp only [he, hr, hu', this]
  simp

theorem msgLocals_iff {m : Cpp.Named} (hi : m.desc.ignored = false) (hd : m.desc.disabled = false) :
    (Cpp.msgLocals m).Nodup ↔ AtMostOne UniqueList m.desc.fields := by
  unfold Cpp.msgLocals AtMostOne
  simp only [hi, hd, Bool.or_self, Bool.false_eq_true, if_false]
  rw [List.Nodup, List.pairwise_flatMap]
  constructor
  · rintro ⟨_, h⟩
    refine h.imp ?_
    rintro f g hfg ⟨hf, hg⟩
    exact hfg _ (locals_unique hf) _ (locals_unique hg) rfl
  · intro h
    refine ⟨fun f _ => locals_nodup _ _, h.imp ?_⟩
    intro f g hfg x hx y hy
    exact absurd ⟨locals_names hx, locals_names hy⟩ hfg

theorem fileDecls_iff {F : Cpp.File} (hi : ∀ m ∈ F, m.desc.ignored = false) (hn : PGV.Spec.Cpp.WellNamed F)
    (hu : ∀ m ∈ F, ∀ f, FieldOf m.desc f → '_' ∉ f.name.toList) :
    (Cpp.fileDecls F).Nodup ↔ ∀ m ∈ F, ∀ f, FieldOf m.desc f → (Cpp.decls f).Nodup := by
  unfold Cpp.fileDecls
  rw [List.Nodup, List.pairwise_flatMap]
  have inner : ∀ m ∈ F, (Cpp.msgDecls m).Pairwise (· ≠ ·) ↔ ∀ f, FieldOf m.desc f → (Cpp.decls f).Nodup := by
    intro d hd
    unfold Cpp.msgDecls
    simp only [hi d hd, Bool.false_eq_true, if_false]
    rw [List.pairwise_flatMap]
    constructor
    · rintro ⟨h, _⟩ f hf
      have := h f (mem_allFields.2 hf)
      rw [List.pairwise_map] at this
      exact this.imp fun hab he => hab (by rw [he])
    · intro h
      refine ⟨?_, ?_⟩
      · intro f hf
        rw [List.pairwise_map]
        have hff := mem_allFields.1 hf
        refine (h f hff).imp ?_
        intro a b hab he
        exact hab (varName_inj (hu d hd f hff) (hu d hd f hff) he).2.2
      · refine (pairwise_of_nodup_map (hn.2 d hd)).imp_of_mem ?_
        intro f g hf hg hfg x hx y hy he
        obtain ⟨a, _, rfl⟩ := List.mem_map.1 hx
        obtain ⟨b, _, rfl⟩ := List.mem_map.1 hy
        exact hfg (varName_inj (hu d hd f (mem_allFields.1 hf)) (hu d hd g (mem_allFields.1 hg)) he).2.1
  constructor
  · rintro ⟨h, _⟩ m hm
    exact (inner m hm).1 (h m hm)
  · intro h
    refine ⟨fun m hm => (inner m hm).2 (h m hm), ?_⟩
    have hn1 := hn.1
    rw [List.Nodup, List.pairwise_map] at hn1
    refine hn1.imp_of_mem ?_
    intro d e hd he hde x hx y hy hxy
    unfold Cpp.msgDecls at hx hy
    simp only [hi d hd, hi e he, Bool.false_eq_true, if_false] at hx hy
    obtain ⟨f, hf, hx⟩ := List.mem_flatMap.1 hx
    obtain ⟨g, hg, hy⟩ := List.mem_flatMap.1 hy
    obtain ⟨a, _, rfl⟩ := List.mem_map.1 hx
    obtain ⟨b, _, rfl⟩ := List.mem_map.1 hy
    exact hde (varName_inj (hu d hd f (mem_allFields.1 hf)) (hu e he g (mem_allFields.1 hg)) hxy).1

theorem oneof_compiles {N : Cpp.Names} {d : MsgDesc} (h : PlainNames N d) (o : OneofDesc) (ho : o ∈ d.oneofs) :
    Cpp.oneofCompiles N o = true := by
  unfold Cpp.oneofCompiles
  rw [Bool.or_eq_true, Bool.and_eq_true]
  right
  refine ⟨?_, ?_⟩
  · obtain ⟨h1, h2, h3⟩ := h.oneofs o ho
    rw [beq_iff_eq]
    exact (C78_oneof_partial _ h1).2 ⟨h2, h3⟩
  · rw [List.all_eq_true]
    intro f hf
    rw [beq_iff_eq]
    exact (C78_member_iff _ (h.fields f (.inr ⟨o, ho, hf⟩)).1).2 (h.members o ho f hf)

theorem accessor_plain {N : Cpp.Names} {d : MsgDesc} (h : PlainNames N d) {f : FieldDesc} (hf : FieldOf d f) :
    N.accessorOk f = true := by
  unfold Cpp.Names.accessorOk
  rw [beq_iff_eq]
  exact (method_iff _ h.reserved.1 h.reserved.2 _).2 (h.fields f hf).2

/-- **C79, partial** The C++ file generated for messages whose rules fit their fields (`CppTyped`) and whose names are
of the usual kind (`PlainNames`, `WellNamed`) compiles if, and only if, the rules of each field can be written in C++
(`CppWritable`) and each message has at most one list with `unique` and without `ignore_empty`: each table is declared
once, each one that is used is declared with a type that values can be looked up in, each literal is one, and each
expression has a type its operators and functions take. Missing: accepted messages whose rules cannot be written in C++,
see `C79_infinite` and the theorems after it; names of other kinds (`C79_reserved_name`, `C79_no_package`); rules on
types they are not for (`C79_wrong_type`); files with disabled messages (`C79_disabled`). (`isPrint` is
`strconv.IsPrint`, of which only ASCII matters. Messages are as the checks leave them.) -/
theorem C79_compiles_iff_partial (isPrint : Nat → Bool) (hp : PrintsAscii isPrint) (N : Cpp.Names) (F : Cpp.File)
    (hi : ∀ m ∈ F, m.desc.ignored = false) (hd : ∀ m ∈ F, m.desc.disabled = false)
    (hg : ∀ m ∈ F, Cpp.genFails m.desc = false) (ht : ∀ m ∈ F, CppTyped m.desc) (hN : ∀ m ∈ F, PlainNames N m.desc)
    (hn : PGV.Spec.Cpp.WellNamed F) (hu : ∀ m ∈ F, ∀ f, FieldOf m.desc f → '_' ∉ f.name.toList) :
    Cpp.fileCompiles N isPrint F = true ↔
      ∀ m ∈ F, (∀ f, FieldOf m.desc f → CppWritable N f) ∧ AtMostOne UniqueList m.desc.fields := by
  have pk : ∀ p : Cpp.Package, PlainPackage p → p.ok = true := fun p h => by
    unfold Cpp.Package.ok; rw [beq_iff_eq]; exact h
  have hf : ∀ m ∈ F, ∀ f, FieldOf m.desc f →
      ((Cpp.fieldCompiles N isPrint false f = true ∧ (Cpp.decls f).Nodup) ↔ CppWritable N f) := by
    intro m hm f hf
    have hg' := hg m hm
    unfold Cpp.genFails at hg'
    rw [hi m hm, Bool.not_false, Bool.true_and, Bool.or_eq_false_iff] at hg'
    have htf : Cpp.tablesFail f = false := by
      have := hg'.1
      rw [List.any_eq_false] at this
      simpa using this f (mem_allFields.2 hf)
    exact Cpp.field_ok hp (accessor_plain (hN m hm) hf) (pk _ ((hN m hm).enumPackages f hf))
      (fun n => pk _ ((hN m hm).packages n)) ((ht m hm).suits f hf) ((ht m hm).ranges f hf) ((ht m hm).patterns f hf) htf
  have hm : ∀ m ∈ F, Cpp.msgCompiles N isPrint m = true ↔
      (∀ f, FieldOf m.desc f → Cpp.fieldCompiles N isPrint false f = true) ∧ AtMostOne UniqueList m.desc.fields := by
    intro m hm
    have ho : m.desc.oneofs.all (Cpp.oneofCompiles N) = true := by
      rw [List.all_eq_true]
      exact oneof_compiles (hN m hm)
    unfold Cpp.msgCompiles
    rw [hi m hm, hd m hm, pk _ ((hN m hm).packages _), ho]
    simp only [Bool.false_or, Bool.true_and, Bool.and_eq_true, decide_eq_true_eq, msgLocals_iff (hi m hm) (hd m hm),
      List.all_eq_true]
    exact and_congr_left fun _ => ⟨fun h f hf => h f (mem_allFields.2 hf), fun h f hf => h f (mem_allFields.1 hf)⟩
  unfold Cpp.fileCompiles
  rw [Bool.and_eq_true, decide_eq_true_eq, fileDecls_iff hi hn hu, List.all_eq_true]
  constructor
  · rintro ⟨h1, h2⟩ m hmF
    have := (hm m hmF).1 (h2 m hmF)
    exact ⟨fun f hff => (hf m hmF f hff).1 ⟨this.1 f hff, h1 m hmF f hff⟩, this.2⟩
  · intro h
    exact ⟨fun m hmF f hff => ((hf m hmF f hff).2 ((h m hmF).1 f hff)).2,
      fun m hmF => (hm m hmF).2 ⟨fun f hff => ((hf m hmF f hff).2 ((h m hmF).1 f hff)).1, (h m hmF).2⟩⟩

/-! ### Accepted rules whose code does not compile -/

/-- Names as in most files: fields in lower case, one package, enums in it. -/
def plainNames : Cpp.Names where
  field f := f.name.toList.map Cpp.lowerOf
  oneof o := o.name.toList.map Cpp.lowerOf
  enum _ := ⟨⟨["p"], ["p"]⟩, ["Color".toList], true, true⟩
  package _ := ⟨["p"], ["p"]⟩
  keyword s := s = "const".toList ∨ s = "inline".toList ∨ s = "class".toList

/-- The message passes the checks unchanged, C++ generation succeeds, and the file does not compile, whatever characters
count as printable. -/
def BreaksCpp (N : Cpp.Names) (d : MsgDesc) : Prop :=
  Checker.checkMsg (fun _ => true) d = some d ∧ Cpp.genFails d = false ∧
    ∀ isPrint, Cpp.fileCompiles N isPrint [⟨"M", d⟩] = false

/-- **C79** (negation) An infinite bound. -/
theorem C79_infinite : BreaksCpp plainNames
    (withField (.one (.scalar .double)) (.num .double { lte := some (.f64 0x7FF0000000000000#64) })) :=
  ⟨rfl, rfl, fun _ => by rfl⟩

/-- **C79** (negation) An unsigned bound above the largest signed 64-bit integer: standard C++ has no such literal
without a suffix. -/
theorem C79_unsigned : BreaksCpp plainNames
    (withField (.one (.scalar .uint64)) (.num .uint64 { lt := some (.int 9223372036854775808) })) :=
  ⟨rfl, rfl, fun _ => by rfl⟩

/-- **C79** (negation) The smallest 64-bit integer: C++ reads `-9223372036854775808` as the negation of a number that is
too large for a literal. -/
theorem C79_smallest : BreaksCpp plainNames
    (withField (.one (.scalar .int64)) (.num .int64 { gte := some (.int (-9223372036854775808)) })) :=
  ⟨rfl, rfl, fun _ => by rfl⟩

/-- **C79** (negation) A control character before hexadecimal digits: C++ reads `"\x01ff"` as one number. -/
theorem C79_control (isPrint : Nat → Bool) (hp : PrintsAscii isPrint) :
    Checker.checkMsg (fun _ => true) (withField (.one .string) (.string { const := some [0x01, 0x66, 0x66] })) =
      some (withField (.one .string) (.string { const := some [0x01, 0x66, 0x66] })) ∧
    Cpp.fileCompiles plainNames isPrint
      [⟨"M", withField (.one .string) (.string { const := some [0x01, 0x66, 0x66] })⟩] = false := by
  refine ⟨rfl, ?_⟩
  rw [← Bool.not_eq_true]
  intro h
  have h1 : Cpp.fieldCompiles plainNames isPrint false
      { name := "X", typ := .one .string, rules := .mk none (.string { const := some [0x01, 0x66, 0x66] }) } = true := by
    simp only [Cpp.fileCompiles, Cpp.msgCompiles, withField, allFields, List.all_cons, List.all_nil, List.flatMap_nil,
      List.append_nil, Bool.and_eq_true, Bool.false_or, Bool.and_true, Bool.false_eq_true] at h
    exact h.2.1.2
  have hat : ∀ t r, RuleAt { name := "X", typ := .one .string, rules := .mk none (.string { const := some [0x01, 0x66, 0x66] }) } t r →
      t = .one .string ∧ r = .mk none (.string { const := some [0x01, 0x66, 0x66] }) := fun t r h => ruleAt_one rfl h
  have hw := (Cpp.field_ok (N := plainNames) hp (by decide) rfl (fun _ => rfl)
    (by intro t r h; obtain ⟨rfl, rfl⟩ := hat t r h; exact .inl rfl)
    (by
      intro t r h
      obtain ⟨rfl, rfl⟩ := hat t r h
      refine ⟨by simp [FieldRules.type, ProtoRanges], fun s hs => ?_⟩
      have : s = [0x01, 0x66, 0x66] := by simpa [StringIn, eq_comm] using hs
      subst this
      exact utf8_of_ascii (by decide))
    (by intro r k v h; cases h) rfl).1 ⟨h1, by decide⟩
  have hc := (hw.constants _ _ .top).2.2.1 [0x01, 0x66, 0x66] (by simp [StringIn])
  exact absurd (hc [] 0x01 [0x66, 0x66] rfl (by simp [HexEscaped])) (by decide)

/-- **C79** (negation) A list of enum values without duplicates: its items are `int`, but the set is one of the enum. -/
theorem C79_unique_enums : BreaksCpp plainNames
    (withField (.rep (.enum [0, 1])) (.repeated { unique := some true } .absent)) :=
  ⟨rfl, rfl, fun _ => by rfl⟩

/-- **C79** (negation) A list on the numbers in a list: the table is not declared. -/
theorem C79_item_list : BreaksCpp plainNames
    (withField (.rep (.scalar .int32)) (.repeated {} (.mk none (.num .int32 { ins := [.int 1] })))) :=
  ⟨rfl, rfl, fun _ => by rfl⟩

/-- **C79** (negation) A pattern on bytes in a list: the pattern is not declared. -/
theorem C79_item_bytes : BreaksCpp plainNames
    (withField (.rep .bytes) (.repeated {} (.mk none (.bytes { pattern := some [0x61] })))) :=
  ⟨rfl, rfl, fun _ => by rfl⟩

/-- **C79** (negation) Patterns on the keys and the values of a map are declared under the same name. -/
theorem C79_two_patterns : BreaksCpp plainNames
    (withField (.map .string .string) (.map {} (.mk none (.string { pattern := some [0x61] }))
      (.mk none (.string { pattern := some [0x62] })))) :=
  ⟨rfl, rfl, fun _ => by rfl⟩

/-- **C79** (negation) A list on an enum of another package, or one whose name Go changes. -/
theorem C79_foreign_enum :
    BreaksCpp { plainNames with enum := fun _ => ⟨⟨["q"], ["q"]⟩, ["Color".toList], false, true⟩ }
      (withField (.one (.enum [0, 1])) (.enum { ins := [0] })) ∧
    BreaksCpp { plainNames with enum := fun _ => ⟨⟨["p"], ["p"]⟩, ["my_color".toList], true, true⟩ }
      (withField (.one (.enum [0, 1])) (.enum { ins := [0] })) :=
  ⟨⟨rfl, rfl, fun _ => by rfl⟩, ⟨rfl, rfl, fun _ => by rfl⟩⟩

/-- **C79** (negation) A field called `class`, with a rule. -/
theorem C79_reserved_name : BreaksCpp { plainNames with field := fun _ => "class".toList }
    (withField (.one (.scalar .int32)) (.num .int32 { gt := some (.int 0) })) :=
  ⟨rfl, rfl, fun _ => by rfl⟩

/-- **C79** (negation) A file without a package, whose name protoc-gen-star splits into one empty part. -/
theorem C79_no_package : BreaksCpp { plainNames with package := fun _ => ⟨[], [""]⟩ } { name := "M" } :=
  ⟨rfl, rfl, fun _ => by rfl⟩

/-- **C79** (negation) An embedded message of a type from a file without a package, unless it is skipped. -/
theorem C79_embedded_package :
    let N := { plainNames with package := fun n => if n = "E" then ⟨[], [""]⟩ else ⟨["p"], ["p"]⟩ }
    let field (m : Option MessageRules) : FieldDesc :=
      { name := "X", typ := .one (.embed "E" none), rules := .mk m .unset }
    BreaksCpp N { name := "M", fields := [field (some { required := some true })] } ∧
    ∀ isPrint, Cpp.fileCompiles N isPrint
      [⟨"M", { name := "M", fields := [field (some { required := some true, skip := some true })] }⟩] = true :=
  ⟨⟨rfl, rfl, fun _ => by rfl⟩, fun _ => by rfl⟩

/-- **C79** (negation) Duration rules on a string field, whatever they say. -/
theorem C79_wrong_type : BreaksCpp plainNames (withField (.one .string) (.duration { gt := some ⟨1, 0⟩ })) ∧
    BreaksCpp plainNames (withField (.one .string) (.duration { required := some true })) :=
  ⟨⟨rfl, rfl, fun _ => by rfl⟩, ⟨rfl, rfl, fun _ => by rfl⟩⟩

/-- **C79** (negation) Two lists without duplicates in one message. -/
theorem C79_two_uniques : BreaksCpp plainNames { name := "M", fields := [distinct "Xs", distinct "Ys"] } :=
  ⟨rfl, rfl, fun _ => by rfl⟩

/-- **C79** (negation) Tables are also written for disabled messages, whose rules nobody checks. -/
theorem C79_disabled : BreaksCpp plainNames
    { withField (.one (.scalar .double)) (.num .double { ins := [.f64 0x7FF0000000000000#64] }) with disabled := true } :=
  ⟨rfl, rfl, fun _ => by rfl⟩

/-- A map from names of a's to bytes of b's. -/
def twoKindsOfPatterns : FieldDesc :=
  { name := "X", typ := .map .string .bytes,
    rules := .mk none (.map {} (.mk none (.string { pattern := some (asc "^a+$") }))
      (.mk none (.bytes { pattern := some (asc "^b+$") }))) }

/-- **C79** (why `CppTyped` leaves it out) A map with patterns on its keys and on its values, which are bytes: one
pattern is declared, that of the keys, and the code for the values uses it too. It compiles, and checks the wrong thing.
Go has the same one declaration for two uses. -/
theorem C79_shared_pattern :
    Checker.checkMsg (fun _ => true) { name := "M", fields := [twoKindsOfPatterns] } =
      some { name := "M", fields := [twoKindsOfPatterns] } ∧
    Cpp.fileCompiles plainNames (fun c => decide (0x20 ≤ c ∧ c < 0x7F))
      [⟨"M", { name := "M", fields := [twoKindsOfPatterns] }⟩] = true ∧
    (Cpp.fieldDecls plainNames (fun c => decide (0x20 ≤ c ∧ c < 0x7F)) twoKindsOfPatterns =
      [⟨.pattern, some .regex, [.text (asc "\"^a+$\"")]⟩]) ∧
    Cpp.refs twoKindsOfPatterns = [.pattern, .pattern] ∧
    Go.decls twoKindsOfPatterns = [.pattern] ∧ Go.refs twoKindsOfPatterns = [.pattern, .pattern] := by
  refine ⟨rfl, by decide +kernel, ?_, by decide, by decide, by decide⟩
  have : Go.litString (fun c => decide (0x20 ≤ c ∧ c < 0x7F)) (asc "^a+$") = asc "\"^a+$\"" := by decide +kernel
  simp only [Cpp.fieldDecls, twoKindsOfPatterns, FieldRules.type, Cpp.patternDecl, List.append_nil, this]

theorem javaRoute_cpp : CppTyped javaRoute := by
  refine ⟨javaRoute_typed.suits, fun f hf t r h => ⟨javaRoute_typed.ranges f hf t r h, ?_⟩, ?_⟩
  · revert f hf t r h
    suffices ∀ f, FieldOf javaRoute f → ∀ t r, RuleAt f t r → TextRules r.type from fun f hf t r h => this f hf t r h
    refine javaRoute_fields ?_ ?_ ?_ ?_ ?_ <;> refine Java.forall_ruleAt.2 ⟨?_, ?_, ?_⟩
    · simp [headerField, FieldRules.type, TextRules, StringIn]
    · intro _ _ _ h; cases h
    · intro _ _ _ _ _ h; cases h
    · trivial
    · intro _ _ _ h; cases h
    · intro _ _ _ _ _ h; cases h
    · trivial
    · intro _ _ _ h; cases h
    · intro _ _ _ _ _ _ h
      cases h
      simp [FieldRules.type, TextRules, StringIn]
    · trivial
    · intro _ _ _ _ h
      cases h
      simp only [FieldRules.type, TextRules, StringIn]
      simp
      constructor <;> exact utf8_of_ascii (by decide)
    · intro _ _ _ _ _ h; cases h
    · trivial
    · intro _ _ _ h; cases h
    · intro _ _ _ _ _ h; cases h
  · refine javaRoute_fields ?_ ?_ ?_ ?_ ?_ <;>
      simp [headerField, timeoutField, weightsField, idsField, oneInt, FieldRules.type, HasPattern]

theorem plain_of {s : Cpp.Ident} (h1 : ∀ c ∈ s, Cpp.isLow c = true) : ProtoIdent s ∧ ∀ t, s ≠ '_' :: t := by
  refine ⟨⟨fun c hc => .inl (h1 c hc), fun c t h => (low_facts (h1 c (by simp [h]))).2.1⟩, fun t h => ?_⟩
  exact absurd (h1 '_' (by simp [h])) (by decide)

theorem javaRoute_names : PlainNames plainNames javaRoute where
  reserved := ⟨by decide, by decide⟩
  fields := by
    refine javaRoute_fields ?_ ?_ ?_ ?_ ?_ <;> refine ⟨(plain_of (by decide)).1, by decide, ?_⟩ <;>
      (intro h; revert h; decide)
  members := by
    intro o ho f hf
    simp only [javaRoute, List.mem_singleton] at ho
    subst ho
    simp only [List.mem_singleton] at hf
    subst hf
    exact (plain_of (by decide)).2
  oneofs := by
    intro o ho
    simp only [javaRoute, List.mem_singleton] at ho
    subst ho
    refine ⟨(plain_of (by decide)).1, (plain_of (by decide)).2, ?_⟩
    intro a b h
    exact absurd (show '_' ∈ plainNames.oneof { name := "Kind", required := true, fields := [oneInt "Count"] } by rw [h]; simp)
      (by decide)
  packages := fun _ => rfl
  enumPackages := fun _ _ => rfl

/-- `javaRoute` meets the hypotheses of C79, and compiles. -/
example : PrintsAscii (fun c => decide (0x20 ≤ c ∧ c < 0x7F)) ∧ CppTyped javaRoute ∧ PlainNames plainNames javaRoute ∧
    Cpp.genFails javaRoute = false ∧ PGV.Spec.Cpp.WellNamed [⟨"Route", javaRoute⟩] ∧
    (∀ f, FieldOf javaRoute f → '_' ∉ f.name.toList) ∧
    Cpp.fileCompiles plainNames (fun c => decide (0x20 ≤ c ∧ c < 0x7F)) [⟨"Route", javaRoute⟩] = true ∧
    ∀ f, FieldOf javaRoute f → CppWritable plainNames f := by
  have hp : PrintsAscii (fun c => decide (0x20 ≤ c ∧ c < 0x7F)) := by intro c _; simp
  have hn : PGV.Spec.Cpp.WellNamed [⟨"Route", javaRoute⟩] := by
    refine ⟨by decide, ?_⟩
    intro m hm
    simp only [List.mem_singleton] at hm
    subst hm
    decide
  have hu : ∀ f, FieldOf javaRoute f → '_' ∉ f.name.toList := by
    refine javaRoute_fields ?_ ?_ ?_ ?_ ?_ <;> decide
  have hc : Cpp.fileCompiles plainNames (fun c => decide (0x20 ≤ c ∧ c < 0x7F)) [⟨"Route", javaRoute⟩] = true := by
    decide +kernel
  refine ⟨hp, javaRoute_cpp, javaRoute_names, rfl, hn, hu, hc, ?_⟩
  exact ((C79_compiles_iff_partial _ hp plainNames [⟨"Route", javaRoute⟩] (by simp [javaRoute]) (by simp [javaRoute])
    (by simp only [List.mem_singleton]; rintro m rfl; rfl)
    (by simp only [List.mem_singleton]; rintro m rfl; exact javaRoute_cpp)
    (by simp only [List.mem_singleton]; rintro m rfl; exact javaRoute_names) hn
    (by simp only [List.mem_singleton]; rintro m rfl; exact hu)).1 hc ⟨"Route", javaRoute⟩ (by simp)).1

end PGV.Props
