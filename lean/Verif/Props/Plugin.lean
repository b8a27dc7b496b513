import Verif.Module.Execute
import Verif.Spec.Api
import Verif.Spec.CppEmit
import Verif.Props.Emit
import Verif.Lemmas.GenFails

/-!
C39: the plugin's outputs.
-/

set_option linter.unusedSimpArgs false

namespace PGV.Props
open PGV PGV.Spec PGV.Module

/-- All messages of the file, nested ones included, are accepted. -/
def AllAccepted (compiles : Bytes → Bool) (f : Target) : Prop :=
  ∀ d ∈ f.messages, AcceptedMsg compiles d

theorem checkAll_iff (compiles : Bytes → Bool) (ds : List MsgDesc) :
    checkAll compiles ds = true ↔ ∀ d ∈ ds, AcceptedMsg compiles d := by
  induction ds with
  | nil => simp [checkAll]
  | cons d ds ih =>
    unfold checkAll
    cases h : Checker.checkMsg compiles d <;> simp [h, ih, AcceptedMsg]

theorem loop_eq (compiles : Bytes → Bool) (lang : String) (mod : Path) (tpls : List Tpl)
    (fs : List Target) (acc : List Artifact) (arts : List Artifact) :
    loop compiles lang mod tpls fs acc = some arts ↔
      (∀ f ∈ fs, AllAccepted compiles f) ∧ arts = acc ++ fs.flatMap (fun f => emit lang mod f tpls) := by
  induction fs generalizing acc with
  | nil => simp [loop, eq_comm]
  | cons f fs ih =>
    unfold loop
    by_cases h : checkAll compiles f.messages = true
    · rw [if_pos h, ih]
      have : AllAccepted compiles f := (checkAll_iff _ _).1 h
      simp [this, List.append_assoc]
    · rw [if_neg h]
      have : ¬ AllAccepted compiles f := fun hc => h ((checkAll_iff _ _).2 hc)
      simp [this]

/-- **C39** A run with another language than cc, go or java fails. -/
theorem C39_unknown_language (compiles : Bytes → Bool) (lang : String) (mod : Path) (fs : List Target)
    (h : lang ∉ ["cc", "go", "java"]) : execute compiles lang mod fs = none := by
  unfold execute templates
  simp only [List.mem_cons, List.not_mem_nil, or_false, not_or] at h
  simp [h.1, h.2.1, h.2.2]

/-- The generator has no code for a field of the message. -/
def HasWrappedElems (d : MsgDesc) : Prop := ∃ x, FieldOf d x ∧ WrappedElems x

theorem any_false {α : Type} {p : α → Bool} {l : List α} :
    ¬ l.any p = true ↔ ∀ x ∈ l, ¬ p x = true := by simp

theorem execute_eq (compiles : Bytes → Bool) (lang : String) (mod : Path) (fs : List Target)
    (tpls : List Tpl) (hl : lang ≠ "") (ht : templates lang = some tpls) (arts : List Artifact) :
    execute compiles lang mod fs = some arts ↔
      (∀ f ∈ fs, AllAccepted compiles f) ∧ (∀ f ∈ fs, ¬ renderFails lang f = true) ∧
      arts = fs.flatMap (fun f => emit lang mod f tpls) := by
  have hl' : (lang == "") = false := by simpa using hl
  unfold execute
  simp only [hl', Bool.false_eq_true, if_false, ht]
  cases h : loop compiles lang mod tpls fs [] with
  | none =>
    simp only [reduceCtorEq, false_iff]
    rintro ⟨h1, _, _⟩
    have := (loop_eq compiles lang mod tpls fs [] _).2 ⟨h1, rfl⟩
    rw [h] at this
    cases this
  | some a =>
    obtain ⟨h1, rfl⟩ := (loop_eq _ _ _ _ _ _ _).1 h
    simp only [List.nil_append]
    by_cases hr : fs.any (renderFails lang) = true
    · simp only [hr, if_true, reduceCtorEq, false_iff]
      rintro ⟨_, h2, _⟩
      exact (any_false.2 h2) hr
    · rw [if_neg hr]
      have := any_false.1 hr
      simp only [Option.some.injEq]
      exact ⟨fun h => ⟨h1, this, h.symm⟩, fun h => h.2.2.symm⟩

/-- **C39** A run for Go succeeds exactly when all messages of all files are accepted and no message
that gets a validator has rules on the scalars inside wrapper items or values; it gives one output per
file. -/
theorem C39_go (compiles : Bytes → Bool) (mod : Path) (fs : List Target) (arts : List Artifact) :
    execute compiles "go" mod fs = some arts ↔
      (∀ f ∈ fs, AllAccepted compiles f) ∧
      (∀ f ∈ fs, ∀ d ∈ f.messages, d.ignored = false → d.disabled = false → ¬ HasWrappedElems d) ∧
      arts = fs.map fun f => ⟨outPath mod (f.goStem ++ ".validate.go".toList), .go, none⟩ := by
  rw [execute_eq compiles "go" mod fs [.go] (by decide) rfl]
  have : ∀ f, emit "go" mod f [.go] = [⟨outPath mod (f.goStem ++ ".validate.go".toList), .go, none⟩] := by
    intro f; simp [emit, filePathFor]
  simp only [this, List.map_eq_flatMap]
  have hr : ∀ f, ¬ renderFails "go" f = true ↔
      ∀ d ∈ f.messages, d.ignored = false → d.disabled = false → ¬ HasWrappedElems d := by
    intro f
    have e : renderFails "go" f = f.messages.any Go.genFails := rfl
    rw [e, any_false]
    refine forall_congr' fun d => forall_congr' fun _ => ?_
    rw [goGenFails_iff]
    simp only [not_and, HasWrappedElems]
  simp only [hr]

/-- **C39** A run for C++ succeeds exactly when all messages of all files are accepted, no message that
gets a validator has rules on the scalars inside wrapper items or values, and no message that gets
lookup tables, disabled ones included, has a wrapper with a list other than one of strings; it gives two
outputs per file, the header first. -/
theorem C39_cc (compiles : Bytes → Bool) (mod : Path) (fs : List Target) (arts : List Artifact) :
    execute compiles "cc" mod fs = some arts ↔
      (∀ f ∈ fs, AllAccepted compiles f) ∧
      (∀ f ∈ fs, ∀ d ∈ f.messages, d.ignored = false →
        (∀ x, FieldOf d x → ¬ Spec.Cpp.ListedMessage x) ∧ (d.disabled = false → ¬ HasWrappedElems d)) ∧
      arts = fs.flatMap fun f => [⟨outPath mod (f.ccStem ++ ".pb.validate.h".toList), .h, none⟩,
        ⟨outPath mod (f.ccStem ++ ".pb.validate.cc".toList), .cc, none⟩] := by
  rw [execute_eq compiles "cc" mod fs [.h, .cc] (by decide) rfl]
  have : ∀ f, emit "cc" mod f [.h, .cc] = [⟨outPath mod (f.ccStem ++ ".pb.validate.h".toList), .h, none⟩,
        ⟨outPath mod (f.ccStem ++ ".pb.validate.cc".toList), .cc, none⟩] := by
    intro f; simp [emit, filePathFor]
  simp only [this]
  have ht : ∀ x, Cpp.tablesFail x = true ↔ Spec.Cpp.ListedMessage x := by
    intro x
    unfold Cpp.tablesFail Spec.Cpp.ListedMessage Cpp.inTypeFails
    simp only [Bool.and_eq_true, Bool.or_eq_true, (tables_spec _).1]
    cases x.typ with
    | one e => cases e <;> cases x.rules.type <;> simp
    | _ => simp
  have hr : ∀ f, ¬ renderFails "cc" f = true ↔
      ∀ d ∈ f.messages, d.ignored = false →
        (∀ x, FieldOf d x → ¬ Spec.Cpp.ListedMessage x) ∧ (d.disabled = false → ¬ HasWrappedElems d) := by
    intro f
    have e : renderFails "cc" f = f.messages.any Cpp.genFails := rfl
    rw [e, any_false]
    refine forall_congr' fun d => forall_congr' fun _ => ?_
    unfold Cpp.genFails HasWrappedElems
    simp only [Bool.and_eq_true, Bool.or_eq_true, Bool.not_eq_true', List.any_eq_true, ht,
      cppRenderFails_eq, goRenderFails_iff, mem_allFields, not_and, not_or, not_exists]
  simp only [hr]

/-- **C39** A run for Java gives nothing for files that do not import validate.proto, one output per
top-level message with java_multiple_files, and one output otherwise. All files are checked, also
those without output. In a file with output, the messages must have no rules on the scalars inside
wrapper items or values, except ignored messages (with java_multiple_files: ignored nested ones);
disabled ones are not excepted. -/
theorem C39_java (compiles : Bytes → Bool) (mod : Path) (fs : List Target) (arts : List Artifact) :
    execute compiles "java" mod fs = some arts ↔
      (∀ f ∈ fs, AllAccepted compiles f) ∧
      (∀ f ∈ fs, (∃ d ∈ f.deps, "validate.proto".toList <:+ d.toList) → ∀ d ∈ f.messages,
        d.ignored = false ∨ (f.multipleFiles = true ∧ d ∈ f.top) → ¬ HasWrappedElems d) ∧
      arts = (fs.filter fun f => f.deps.any fun d => "validate.proto".toList.isSuffixOf d.toList).flatMap
        fun f => if f.multipleFiles then f.top.map fun m => ⟨f.javaPaths m.name, .java, some m.name⟩
          else [⟨outPath mod f.javaPath, .java, none⟩] := by
  rw [execute_eq compiles "java" mod fs [.java] (by decide) rfl]
  have : ∀ f, emit "java" mod f [.java] =
      if importsPgv f then (if f.multipleFiles then
          f.top.map fun m => ⟨f.javaPaths m.name, .java, some m.name⟩
          else [⟨outPath mod f.javaPath, .java, none⟩]) else [] := by
    intro f; cases h : importsPgv f <;> cases hm : f.multipleFiles <;> simp [emit, filePathFor, h, hm]
  simp only [this]
  have hr : ∀ f, ¬ renderFails "java" f = true ↔
      ((∃ d ∈ f.deps, "validate.proto".toList <:+ d.toList) → ∀ d ∈ f.messages,
        d.ignored = false ∨ (f.multipleFiles = true ∧ d ∈ f.top) → ¬ HasWrappedElems d) := by
    intro f
    have e : renderFails "java" f = (importsPgv f &&
      (if f.multipleFiles then f.top.any Java.innerFails || f.nested.any Java.genFails
       else f.messages.any Java.genFails)) := rfl
    have hi : importsPgv f = true ↔ ∃ d ∈ f.deps, "validate.proto".toList <:+ d.toList := by
      unfold importsPgv
      simp only [List.any_eq_true, List.isSuffixOf_iff_suffix]
    rw [e, Bool.and_eq_true, not_and, hi]
    refine forall_congr' fun _ => ?_
    cases hm : f.multipleFiles
    · simp only [Bool.false_eq_true, if_false, any_false, javaGenFails_iff, not_and, false_and, or_false]
      rfl
    · simp only [if_true, Bool.or_eq_true, not_or, any_false, javaGenFails_iff, innerFails_iff, true_and]
      constructor
      · rintro ⟨h1, h2⟩ d hd hc
        rcases List.mem_append.1 hd with ht | hn
        · exact h1 d ht
        · rcases hc with hc | ht
          · exact fun hw => h2 d hn ⟨hc, hw⟩
          · exact h1 d ht
      · intro h
        refine ⟨fun d hd => h d (List.mem_append_left _ hd) (.inr hd), fun d hd hc => ?_⟩
        exact h d (List.mem_append_right _ hd) (.inl hc.1) hc.2
  simp only [hr]
  refine and_congr_right fun _ => and_congr_right fun _ => ?_
  have hf : ∀ fs : List Target,
      fs.flatMap (fun f => if importsPgv f = true then (if f.multipleFiles then
          f.top.map fun m => (⟨f.javaPaths m.name, .java, some m.name⟩ : Artifact)
          else [⟨outPath mod f.javaPath, .java, none⟩]) else []) =
      (fs.filter importsPgv).flatMap fun f => if f.multipleFiles then
          f.top.map fun m => ⟨f.javaPaths m.name, .java, some m.name⟩
          else [⟨outPath mod f.javaPath, .java, none⟩] := by
    intro fs
    induction fs with
    | nil => rfl
    | cons f fs ih =>
      rw [List.flatMap_cons, ih, List.filter_cons]
      cases h : importsPgv f <;> simp
  rw [hf]
  rfl

/-- **C39** Go iterates the files in any order: whether the run succeeds does not depend on it, and
the outputs are the same up to order. -/
theorem C39_order (compiles : Bytes → Bool) (lang : String) (mod : Path) (fs gs : List Target)
    (h : fs.Perm gs) (arts : List Artifact) (he : execute compiles lang mod fs = some arts) :
    ∃ arts', execute compiles lang mod gs = some arts' ∧ arts.Perm arts' := by
  have hl : lang ≠ "" := by
    rintro rfl
    simp [execute] at he
  cases ht : templates lang with
  | none =>
    unfold execute at he
    rw [ht] at he
    split at he <;> cases he
  | some tpls =>
    rw [execute_eq compiles lang mod fs tpls hl ht] at he
    obtain ⟨h1, h2, rfl⟩ := he
    refine ⟨_, (execute_eq compiles lang mod gs tpls hl ht _).2 ⟨fun f hf => h1 f (h.mem_iff.2 hf),
      fun f hf => h2 f (h.mem_iff.2 hf), rfl⟩, ?_⟩
    exact h.flatMap_right _

/-- A list of `StringValue` messages holding host names. -/
def hosts : FieldDesc :=
  { name := "Hosts", typ := .rep (.embed "google.protobuf.StringValue" (some .stringValue)),
    rules := .mk none (.repeated {} (.mk none (.string { wellKnown := some (.hostname true) }))) }

/-- A file with this list. -/
def hostsFile : Target :=
  ⟨[{ name := "M", fields := [hosts] }], [], ["validate/validate.proto"], false, ['m'], ['m'], ['M'], fun _ => []⟩

/-- **C39** (divergence) Not every accepted file gets code: for this one the plugin fails in all three
languages, after the checks have passed. -/
theorem C39_accepted_but_fails : AllAccepted (fun _ => true) hostsFile ∧
    ∀ lang ∈ ["cc", "go", "java"], execute (fun _ => true) lang [] [hostsFile] = none := by
  have hacc : AllAccepted (fun _ => true) hostsFile := by
    intro d hd
    simp only [hostsFile, Target.messages, List.append_nil, List.mem_cons, List.not_mem_nil, or_false] at hd
    subst hd
    exact acceptedMsg_of _ _ (by decide)
  have hw : HasWrappedElems { name := "M", fields := [hosts] } :=
    ⟨hosts, .inl (by simp), .inl ⟨_, _, _, rfl, rfl, rfl, trivial⟩⟩
  refine ⟨hacc, ?_⟩
  intro lang hl
  rw [Option.eq_none_iff_forall_ne_some]
  intro arts he
  simp only [List.mem_cons, List.not_mem_nil, or_false] at hl
  rcases hl with rfl | rfl | rfl
  · exact (((C39_cc _ _ _ _).1 he).2.1 hostsFile (by simp) _ (by simp [hostsFile, Target.messages])
      rfl).2 rfl hw
  · exact ((C39_go _ _ _ _).1 he).2.1 hostsFile (by simp) _ (by simp [hostsFile, Target.messages])
      rfl rfl hw
  · exact ((C39_java _ _ _ _).1 he).2.1 hostsFile (by simp)
      ⟨"validate/validate.proto", by simp [hostsFile], ⟨"validate/".toList, by decide⟩⟩
      _ (by simp [hostsFile, Target.messages]) (.inl rfl) hw

theorem removeAll_nil (s : Path) : removeAll [] s = s := by
  induction s with
  | nil => rw [removeAll]
  | cons c s ih => rw [removeAll]; simp [ih]

theorem removeAll_none {m s : Path} (h : ¬ m <:+: s) : removeAll m s = s := by
  induction s with
  | nil => rw [removeAll]
  | cons c s ih =>
    have hp : ¬ m <+: c :: s := fun hc => h hc.isInfix
    have hi : ¬ m <:+: s := fun hc => h (hc.trans (List.suffix_cons c s).isInfix)
    rw [removeAll, if_neg, ih hi]
    simp [List.isPrefixOf_iff_prefix, hp]

theorem removeAll_prefix {m s : Path} (hm : m ≠ []) : removeAll m (m ++ s) = removeAll m s := by
  cases m with
  | nil => exact absurd rfl hm
  | cons a as =>
    rw [List.cons_append, removeAll, if_pos]
    · congr 1
      rw [← List.cons_append, List.drop_left' rfl]
    · simp [List.isPrefixOf_iff_prefix]

/-- **C39, partial** The module prefix and then leading slashes are removed from the path, when the
module does not occur in the rest of the path; without a module only leading slashes are removed.
Missing: `C39_module_inside_path`. -/
theorem C39_path_partial (mod rest : Path) (h : mod = [] ∨ ¬ mod <:+: rest) :
    outPath mod (mod ++ rest) = rest.dropWhile (· == '/') := by
  unfold outPath
  rcases h with rfl | h
  · rw [removeAll_nil]; rfl
  · by_cases hm : mod = []
    · subst hm; rw [removeAll_nil]; rfl
    · rw [removeAll_prefix hm, removeAll_none h]

/-- **C39** (negation) The module is removed everywhere in the path, not only at its beginning: the
file name is lost here. -/
theorem C39_module_inside_path :
    outPath ['f', 'o', 'o'] ['f', 'o', 'o', '/', 'f', 'o', 'o', '.', 'g', 'o'] = ['.', 'g', 'o'] := by
  have e : removeAll ['f', 'o', 'o'] (['f', 'o', 'o'] ++ '/' :: (['f', 'o', 'o'] ++ ['.', 'g', 'o'])) =
      ['/', '.', 'g', 'o'] := by
    rw [removeAll_prefix (by simp), removeAll, if_neg (by decide), removeAll_prefix (by simp),
      removeAll_none (by decide)]
  have e' : (['f', 'o', 'o', '/', 'f', 'o', 'o', '.', 'g', 'o'] : Path) =
      ['f', 'o', 'o'] ++ '/' :: (['f', 'o', 'o'] ++ ['.', 'g', 'o']) := rfl
  rw [outPath, e', e]
  rfl

/-- The C39 hypotheses are met: a file with one accepted message with a field, without wrapped items. -/
example : ∃ f : Target, AllAccepted (fun _ => true) f ∧ (∀ d ∈ f.messages, ¬ HasWrappedElems d) ∧
    (∃ d ∈ f.messages, d.fields ≠ []) ∧
    ¬ (['e', 'x', '/', 'm'] : Path) <:+: ['/', 'd', 'i', 'r', '/', 'x'] := by
  refine ⟨⟨[{ name := "M", fields := [oneInt "X"] }], [], [], false, [], [], [], fun _ => []⟩, ?_, ?_, ?_,
    by decide⟩
  · intro d hd
    simp only [Target.messages, List.append_nil, List.mem_cons, List.not_mem_nil, or_false] at hd
    subst hd
    exact acceptedMsg_of _ _ (by decide)
  · intro d hd
    simp only [Target.messages, List.append_nil, List.mem_cons, List.not_mem_nil, or_false] at hd
    subst hd
    rintro ⟨x, hx, h⟩
    simp only [FieldOf, List.mem_cons, List.not_mem_nil, or_false, false_and, exists_false] at hx
    subst hx
    rcases h with ⟨_, _, _, h, _⟩ | ⟨_, _, _, _, _, h, _⟩ <;> cases h
  · exact ⟨_, by simp [Target.messages]; rfl, by simp⟩

end PGV.Props
