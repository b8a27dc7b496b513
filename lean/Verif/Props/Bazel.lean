import Verif.Spec.Bazel
import Verif.Props.Paths

/-!
C114: the Bazel rule for C++ makes the files it declares.
-/

set_option linter.unusedSimpArgs false
set_option autoImplicit false

namespace PGV.Props.Bazel
open PGV PGV.Spec.Paths PGV.Module PGV.Props.Paths PGV.Spec.Bazel

/-- The directory, with a slash if there is one. -/
def pre (d : Path) : Path := if d = [] then [] else d ++ ['/']

theorem inDir_eq (d p : Path) : inDir d p = pre d ++ p := by
  unfold inDir pre
  split <;> simp

/-- Nothing, or something that ends in a slash. -/
def Dir (d : Path) : Prop := d = [] ∨ ∃ d', d = d' ++ ['/']

theorem dir_pre (d : Path) : Dir (pre d) := by
  unfold pre Dir
  split
  · exact .inl rfl
  · exact .inr ⟨d, rfl⟩

theorem dir_append {a b : Path} (ha : Dir a) (hb : Dir b) : Dir (a ++ b) := by
  rcases hb with rfl | ⟨b', rfl⟩
  · simpa using ha
  · exact .inr ⟨a ++ b', by simp⟩

theorem takeWhile_all (b r : Path) (h : '/' ∉ b) : (b ++ '/' :: r).takeWhile (· != '/') = b := by
  induction b with
  | nil => simp
  | cons c b ih =>
    simp only [List.mem_cons, not_or] at h
    rw [List.cons_append, List.takeWhile_cons, if_pos (by simpa using fun e => h.1 e.symm), ih h.2]

theorem takeWhile_whole (b : Path) (h : '/' ∉ b) : b.takeWhile (· != '/') = b := by
  induction b with
  | nil => rfl
  | cons c b ih =>
    simp only [List.mem_cons, not_or] at h
    rw [List.takeWhile_cons, if_pos (by simpa using fun e => h.1 e.symm), ih h.2]

theorem baseName_append {d b : Path} (hd : Dir d) (hb : '/' ∉ b) : baseName (d ++ b) = b := by
  unfold baseName
  rcases hd with rfl | ⟨d', rfl⟩
  · rw [List.nil_append, takeWhile_whole _ (by simpa using hb), List.reverse_reverse]
  · rw [List.reverse_append, List.reverse_append, List.reverse_singleton, List.singleton_append,
      takeWhile_all _ _ (by simpa using hb), List.reverse_reverse]

theorem split_base (p : Path) : ∃ d b, p = d ++ b ∧ Dir d ∧ '/' ∉ b := by
  have : ∀ l : Path, ∃ b r, l = b ++ r ∧ '/' ∉ b ∧ (r = [] ∨ ∃ r', r = '/' :: r') := by
    intro l
    induction l with
    | nil => exact ⟨[], [], rfl, by simp, .inl rfl⟩
    | cons c l ih =>
      by_cases hc : c = '/'
      · exact ⟨[], c :: l, rfl, by simp, .inr ⟨l, by rw [hc]⟩⟩
      · obtain ⟨b, r, e, hb, hr⟩ := ih
        exact ⟨c :: b, r, by rw [e]; rfl, by simpa [Ne.symm hc] using hb, hr⟩
  obtain ⟨b, r, e, hb, hr⟩ := this p.reverse
  refine ⟨r.reverse, b.reverse, ?_, ?_, by simpa using hb⟩
  · rw [← List.reverse_append, ← e, List.reverse_reverse]
  · rcases hr with rfl | ⟨r', rfl⟩
    · exact .inl rfl
    · exact .inr ⟨r'.reverse, by simp⟩

theorem find_none {sub s : Path} (h : ¬ sub <:+: s) : find sub s = none := by
  induction s with
  | nil =>
    unfold find
    have : sub ≠ [] := fun e => h (e ▸ List.nil_infix)
    simp [this]
  | cons c s ih =>
    unfold find
    rw [if_neg (fun hp => h (List.isPrefixOf_iff_prefix.1 hp).isInfix), ih (fun hi => h (List.infix_cons_iff.2 (.inr hi)))]
    rfl

theorem find_first {sub s : Path} {k : Nat} (h1 : ∀ i, i < k → ¬ sub <+: s.drop i) (hk : k < s.length) (h2 : sub <+: s.drop k) :
    find sub s = some k := by
  induction k generalizing s with
  | zero =>
    cases s with
    | nil => simp at hk
    | cons c s =>
      unfold find
      rw [if_pos (List.isPrefixOf_iff_prefix.2 (show sub <+: c :: s from h2))]
  | succ k ih =>
    cases s with
    | nil => simp at hk
    | cons c s =>
      unfold find
      have h0 : ¬ sub <+: c :: s := h1 0 (by omega)
      rw [if_neg (fun hp => h0 (List.isPrefixOf_iff_prefix.1 hp)),
        ih (fun i hi => h1 (i + 1) (by omega)) (by simpa using hk) h2]
      rfl

theorem path_eq (f : BFile) : f.path = pre f.root ++ (pre f.workspace ++ f.rel) := by
  unfold BFile.path
  rw [inDir_eq, inDir_eq]

/-- protoc is given a plain file under its path in the repository. -/
theorem plain_name {R : CcRule} {f : BFile} (h : Plain R f) : pathIgnoringRepository f = some f.rel := by
  obtain ⟨hw, hv, hh, ⟨q, hq⟩, hi⟩ := h
  unfold pathIgnoringRepository
  rw [find_none hv]
  simp only []
  split
  · rfl
  · rename_i hl
    have hne : f.workspace ≠ [] := fun e => hl (by rw [e]; rfl)
    have hp : f.path = pre f.root ++ (f.workspace ++ '/' :: f.rel) := by
      rw [path_eq]
      simp [pre, hne]
    have hd : f.path.drop (pre f.root).length = f.workspace ++ '/' :: f.rel := by rw [hp, List.drop_left]
    rw [find_first (k := (pre f.root).length) (fun i h => hi i (by rw [inDir_eq]; simpa using h)) (by rw [hp]; simp; omega)
      (by rw [hd]; exact List.prefix_append _ _)]
    simp only [Option.map_some, Option.some.injEq]
    rw [Nat.add_assoc, ← List.drop_drop, hd, ← List.drop_drop, List.drop_left]
    rfl

theorem outPath_plain (p : Path) (h : p.head? ≠ some '/') : outPath [] p = p := (C95_moved_iff [] p).2 ⟨.inl rfl, h⟩

/-- What is declared for a plain file. -/
theorem plain_declared {R : CcRule} {f : BFile} (h : Plain R f) (hg : R.genfiles ≠ []) :
    (ccOutputFiles f).map (declareFile R f) =
      [inDir R.outputDir (outPath [] (stem f.rel ++ ".pb.validate.h".toList)),
        inDir R.outputDir (outPath [] (stem f.rel ++ ".pb.validate.cc".toList))] := by
  obtain ⟨hw, hv, hh, ⟨q, hq⟩, hi⟩ := h
  obtain ⟨d, r, rfl, hd, hr⟩ := split_base q
  have hb : '/' ∉ r ++ ".proto".toList := by
    intro hm
    rcases List.mem_append.1 hm with hm | hm
    · exact hr hm
    · revert hm; decide
  have e1 : baseName f.path = r ++ ".proto".toList := by
    rw [path_eq, hq, List.append_assoc d, ← List.append_assoc, ← List.append_assoc, baseName_append _ hb]
    exact dir_append (dir_append (dir_pre _) (dir_pre _)) hd
  have e2 : f.inRoot = (pre f.workspace ++ d) ++ (r ++ ".proto".toList) := by
    unfold BFile.inRoot
    rw [inDir_eq, hq]
    simp only [List.append_assoc]
  have e3 : baseName f.inRoot = r ++ ".proto".toList := by
    rw [e2, baseName_append (dir_append (dir_pre _) hd) hb]
  have e4 : f.inRoot.take (f.inRoot.length - (baseName f.inRoot).length) = pre f.workspace ++ d := by
    rw [e3, e2, List.length_append, Nat.add_sub_cancel, List.take_left]
  have e5 : pre R.outputDir = pre R.genfiles ++ pre R.workspace := by
    unfold CcRule.outputDir pre
    by_cases h0 : R.workspace = [] <;> simp [h0, hg]
  have hhead : ∀ ext : Path, ext.head? = some '.' → (d ++ r ++ ext).head? ≠ some '/' := by
    intro ext he
    rw [hq] at hh
    cases hdr : d ++ r with
    | nil => rw [List.nil_append, he]; decide
    | cons c t => rw [hdr] at hh; simpa using hh
  unfold ccOutputFiles
  simp only [e1]
  rw [if_pos (by rw [List.isSuffixOf_iff_suffix]; exact List.suffix_append _ _)]
  have e6 : (r ++ ".proto".toList).take ((r ++ ".proto".toList).length - ".proto".length) = r := by
    rw [List.length_append]
    have : ".proto".toList.length = ".proto".length := rfl
    rw [this, Nat.add_sub_cancel, List.take_left]
  rw [e6, hq, stem_proto, outPath_plain _ (hhead _ rfl), outPath_plain _ (hhead _ rfl)]
  simp only [List.map_cons, List.map_nil, declareFile, e4, inDir_eq, e5, hw, List.append_assoc]

/-- **C114** (what holds) If the sources are imported by their paths in the rule's repository and are called `….proto`, the rule's
action makes all files that the rule declared, and no others. Missing: files imported by other paths and files with other
extensions, see `C114_virtual` and `C114_extension`. -/
theorem C114_partial (compiles : Bytes → Bool) (R : CcRule) (made : List Path) (h : Makes compiles R made)
    (hg : R.genfiles ≠ []) (hp : ∀ f ∈ R.protos, Plain R f) (p : Path) : p ∈ R.outFiles ↔ p ∈ made := by
  obtain ⟨srcs, arts, hn, he, rfl⟩ := h
  rw [cc_arts he]
  have hout : ∀ f ∈ R.protos, (p ∈ (ccOutputFiles f).map (declareFile R f) ↔
      p ∈ [inDir R.outputDir (outPath [] (stem f.rel ++ ".pb.validate.h".toList)),
        inDir R.outputDir (outPath [] (stem f.rel ++ ".pb.validate.cc".toList))]) := fun f hf => by
    rw [plain_declared (hp f hf) hg]
  have hmade : ∀ s : Source, [inDir R.outputDir (outPath [] (ccFilePath s "h")), inDir R.outputDir (outPath [] (ccFilePath s "cc"))] =
      [inDir R.outputDir (outPath [] (stem s.name ++ ".pb.validate.h".toList)),
        inDir R.outputDir (outPath [] (stem s.name ++ ".pb.validate.cc".toList))] := by
    intro s
    simp only [ccFilePath, List.append_assoc]
    rfl
  unfold CcRule.outFiles
  rw [List.map_flatMap]
  simp only [List.mem_flatMap, List.map_cons, List.map_nil]
  constructor
  · rintro ⟨f, hf, hm⟩
    obtain ⟨s, hs, e⟩ := List.mem_map.1 ((hn (some f.rel)).2 (List.mem_map.2 ⟨f, hf, plain_name (hp f hf)⟩))
    refine ⟨s, hs, ?_⟩
    rw [hmade, Option.some.inj e]
    exact (hout f hf).1 hm
  · rintro ⟨s, hs, hm⟩
    obtain ⟨f, hf, e⟩ := List.mem_map.1 ((hn (some s.name)).1 (List.mem_map.2 ⟨s, hs, rfl⟩))
    rw [plain_name (hp f hf)] at e
    refine ⟨f, hf, (hout f hf).2 ?_⟩
    rw [hmade, ← Option.some.inj e] at hm
    exact hm

/-- A rule with one source. -/
def oneProto (f : BFile) : CcRule := { genfiles := "bazel-out/bin".toList, workspace := f.workspace, protos := [f] }

/-- What the rule makes of a source without messages. -/
theorem one_makes (compiles : Bytes → Bool) (f : BFile) (n h cc : Path) (hn : pathIgnoringRepository f = some n)
    (e1 : stem n ++ ".pb.validate.h".toList = h) (e2 : stem n ++ ".pb.validate.cc".toList = cc) (h1 : h.head? ≠ some '/')
    (h2 : cc.head? ≠ some '/') :
    Makes compiles (oneProto f) [inDir (oneProto f).outputDir h, inDir (oneProto f).outputDir cc] := by
  obtain ⟨arts, ha⟩ := empty_run compiles [] [n]
  refine ⟨[emptySource n], arts, ?_, ha, ?_⟩
  · intro m
    have e : (oneProto f).names = [some n] := congrArg (fun x => [x]) hn
    rw [e]
    exact Iff.rfl
  · rw [cc_arts ha]
    have : ∀ s : Source, ccFilePath s "h" = stem s.name ++ ".pb.validate.h".toList ∧
        ccFilePath s "cc" = stem s.name ++ ".pb.validate.cc".toList := by
      intro s
      simp only [ccFilePath, List.append_assoc]
      exact ⟨rfl, rfl⟩
    simp only [List.map_cons, List.map_nil, List.flatMap_cons, List.flatMap_nil, List.append_nil, (this _).1, (this _).2, emptySource, e1,
      e2, outPath_plain _ h1, outPath_plain _ h2]

theorem find_slash (lib r : Path) (h : '/' ∉ lib) : find ['/'] (lib ++ '/' :: r) = some lib.length := by
  induction lib with
  | nil =>
    rw [List.nil_append]
    unfold find
    rw [if_pos (by simp)]
    rfl
  | cons c lib ih =>
    simp only [List.mem_cons, not_or] at h
    rw [List.cons_append]
    unfold find
    rw [if_neg (by simpa using h.1), ih h.2]
    rfl

/-- protoc is given such a file under the path by which it is imported. -/
theorem relocated_name {R : CcRule} {f : BFile} {pkg lib q : Path} (h : Relocated R f pkg lib q) :
    pathIgnoringRepository f = some (q ++ ".proto".toList) := by
  obtain ⟨hw, hr, hl, hq, h1, h2⟩ := h
  have hp : f.path = (pre f.root ++ (pre f.workspace ++ pkg)) ++ (virtualImports ++ (lib ++ '/' :: (q ++ ".proto".toList))) := by
    rw [path_eq, hr]
    simp only [List.append_assoc]
  have hd : f.path.drop (pre f.root ++ (pre f.workspace ++ pkg)).length =
      virtualImports ++ (lib ++ '/' :: (q ++ ".proto".toList)) := by rw [hp, List.drop_left]
  have hlt : (pre f.root ++ (pre f.workspace ++ pkg)).length < f.path.length := by
    rw [hp, List.length_append (as := pre f.root ++ (pre f.workspace ++ pkg)), List.length_append (as := virtualImports)]
    have : 0 < virtualImports.length := by decide
    omega
  have hf : find virtualImports f.path = some (pre f.root ++ (pre f.workspace ++ pkg)).length :=
    find_first (fun i hi => h1 i (by rw [inDir_eq, inDir_eq]; exact hi)) hlt (by rw [hd]; exact List.prefix_append _ _)
  unfold pathIgnoringRepository
  rw [hf]
  simp only []
  unfold secondPart
  rw [hf]
  simp only []
  rw [← List.drop_drop, hd, List.drop_left, find_none h2]
  simp only [Option.bind_some]
  rw [find_slash _ _ hl]
  simp only [Option.map_some, Option.some.injEq]
  rw [← List.drop_drop, List.drop_left]
  rfl

theorem inDir_length (d p : Path) : (inDir d p).length = (pre d).length + p.length := by
  rw [inDir_eq, List.length_append]

/-- **C114** (negation) If the `.proto` file is imported by another path than its own (`strip_import_prefix`, `import_prefix`), the plugin
writes to another directory, and the action makes none of the files that were declared: the build fails. -/
theorem C114_virtual (compiles : Bytes → Bool) (R : CcRule) (made : List Path) (h : Makes compiles R made) (hg : R.genfiles ≠ [])
    (f : BFile) (pkg lib q : Path) (hf : R.protos = [f]) (hv : Relocated R f pkg lib q) : ∀ p ∈ R.outFiles, p ∉ made := by
  obtain ⟨srcs, arts, hn, he, rfl⟩ := h
  have hname := relocated_name hv
  obtain ⟨hw, hr, hl, hq, h1, h2⟩ := hv
  obtain ⟨d, r, rfl, hd, hrb⟩ := split_base q
  have hb : '/' ∉ r ++ ".proto".toList := by
    intro hm
    rcases List.mem_append.1 hm with hm | hm
    · exact hrb hm
    · revert hm; decide
  have hdir : Dir (pkg ++ virtualImports ++ lib ++ ['/'] ++ d) := dir_append (.inr ⟨_, rfl⟩) hd
  have hrel : f.rel = (pkg ++ virtualImports ++ lib ++ ['/'] ++ d) ++ (r ++ ".proto".toList) := by
    rw [hr]
    simp
  have e1 : baseName f.path = r ++ ".proto".toList := by
    rw [path_eq, hrel, ← List.append_assoc, ← List.append_assoc, baseName_append _ hb]
    exact dir_append (dir_append (dir_pre _) (dir_pre _)) hdir
  have e2 : f.inRoot = (pre f.workspace ++ (pkg ++ virtualImports ++ lib ++ ['/'] ++ d)) ++ (r ++ ".proto".toList) := by
    unfold BFile.inRoot
    rw [inDir_eq, hrel, List.append_assoc (pre f.workspace)]
  have e4 : f.inRoot.take (f.inRoot.length - (baseName f.inRoot).length) =
      pre f.workspace ++ (pkg ++ virtualImports ++ lib ++ ['/'] ++ d) := by
    have e3 : baseName f.inRoot = r ++ ".proto".toList := by
      rw [e2, baseName_append (dir_append (dir_pre _) hdir) hb]
    rw [e3, e2, List.length_append (as := _ ++ _), Nat.add_sub_cancel, List.take_left]
  have e5 : (pre R.outputDir).length = (pre R.genfiles).length + (pre R.workspace).length := by
    unfold CcRule.outputDir pre
    by_cases h0 : R.workspace = [] <;> simp [h0, hg] <;> omega
  have e6 : (r ++ ".proto".toList).take ((r ++ ".proto".toList).length - ".proto".length) = r := by
    rw [List.length_append]
    have : ".proto".toList.length = ".proto".length := rfl
    rw [this, Nat.add_sub_cancel, List.take_left]
  have hv18 : virtualImports.length = 18 := by decide
  have hlong : ∀ p ∈ R.outFiles, (pre R.outputDir).length + (d ++ r).length + 33 ≤ p.length := by
    intro p hp
    unfold CcRule.outFiles at hp
    rw [hf] at hp
    simp only [List.flatMap_cons, List.flatMap_nil, List.append_nil] at hp
    unfold ccOutputFiles at hp
    simp only [e1] at hp
    rw [if_pos (by rw [List.isSuffixOf_iff_suffix]; exact List.suffix_append _ _), e6] at hp
    simp only [List.map_cons, List.map_nil, List.mem_cons, List.not_mem_nil, or_false, declareFile, e4] at hp
    have hh : ".pb.validate.h".toList.length = 14 := by decide
    have hc : ".pb.validate.cc".toList.length = 15 := by decide
    rcases hp with rfl | rfl <;>
      (simp only [inDir_length, List.length_append, hw, e5, hv18, hh, hc, List.length_cons, List.length_nil]; omega)
  have hshort : ∀ p ∈ arts.map (fun a => inDir R.outputDir a.path), p.length ≤ (pre R.outputDir).length + (d ++ r).length + 15 := by
    intro p hp
    rw [cc_arts he, List.map_flatMap] at hp
    obtain ⟨s, hs, hp⟩ := List.mem_flatMap.1 hp
    have hsn : s.name = d ++ r ++ ".proto".toList := by
      have := (hn (some s.name)).1 (List.mem_map.2 ⟨s, hs, rfl⟩)
      rw [CcRule.names, hf, List.map_cons, List.map_nil, List.mem_singleton, hname] at this
      exact Option.some.inj this
    have hle : ∀ x : Path, (outPath [] x).length ≤ x.length := fun x =>
      Nat.le_trans (dropWhile_le _ _) (removeAll_le _ _)
    have hst : stem s.name = d ++ r := by rw [hsn, stem_proto]
    have l1 := hle (ccFilePath s "h")
    have l2 := hle (ccFilePath s "cc")
    unfold ccFilePath at l1 l2
    rw [hst] at l1 l2
    have hh : ".pb.validate.".toList.length = 13 := by decide
    have hh1 : "h".toList.length = 1 := by decide
    have hh2 : "cc".toList.length = 2 := by decide
    rw [List.length_append, List.length_append, hh] at l1 l2
    rw [hh1] at l1
    rw [hh2] at l2
    simp only [List.map_cons, List.map_nil, List.mem_cons, List.not_mem_nil, or_false] at hp
    rcases hp with rfl | rfl
    · rw [inDir_length]
      unfold ccFilePath
      rw [hst]
      omega
    · rw [inDir_length]
      unfold ccFilePath
      rw [hst]
      omega
  intro p hp hm
  have := hlong p hp
  have := hshort p hm
  omega

/-- A source whose import prefix was stripped: `x/lib/a.proto` is to be imported as `a.proto`. -/
def stripped : BFile := { root := "bazel-out/bin".toList, rel := "x/_virtual_imports/p/a.proto".toList }

/-- The hypotheses of `C114_virtual` are met. -/
example (compiles : Bytes → Bool) : Relocated (oneProto stripped) stripped ['x'] ['p'] ['a'] ∧
    (∃ made, Makes compiles (oneProto stripped) made) ∧ (oneProto stripped).outFiles.length = 2 := by
  refine ⟨⟨rfl, by decide +kernel, by decide, by decide, by decide +kernel, by decide +kernel⟩,
    ⟨_, one_makes compiles stripped "a.proto".toList "a.pb.validate.h".toList "a.pb.validate.cc".toList (by decide +kernel)
      (by decide +kernel) (by decide +kernel) (by decide) (by decide)⟩, by decide +kernel⟩

/-- A source with the other extension that Bazel allows. -/
def devel : BFile := { rel := "x/a.protodevel".toList }

/-- **C114** (negation) Nor does it for a source called `….protodevel`. -/
theorem C114_extension (compiles : Bytes → Bool) :
    ∃ made, Makes compiles (oneProto devel) made ∧ (oneProto devel).outFiles.length = 2 ∧
      ∀ p ∈ (oneProto devel).outFiles, p ∉ made :=
  ⟨_, one_makes compiles devel "x/a.protodevel".toList "x/a.pb.validate.h".toList "x/a.pb.validate.cc".toList (by decide +kernel)
    (by decide +kernel) (by decide +kernel) (by decide) (by decide), by decide +kernel, by decide +kernel⟩

/-- A generated source of another repository. -/
def foreign : BFile := { root := "bazel-out/bin".toList, workspace := "external/r".toList, rel := "x/y.v1/a.b.proto".toList }

/-- The hypotheses of `C114_partial` are met. -/
example (compiles : Bytes → Bool) : Plain (oneProto foreign) foreign ∧ (∃ made, Makes compiles (oneProto foreign) made) ∧
    (oneProto foreign).outFiles = ["bazel-out/bin/external/r/x/y.v1/a.b.pb.validate.h".toList,
      "bazel-out/bin/external/r/x/y.v1/a.b.pb.validate.cc".toList] := by
  refine ⟨⟨rfl, by decide +kernel, by decide +kernel, ⟨"x/y.v1/a.b".toList, by decide +kernel⟩, by decide +kernel⟩,
    ⟨_, one_makes compiles foreign "x/y.v1/a.b.proto".toList "x/y.v1/a.b.pb.validate.h".toList "x/y.v1/a.b.pb.validate.cc".toList
      (by decide +kernel) (by decide +kernel) (by decide +kernel) (by decide) (by decide)⟩, by decide +kernel⟩

end PGV.Props.Bazel
