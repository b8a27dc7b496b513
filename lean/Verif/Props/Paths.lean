import Verif.Spec.Paths
import Verif.Props.Plugin
import Verif.Props.JavaNames

/-!
C95: the names of output files.
-/

set_option linter.unusedSimpArgs false

namespace PGV.Props.Paths
open PGV PGV.Module PGV.JavaNames PGV.Spec PGV.Spec.Paths
open PGV.Cpp (Ident)

/-! ### The module parameter -/

theorem removeAll_le (m s : Path) : (removeAll m s).length ≤ s.length := by
  fun_induction removeAll m s with
  | case1 => simp
  | case2 c s' h ih =>
    have := List.length_drop (i := m.length) (l := c :: s')
    simp only [List.length_cons] at *
    omega
  | case3 c s' h ih => simpa using ih

theorem removeAll_lt {m s : Path} (hm : m ≠ []) (h : m <:+: s) : (removeAll m s).length < s.length := by
  fun_induction removeAll m s with
  | case1 => simp_all
  | case2 c s' hc ih =>
    have h1 := removeAll_le m ((c :: s').drop m.length)
    rw [List.length_drop] at h1
    have : 0 < m.length := List.length_pos_iff.2 hm
    simp only [List.length_cons] at *
    omega
  | case3 c s' hc ih =>
    have hnp : ¬ m <+: c :: s' := by
      intro hp
      apply hc
      simp [List.isPrefixOf_iff_prefix, hp, hm]
    have : m <:+: s' := (List.infix_cons_iff.1 h).resolve_left hnp
    simpa using ih this

theorem dropWhile_le (p : Char → Bool) (s : Path) : (s.dropWhile p).length ≤ s.length :=
  (List.dropWhile_sublist p).length_le

/-- **C95** The plugin writes a file under the name it computed exactly when the `module` parameter does not
occur in that name and the name does not begin with a slash. -/
theorem C95_moved_iff (mod p : Path) : outPath mod p = p ↔ Untouched mod p := by
  unfold Untouched outPath
  constructor
  · intro h
    have hl : ((removeAll mod p).dropWhile (· == '/')).length = p.length := congrArg List.length h
    have h1 := dropWhile_le (· == '/') (removeAll mod p)
    have hn : mod = [] ∨ ¬ mod <:+: p := by
      by_cases hm : mod = []
      · exact .inl hm
      · refine .inr fun hi => ?_
        have := removeAll_lt hm hi
        omega
    refine ⟨hn, ?_⟩
    have e : removeAll mod p = p := by
      rcases hn with rfl | hn
      · exact removeAll_nil p
      · exact removeAll_none hn
    rw [e] at h
    intro hs
    cases p with
    | nil => simp at hs
    | cons c s =>
      simp only [List.head?_cons, Option.some.injEq] at hs
      subst hs
      have := congrArg List.length h
      simp only [List.dropWhile_cons, beq_self_eq_true, if_true, List.length_cons] at this
      have := dropWhile_le (· == '/') s
      omega
  · rintro ⟨hn, hs⟩
    have e : removeAll mod p = p := by
      rcases hn with rfl | hn
      · exact removeAll_nil p
      · exact removeAll_none hn
    rw [e]
    cases p with
    | nil => rfl
    | cons c s =>
      have : ¬ c = '/' := by simpa using hs
      simp [List.dropWhile_cons, this]

example : Untouched "ex".toList "api/x.pb.validate.h".toList := ⟨.inr (by decide +kernel), by decide +kernel⟩

/-! ### C++ -/

theorem stem_proto (q : Path) : stem (q ++ ".proto".toList) = q := by
  have e : (q ++ ".proto".toList).reverse = 'o' :: 't' :: 'o' :: 'r' :: 'p' :: '.' :: q.reverse := by simp
  unfold stem
  rw [e]
  have : ('o' :: 't' :: 'o' :: 'r' :: 'p' :: '.' :: q.reverse).findIdx? (fun c => c == '.' || c == '/') = some 5 := by
    simp [List.findIdx?_cons]
  rw [this]
  simp

theorem cc_arts {compiles : Bytes → Bool} {mod : Path} {fs : List Source} {arts : List Artifact}
    (h : execute compiles "cc" mod (fs.map Source.target) = some arts) :
    arts = fs.flatMap fun f => [⟨outPath mod (ccFilePath f "h"), .h, none⟩,
      ⟨outPath mod (ccFilePath f "cc"), .cc, none⟩] := by
  have := ((C39_cc _ _ _ _).1 h).2.2
  rw [this, List.flatMap_map]
  simp only [Source.target, ccFilePath, List.append_assoc]
  rfl

theorem includes_eq (f : Source) : sourceIncludes f = ccFilePath f "h" := by
  simp only [sourceIncludes, ccOutput, ccFilePath, List.append_assoc]
  rfl

/-- **C95, partial** A C++ source file of a run includes the header the run writes for the same .proto file,
if the `module` parameter leaves the header's path as it is. Missing: other values of `module`, see
`C95_header_moved`. -/
theorem C95_header_partial (compiles : Bytes → Bool) (mod : Path) (fs : List Source) (arts : List Artifact)
    (h : execute compiles "cc" mod (fs.map Source.target) = some arts) (f : Source) (hf : f ∈ fs)
    (hm : Untouched mod (sourceIncludes f)) : ⟨sourceIncludes f, .h, none⟩ ∈ arts := by
  rw [cc_arts h, List.mem_flatMap]
  refine ⟨f, hf, ?_⟩
  rw [includes_eq] at hm ⊢
  rw [(C95_moved_iff _ _).2 hm]
  simp

/-- **C95** (divergence) With one .proto file and a `module` that occurs in the path, the header is written
elsewhere than where the source looks for it. -/
theorem C95_header_moved (compiles : Bytes → Bool) (mod : Path) (f : Source) (arts : List Artifact)
    (h : execute compiles "cc" mod [f.target] = some arts) (hm : ¬ Untouched mod (sourceIncludes f)) :
    ∀ a ∈ arts, a.tpl = .h → a.path ≠ sourceIncludes f := by
  have h' : execute compiles "cc" mod ([f].map Source.target) = some arts := h
  rw [cc_arts h']
  intro a ha ht e
  simp only [List.flatMap_cons, List.flatMap_nil, List.append_nil, List.mem_cons, List.not_mem_nil, or_false] at ha
  rcases ha with rfl | rfl
  · rw [includes_eq] at hm e
    exact hm ((C95_moved_iff _ _).1 e)
  · cases ht

/-- The header includes the header protoc itself writes: the name of the .proto file with `.pb.h` for
`.proto`. -/
theorem C95_header_includes (f : Source) (q : Path) (h : f.name = q ++ ".proto".toList) :
    headerIncludes f = q ++ ".pb.h".toList ∧ sourceIncludes f = q ++ ".pb.validate.h".toList := by
  simp only [headerIncludes, sourceIncludes, ccOutput, h, stem_proto, List.append_assoc]
  exact ⟨rfl, rfl⟩

theorem cc_inj {f g : Source} {a b : String} (ha : a = "h" ∨ a = "cc") (hb : b = "h" ∨ b = "cc")
    (h : ccFilePath f a = ccFilePath g b) : stem f.name = stem g.name ∧ a = b := by
  have hl := congrArg List.getLast? h
  unfold ccFilePath at h hl
  rcases ha with rfl | rfl <;> rcases hb with rfl | rfl
  · exact ⟨List.append_cancel_right (List.append_cancel_right h), rfl⟩
  · simp [List.getLast?_append] at hl
  · simp [List.getLast?_append] at hl
  · exact ⟨List.append_cancel_right (List.append_cancel_right h), rfl⟩

/-- **C95, partial** The files of a C++ run have different names, if the .proto files have and `module` leaves
the paths as they are. Missing: other values of `module`, see `C95_module_collides`. -/
theorem C95_cc_own_partial (compiles : Bytes → Bool) (mod : Path) (fs : List Source) (arts : List Artifact)
    (h : execute compiles "cc" mod (fs.map Source.target) = some arts) (hn : (fs.map (·.name)).Nodup)
    (hp : ∀ f ∈ fs, ProtoName f.name)
    (hm : ∀ f ∈ fs, Untouched mod (ccFilePath f "h") ∧ Untouched mod (ccFilePath f "cc")) :
    (arts.map (·.path)).Nodup := by
  have e : arts.map (·.path) = fs.flatMap fun f => [ccFilePath f "h", ccFilePath f "cc"] := by
    rw [cc_arts h, List.map_flatMap]
    clear h hn hp
    induction fs with
    | nil => rfl
    | cons f fs ih =>
      rw [List.flatMap_cons, List.flatMap_cons, ih fun g hg => hm g (List.mem_cons_of_mem _ hg)]
      have hf : f ∈ f :: fs := by simp
      simp only [List.map_cons, List.map_nil, (C95_moved_iff _ _).2 (hm f hf).1, (C95_moved_iff _ _).2 (hm f hf).2]
  rw [e]
  clear e h arts hm
  induction fs with
  | nil => simp
  | cons f fs ih =>
    rw [List.map_cons, List.nodup_cons] at hn
    rw [List.flatMap_cons, List.nodup_append]
    refine ⟨?_, ih hn.2 fun g hg => hp g (List.mem_cons_of_mem _ hg), ?_⟩
    · have : ccFilePath f "h" ≠ ccFilePath f "cc" := fun e => by
        have := (cc_inj (.inl rfl) (.inr rfl) e).2
        exact absurd this (by decide)
      simpa using this
    · intro a ha b hb e
      obtain ⟨g, hg, hb⟩ := List.mem_flatMap.1 hb
      have hs : stem f.name = stem g.name := by
        simp only [List.mem_cons, List.not_mem_nil, or_false] at ha hb
        rcases ha with rfl | rfl <;> rcases hb with rfl | rfl <;> exact (cc_inj (by simp) (by simp) e).1
      obtain ⟨q, hq, -⟩ := hp f (by simp)
      obtain ⟨r, hr, -⟩ := hp g (List.mem_cons_of_mem _ hg)
      rw [hq, hr, stem_proto, stem_proto] at hs
      exact hn.1 (by rw [hq, hs, ← hr]; exact List.mem_map_of_mem hg)

/-- A file with no messages. -/
def emptySource (name : Path) : Source :=
  { name := name, package := [], javaOption := none, named := ⟨[], none, false, [], []⟩, deps := [], top := [],
    nested := [], goStem := [] }

theorem empty_run (compiles : Bytes → Bool) (mod : Path) (names : List Path) :
    ∃ arts, execute compiles "cc" mod ((names.map emptySource).map Source.target) = some arts := by
  refine ⟨_, (C39_cc _ _ _ _).2 ⟨?_, ?_, rfl⟩⟩
  · intro f hf
    obtain ⟨g, hg, rfl⟩ := List.mem_map.1 hf
    obtain ⟨n, -, rfl⟩ := List.mem_map.1 hg
    intro d hd
    cases hd
  · intro f hf d hd
    obtain ⟨g, hg, rfl⟩ := List.mem_map.1 hf
    obtain ⟨n, -, rfl⟩ := List.mem_map.1 hg
    cases hd

/-- The hypotheses of the C++ theorems are met. -/
example : ∃ arts, execute (fun _ => true) "cc" "example.com".toList
      (([ "a/x.proto".toList, "x.proto".toList ].map emptySource).map Source.target) = some arts ∧
    (arts.map (·.path)).Nodup ∧ ⟨"x.pb.validate.h".toList, .h, none⟩ ∈ arts := by
  obtain ⟨arts, h⟩ := empty_run (fun _ => true) "example.com".toList ["a/x.proto".toList, "x.proto".toList]
  refine ⟨arts, h, C95_cc_own_partial _ _ _ _ h (by decide +kernel) ?_ ?_, ?_⟩
  · intro f hf
    simp only [List.map_cons, List.map_nil, List.mem_cons, List.not_mem_nil, or_false] at hf
    rcases hf with rfl | rfl
    · exact ⟨"a/x".toList, by decide +kernel, by decide +kernel, by decide +kernel⟩
    · exact ⟨"x".toList, by decide +kernel, by decide +kernel, by decide +kernel⟩
  · intro f hf
    simp only [List.map_cons, List.map_nil, List.mem_cons, List.not_mem_nil, or_false] at hf
    rcases hf with rfl | rfl <;>
      exact ⟨⟨.inr (by decide +kernel), by decide +kernel⟩, ⟨.inr (by decide +kernel), by decide +kernel⟩⟩
  · have := C95_header_partial _ _ _ _ h (emptySource "x.proto".toList) (by simp)
      ⟨.inr (by decide +kernel), by decide +kernel⟩
    rw [(C95_header_includes _ "x".toList (by decide +kernel)).2] at this
    exact this

/-- **C95** (divergence) With `module=a`, the files `a/x.proto` and `x.proto` have one header between them. -/
theorem C95_module_collides (compiles : Bytes → Bool) :
    ∃ arts, execute compiles "cc" ['a'] ((["a/x.proto".toList, "x.proto".toList].map emptySource).map Source.target) = some arts ∧
      arts.length = 4 ∧ ¬ (arts.map (·.path)).Nodup := by
  obtain ⟨arts, h⟩ := empty_run compiles ['a'] ["a/x.proto".toList, "x.proto".toList]
  refine ⟨arts, h, ?_, ?_⟩
  · rw [cc_arts h]; rfl
  · rw [cc_arts h]
    have e : removeAll ['a'] ['a', '/', 'x', '.', 'p', 'b', '.', 'v', 'a', 'l', 'i', 'd', 'a', 't', 'e', '.', 'h'] =
        ['/', 'x', '.', 'p', 'b', '.', 'v', 'l', 'i', 'd', 't', 'e', '.', 'h'] := by decide +kernel
    have e' : removeAll ['a'] ['x', '.', 'p', 'b', '.', 'v', 'a', 'l', 'i', 'd', 'a', 't', 'e', '.', 'h'] =
        ['x', '.', 'p', 'b', '.', 'v', 'l', 'i', 'd', 't', 'e', '.', 'h'] := by decide +kernel
    have q : outPath ['a'] (ccFilePath (emptySource "a/x.proto".toList) "h") =
        outPath ['a'] (ccFilePath (emptySource "x.proto".toList) "h") := by
      have h1 : ccFilePath (emptySource "a/x.proto".toList) "h" =
        ['a', '/', 'x', '.', 'p', 'b', '.', 'v', 'a', 'l', 'i', 'd', 'a', 't', 'e', '.', 'h'] := by decide +kernel
      have h2 : ccFilePath (emptySource "x.proto".toList) "h" =
        ['x', '.', 'p', 'b', '.', 'v', 'a', 'l', 'i', 'd', 'a', 't', 'e', '.', 'h'] := by decide +kernel
      rw [h1, h2, outPath, outPath, e, e']
      rfl
    simp only [List.map_cons, List.map_nil, List.flatMap_cons, List.flatMap_nil, List.append_nil, List.cons_append,
      List.nil_append, List.nodup_cons, List.mem_cons, q, true_or, or_true, not_true_eq_false, false_and,
      not_false_eq_true]

/-! ### Java -/

theorem dir_inj {d d' c c' : Path} (hd : d = [] ∨ d.getLast? = some '/') (hd' : d' = [] ∨ d'.getLast? = some '/')
    (hc : '/' ∉ c) (hc' : '/' ∉ c') (h : d ++ c = d' ++ c') : d = d' ∧ c = c' := by
  have key : ∀ d c : Path, (d = [] ∨ d.getLast? = some '/') → '/' ∉ c →
      (d ++ c).reverse.takeWhile (· != '/') = c.reverse := by
    intro d c hd hc
    have h1 : ∀ x ∈ c.reverse, (x != '/') = true := by
      intro x hx
      simp only [bne_iff_ne, ne_eq]
      rintro rfl
      exact hc (List.mem_reverse.1 hx)
    rw [List.reverse_append, List.takeWhile_append_of_pos h1]
    rcases hd with rfl | hd
    · simp
    · obtain ⟨b, rfl⟩ := List.getLast?_eq_some_iff.1 hd
      simp
  have e : c = c' := by
    have h1 := key d c hd hc
    rw [h, key d' c' hd' hc'] at h1
    simpa using h1.symm
  subst e
  exact ⟨List.append_cancel_right h, rfl⟩

theorem javaPath_inj {p p' c c' : Path} (hp : '/' ∉ p) (hp' : '/' ∉ p') (hc : '/' ∉ c) (hc' : '/' ∉ c')
    (h : javaPath p c = javaPath p' c') : p = p' ∧ c = c' := by
  unfold javaPath at h
  have hd : ∀ p : Path, (if p.isEmpty then [] else p.map (fun c => if c = '.' then '/' else c) ++ ['/']) = [] ∨
      (if p.isEmpty then [] else p.map (fun c => if c = '.' then '/' else c) ++ ['/']).getLast? = some '/' := by
    intro p
    cases p with
    | nil => exact .inl rfl
    | cons a p =>
      refine .inr ?_
      rw [if_neg (by simp)]
      exact List.getLast?_concat
  obtain ⟨h1, h2⟩ := dir_inj (hd p) (hd p') hc hc' (List.append_cancel_right h)
  refine ⟨?_, h2⟩
  have inj : ∀ p p' : Path, '/' ∉ p → '/' ∉ p' →
      p.map (fun c => if c = '.' then '/' else c) = p'.map (fun c => if c = '.' then '/' else c) → p = p' := by
    intro p
    induction p with
    | nil => intro p' _ _ h; cases p' <;> simp_all
    | cons a p ih =>
      intro p' hp hp' h
      cases p' with
      | nil => simp at h
      | cons b p' =>
        simp only [List.map_cons, List.cons.injEq, List.mem_cons, not_or] at h hp hp'
        rw [ih p' hp.2 hp'.2 h.2]
        congr 1
        have h1 := h.1
        split at h1 <;> split at h1
        · simp_all
        · exact absurd h1 hp'.1
        · exact absurd h1.symm hp.1
        · exact h1
  cases p with
  | nil =>
    cases p' with
    | nil => rfl
    | cons b p' => simp at h1
  | cons a p =>
    cases p' with
    | nil => simp at h1
    | cons b p' =>
      simp only [List.isEmpty_cons, Bool.false_eq_true, if_false] at h1
      exact inj _ _ hp hp' (List.append_cancel_right h1)

theorem java_arts {compiles : Bytes → Bool} {mod : Path} {fs : List Source} {arts : List Artifact}
    (h : execute compiles "java" mod (fs.map Source.target) = some arts) :
    arts = (fs.filter fun f => importsPgv f.target).flatMap fun f =>
      if f.named.multiple then f.top.map fun m => ⟨javaMultiFilePath f m.name.toList, .java, some m.name⟩
      else [⟨outPath mod (javaFilePath f), .java, none⟩] := by
  have := ((C39_java _ _ _ _).1 h).2.2
  rw [this, List.filter_map, List.flatMap_map]
  rfl

/-- **C95, partial** A Java file of a run is named after its public class and lies in the directory of its
package, if `module` leaves the path as it is (with java_multiple_files it is not looked at). Missing: other
values of `module`, see `C95_moved_iff`. -/
theorem C95_java_place_partial (compiles : Bytes → Bool) (mod : Path) (fs : List Source) (arts : List Artifact)
    (h : execute compiles "java" mod (fs.map Source.target) = some arts)
    (hm : ∀ f ∈ fs, f.named.multiple = false → Untouched mod (javaFilePath f)) (a : Artifact) (ha : a ∈ arts) :
    ∃ f ∈ fs, a.path = classFile (protocPackage f) (publicClass f (a.message.map String.toList)) := by
  rw [java_arts h, List.mem_flatMap] at ha
  obtain ⟨f, hf, ha⟩ := ha
  have hf := (List.mem_filter.1 hf).1
  refine ⟨f, hf, ?_⟩
  split at ha
  · obtain ⟨m, hm, rfl⟩ := List.mem_map.1 ha
    rfl
  · rename_i hmul
    simp only [List.mem_singleton] at ha
    subst ha
    exact (C95_moved_iff _ _).2 (hm f hf (by simpa using hmul))

theorem filter_flatMap {α β : Type} (p : α → Bool) (g : α → List β) (l : List α) :
    ((l.filter p).flatMap g).Sublist (l.flatMap g) := by
  induction l with
  | nil => simp
  | cons a l ih =>
    rw [List.filter_cons, List.flatMap_cons]
    split
    · rw [List.flatMap_cons]
      exact (List.Sublist.refl _).append ih
    · exact ih.trans (List.sublist_append_right _ _)

/-- **C95, partial** The files of a Java run have different names, if the classes protoc writes for the messages
of the .proto files have, the generator knows them by these names, and `module` leaves the paths as they are.
Missing: see `C95_java_collides` and `C95_moved_iff`. -/
theorem C95_java_own_partial (compiles : Bytes → Bool) (mod : Path) (fs : List Source) (arts : List Artifact)
    (h : execute compiles "java" mod (fs.map Source.target) = some arts)
    (hm : ∀ f ∈ fs, f.named.multiple = false → Untouched mod (javaFilePath f))
    (hk : ∀ f ∈ fs, KnownByName f)
    (hs : ∀ f ∈ fs, '/' ∉ protocPackage f ∧ ∀ c ∈ protocClasses f, '/' ∉ c)
    (hn : (fs.flatMap fun f => (protocClasses f).map fun c => (protocPackage f, c)).Nodup) :
    (arts.map (·.path)).Nodup := by
  have e : arts.map (·.path) = ((fs.filter fun f => importsPgv f.target).flatMap fun f =>
      (protocClasses f).map fun c => (javaPackage f, c)).map fun x => javaPath x.1 (x.2 ++ "Validator".toList) := by
    rw [java_arts h, List.map_flatMap, List.map_flatMap]
    have hsub : ∀ f ∈ fs.filter fun f => importsPgv f.target, f ∈ fs := fun f hf => (List.mem_filter.1 hf).1
    generalize fs.filter (fun f => importsPgv f.target) = gs at hsub
    induction gs with
    | nil => rfl
    | cons f gs ih =>
      rw [List.flatMap_cons, List.flatMap_cons, ih fun g hg => hsub g (List.mem_cons_of_mem _ hg)]
      congr 1
      have hf := hsub f (by simp)
      have hkf := hk f hf
      unfold KnownByName at hkf
      unfold protocClasses
      cases hmul : f.named.multiple with
      | true =>
        simp only [hmul, if_true, List.map_map] at hkf ⊢
        apply List.map_congr_left
        intro m hm
        simp only [Function.comp_apply, javaMultiFilePath, hkf m hm]
      | false =>
        simp only [hmul, Bool.false_eq_true, if_false] at hkf ⊢
        simp only [List.map_cons, List.map_nil, (C95_moved_iff _ _).2 (hm f hf hmul)]
        rw [javaFilePath, hkf]
  rw [e]
  have hsub := filter_flatMap (fun f : Source => importsPgv f.target)
    (fun f => (protocClasses f).map fun c => (javaPackage f, c)) fs
  have hno : ∀ x ∈ (fs.filter fun f => importsPgv f.target).flatMap fun f =>
      (protocClasses f).map fun c => (javaPackage f, c), '/' ∉ x.1 ∧ '/' ∉ x.2 ++ "Validator".toList := by
    intro x hx
    obtain ⟨f, hf, hx⟩ := List.mem_flatMap.1 hx
    obtain ⟨c, hc, rfl⟩ := List.mem_map.1 hx
    have hf := (List.mem_filter.1 hf).1
    refine ⟨(hs f hf).1, ?_⟩
    rw [List.mem_append, not_or]
    exact ⟨(hs f hf).2 c hc, by decide +kernel⟩
  have hn' := hn.sublist hsub
  unfold List.Nodup at hn' ⊢
  rw [List.pairwise_map]
  refine hn'.imp_of_mem fun {x y} hx hy hne he => hne ?_
  obtain ⟨h1, h2⟩ := javaPath_inj (hno x hx).1 (hno y hy).1 (hno x hx).2 (hno y hy).2 he
  exact Prod.ext h1 (List.append_cancel_right h2)

/-- A file with java_multiple_files and the message `Foo`. -/
def fooSource : Source :=
  { emptySource "foo.proto".toList with
    package := "a.b".toList, named := ⟨"foo".toList, none, true, [], []⟩, deps := ["validate/validate.proto"],
    top := [{ name := "Foo" }] }

/-- A file without, in the same package. -/
def barSource : Source :=
  { emptySource "bar.proto".toList with
    package := "a.b".toList, named := ⟨"bar".toList, none, false, [], []⟩, deps := ["validate/validate.proto"] }

theorem foo_run : ∃ arts, execute (fun _ => true) "java" [] ([fooSource, barSource].map Source.target) = some arts := by
  refine ⟨_, (C39_java _ _ _ _).2 ⟨?_, ?_, rfl⟩⟩
  · intro f hf d hd
    simp only [List.map_cons, List.map_nil, List.mem_cons, List.not_mem_nil, or_false] at hf
    rcases hf with rfl | rfl
    · simp only [Source.target, fooSource, Target.messages, emptySource, List.append_nil, List.mem_cons,
        List.not_mem_nil, or_false] at hd
      subst hd
      exact acceptedMsg_of _ _ (by decide)
    · cases hd
  · intro f hf _ d hd _
    simp only [List.map_cons, List.map_nil, List.mem_cons, List.not_mem_nil, or_false] at hf
    rcases hf with rfl | rfl
    · simp only [Source.target, fooSource, Target.messages, emptySource, List.append_nil, List.mem_cons,
        List.not_mem_nil, or_false] at hd
      subst hd
      rintro ⟨x, hx, -⟩
      simp [FieldOf] at hx
    · cases hd

/-- The hypotheses of the Java theorems are met. -/
example : ∃ arts, execute (fun _ => true) "java" [] ([fooSource, barSource].map Source.target) = some arts ∧
    (arts.map (·.path)).Nodup ∧ ∀ a ∈ arts, ∃ f ∈ [fooSource, barSource],
      a.path = classFile (protocPackage f) (publicClass f (a.message.map String.toList)) := by
  obtain ⟨arts, h⟩ := foo_run
  have hm : ∀ f ∈ [fooSource, barSource], f.named.multiple = false → Untouched [] (javaFilePath f) := by
    intro f hf hm
    simp only [List.mem_cons, List.not_mem_nil, or_false] at hf
    rcases hf with rfl | rfl
    · cases hm
    · exact ⟨.inl rfl, by decide +kernel⟩
  refine ⟨arts, h, C95_java_own_partial _ _ _ _ h hm ?_ ?_ (by decide +kernel),
    C95_java_place_partial _ _ _ _ h hm⟩
  · intro f hf
    simp only [List.mem_cons, List.not_mem_nil, or_false] at hf
    rcases hf with rfl | rfl
    · intro m hm
      simp only [fooSource, List.mem_cons, List.not_mem_nil, or_false] at hm
      subst hm
      show classNameMessage "Foo".toList = "Foo".toList
      decide +kernel
    · show classNameFile barSource.named = protocOuter barSource.named
      decide +kernel
  · intro f hf
    simp only [List.mem_cons, List.not_mem_nil, or_false] at hf
    rcases hf with rfl | rfl <;> exact ⟨by decide +kernel, by decide +kernel⟩

/-- **C95** (divergence) Two messages of a file with java_multiple_files whose names differ in the case of the
first letter get one file. -/
theorem C95_java_collides (f : Source) : javaMultiFilePath f "foo".toList = javaMultiFilePath f "Foo".toList := by
  unfold javaMultiFilePath
  have : classNameMessage "foo".toList = classNameMessage "Foo".toList := by decide +kernel
  rw [this]

/-- **C95** (divergence) With java_multiple_files, the validator of `Foo` is written where protoc writes the class of
a message called `FooValidator`. -/
theorem C95_java_overwrites (f : Source) :
    javaMultiFilePath f "Foo".toList = protocJavaFile f "FooValidator".toList := by
  unfold javaMultiFilePath protocJavaFile
  have : classNameMessage "Foo".toList ++ "Validator".toList = "FooValidator".toList := by decide +kernel
  rw [this]
  rfl

end PGV.Props.Paths
