import Verif.Spec.CppLink
import Verif.Lemmas.JavaNames
import Verif.Lemmas.JavaClass

/-!
C96: the C++ files of a program have names of their own for what they share.
-/

set_option linter.unusedSimpArgs false

namespace PGV.Props.CppLink
open PGV PGV.Cpp PGV.JavaNames PGV.Spec.CppLink

/-- The class, part by part. -/
def parts (m : LinkMessage) : List Ident := m.package ++ [classBaseName m.path]

/-- Every part after two underscores. -/
def enc (l : List Ident) : Ident := l.flatMap fun p => '_' :: '_' :: p

theorem intercalate_colons : ∀ (l : List Ident), l ≠ [] →
    "::".toList ++ List.intercalate "::".toList l = l.flatMap fun p => ':' :: ':' :: p
  | [], h => absurd rfl h
  | [a], _ => by simp [List.intercalate]
  | a :: b :: l, _ => by
    have := intercalate_colons (b :: l) (by simp)
    rw [List.flatMap_cons, ← this]
    simp [List.intercalate, List.intersperse]

theorem class_parts (m : LinkMessage) (h : m.package ≠ []) :
    className m = (parts m).flatMap fun p => ':' :: ':' :: p := by
  unfold className packageName parts
  rw [intercalate_colons _ h, List.flatMap_append]
  simp

theorem map_colon {s : Ident} (h : ':' ∉ s) : s.map (fun c => if c = ':' then '_' else c) = s := by
  induction s with
  | nil => rfl
  | cons a s ih =>
    simp only [List.mem_cons, not_or] at h
    rw [List.map_cons, ih h.2, if_neg (fun e => h.1 e.symm)]

theorem var_enc (m : LinkMessage) (h : m.package ≠ []) (ht : ∀ p ∈ parts m, Tidy p) :
    staticVarName m = "validator_".toList ++ enc (parts m) := by
  unfold staticVarName
  rw [class_parts m h]
  congr 1
  generalize parts m = l at ht
  induction l with
  | nil => rfl
  | cons a l ih =>
    have hc : ':' ∉ a := (ht a (by simp)).2.2.2.2
    rw [List.flatMap_cons, List.map_append, ih fun p hp => ht p (List.mem_cons_of_mem _ hp)]
    simp only [List.map_cons, if_true, map_colon hc, enc, List.flatMap_cons]

theorem tidy_split {p q r r' : Ident} (hp : Tidy p) (hq : Tidy q)
    (hr : r = [] ∨ ['_', '_'] <+: r) (hr' : r' = [] ∨ ['_', '_'] <+: r') (h : p ++ r = q ++ r') : p = q := by
  have key : ∀ {p q r r' s : Ident}, Tidy q → (r = [] ∨ ['_', '_'] <+: r) → q = p ++ s → r = s ++ r' → s = [] := by
    intro p q r r' s hq hr hqs hrs
    cases s with
    | nil => rfl
    | cons c s =>
      rcases hr with rfl | ⟨t, rfl⟩
      · simp at hrs
      · simp only [List.cons_append, List.nil_append, List.cons.injEq] at hrs
        obtain ⟨rfl, hrs⟩ := hrs
        cases s with
        | nil =>
          refine absurd ?_ hq.2.2.1
          rw [hqs]
          exact List.getLast?_concat
        | cons d s =>
          simp only [List.cons_append, List.cons.injEq] at hrs
          obtain ⟨rfl, -⟩ := hrs
          exact absurd ⟨p, s, by rw [hqs]; simp⟩ hq.2.2.2.1
  rcases List.append_eq_append_iff.1 h with ⟨s, h1, h2⟩ | ⟨s, h1, h2⟩
  · have := key hq hr h1 h2
    subst this
    simpa using h1.symm
  · have := key hp hr' h1 h2
    subst this
    simpa using h1

theorem enc_start (l : List Ident) : enc l = [] ∨ ['_', '_'] <+: enc l := by
  cases l with
  | nil => exact .inl rfl
  | cons a l => exact .inr ⟨a ++ enc l, rfl⟩

theorem enc_inj : ∀ {l l' : List Ident}, (∀ p ∈ l, Tidy p) → (∀ p ∈ l', Tidy p) → enc l = enc l' → l = l'
  | [], [], _, _, _ => rfl
  | [], a :: l, _, _, h => by simp [enc] at h
  | a :: l, [], _, _, h => by simp [enc] at h
  | a :: l, b :: l', h1, h2, h => by
    simp only [enc, List.flatMap_cons, List.cons_append, List.cons.injEq, true_and] at h
    have e : a = b := tidy_split (h1 a (by simp)) (h2 b (by simp)) (enc_start l) (enc_start l') h
    subst e
    rw [enc_inj (fun p hp => h1 p (List.mem_cons_of_mem _ hp)) (fun p hp => h2 p (List.mem_cons_of_mem _ hp))
      (List.append_cancel_left h)]

/-- **C96, partial** A C++ program links, as far as the variables that register validators go, if its messages have
different classes, and the parts of the package and the class have no two underscores in a row and none at their ends.
Missing: other names, see `C96_double_underscore`. -/
theorem C96_links_partial (prog : List (List LinkMessage)) (hc : ((validated prog).map className).Nodup)
    (hp : ∀ m ∈ validated prog, m.package ≠ [] ∧ (∀ p ∈ m.package, Tidy p) ∧ Tidy (classBaseName m.path)) :
    Links prog := by
  have e : prog.flatMap variables = (validated prog).map staticVarName := by
    unfold validated
    clear hc hp
    induction prog with
    | nil => rfl
    | cons f prog ih =>
      rw [List.flatMap_cons, List.flatMap_cons, List.filter_append, List.map_append, ih]
      congr 1
      unfold variables
      congr 1
      apply List.filter_congr
      intro m _
      cases m.ignored <;> cases m.disabled <;> rfl
  unfold Links
  rw [e]
  unfold List.Nodup at hc ⊢
  rw [List.pairwise_map] at hc ⊢
  refine hc.imp_of_mem fun {x y} hx hy hne he => hne ?_
  have tidy : ∀ m ∈ validated prog, ∀ p ∈ parts m, Tidy p := by
    intro m hm p hp'
    rcases List.mem_append.1 hp' with h | h
    · exact (hp m hm).2.1 p h
    · rw [List.mem_singleton] at h
      subst h
      exact (hp m hm).2.2
  rw [var_enc x (hp x hx).1 (tidy x hx), var_enc y (hp y hy).1 (tidy y hy)] at he
  rw [class_parts x (hp x hx).1, class_parts y (hp y hy).1,
    enc_inj (tidy x hx) (tidy y hy) (List.append_cancel_left he)]

theorem base_join (n : Ident) : ∀ (ns : List Ident), classBaseName (n :: ns) = List.intercalate ['_'] (n :: ns) := by
  intro ns
  induction ns generalizing n with
  | nil => simp [classBaseName, List.intercalate]
  | cons m ns ih =>
    have h := ih (n ++ '_' :: m)
    simp only [classBaseName, List.foldl_cons] at h ⊢
    rw [h]
    cases ns <;> simp [List.intercalate, List.intersperse]

/-- **C96** The class that the variables and functions are named after is the one protoc generates: the names of the
enclosing messages and the message's own, joined by one underscore, in the namespace of the package. -/
theorem C96_class (m : LinkMessage) (hk : m.package ≠ []) (hp : m.path ≠ []) :
    className m = "::".toList ++ List.intercalate "::".toList (m.package ++ [List.intercalate ['_'] m.path]) := by
  have hb : classBaseName m.path = List.intercalate ['_'] m.path := by
    cases h : m.path with
    | nil => exact absurd h hp
    | cons n ns => exact base_join n ns
  have hj : ∀ (l : List Ident) (x : Ident), l ≠ [] →
      List.intercalate "::".toList (l ++ [x]) = List.intercalate "::".toList l ++ "::".toList ++ x := by
    intro l x
    induction l with
    | nil => intro h; exact absurd rfl h
    | cons y l ih =>
      intro _
      cases l with
      | nil => simp [List.intercalate, List.intersperse]
      | cons z l =>
        have := ih (by simp)
        simp only [List.intercalate, List.cons_append, List.intersperse_cons_cons, List.flatten_cons] at this ⊢
        rw [this]
        simp only [List.append_assoc]
  rw [hj _ _ hk, ← hb]
  simp only [className, packageName, List.append_assoc]

/-- The message `a.b.C`. -/
def msgC : LinkMessage := { package := ["a".toList, "b".toList], path := ["C".toList] }

/-- The message `a.b__C`. -/
def msgBC : LinkMessage := { package := ["a".toList], path := ["b__C".toList] }

/-- The message `a.b.C.D` -/
def msgD : LinkMessage := { package := ["a".toList, "b".toList], path := ["C".toList, "D".toList] }

/-- **C96** (divergence) The messages `a.b.C` and `a.b__C` have different classes, but one variable: a program with
both does not link. -/
theorem C96_double_underscore : ((validated [[msgC], [msgBC]]).map className).Nodup ∧ ¬ Links [[msgC], [msgBC]] := by
  unfold Links
  refine ⟨by decide +kernel, by decide +kernel⟩

example : className msgD = "::a::b::C_D".toList := C96_class msgD (by simp [msgD]) (by simp [msgD])

/-- The hypotheses of `C96_links_partial` are met. -/
example : Links [[msgC, msgD]] := by
  refine C96_links_partial _ (by decide +kernel) ?_
  have h : validated [[msgC, msgD]] = [msgC, msgD] := rfl
  rw [h]
  intro m hm
  simp only [List.mem_cons, List.not_mem_nil, or_false] at hm
  have t : ∀ s ∈ ["a".toList, "b".toList, "C".toList, "C_D".toList], Tidy s := by
    unfold Tidy
    decide +kernel
  rcases hm with rfl | rfl
  · exact ⟨by decide +kernel, fun p hp => t p (by simp [msgC] at hp ⊢; rcases hp with rfl | rfl <;> simp), t _ (by simp [msgC, classBaseName])⟩
  · exact ⟨by decide +kernel, fun p hp => t p (by simp [msgD] at hp ⊢; rcases hp with rfl | rfl <;> simp), t _ (by simp [msgD, classBaseName])⟩

/-! ### Macros -/

theorem snake_facts {c : Char} (h : isLow c = true ∨ c = '_') : isDig c = false ∧ isUp c = false ∧ c ≠ ' ' := by
  rcases h with h | rfl
  · exact ⟨(low_facts h).2.1, (low_facts h).2.2.1, by rintro rfl; rw [space_facts.1] at h; cases h⟩
  · decide

theorem words_snake {s : Ident} (h : LowerSnake s) : ∀ st, st ≠ .digits → words st s = s := by
  induction s with
  | nil => intro st hst; cases st <;> simp_all [words]
  | cons c s ih =>
    intro st hst
    have hd := (snake_facts (h c (by simp))).1
    have := ih fun x hx => h x (List.mem_cons_of_mem _ hx)
    cases st with
    | digits => exact absurd rfl hst
    | idle => rw [words]; split <;> rw [this _ (by simp)]
    | letter => rw [words, hd]; simp only [Bool.false_eq_true, if_false]; split <;> rw [this _ (by simp)]

theorem loop_snake {s : Ident} (h : LowerSnake s) : ∀ q, snakeLoop q s = s := by
  induction s with
  | nil => intro _; rfl
  | cons c s ih =>
    intro q
    have ih := ih fun x hx => h x (List.mem_cons_of_mem _ hx)
    have hc : caseChanges c s = false := by
      cases s with
      | nil => rfl
      | cons x s =>
        simp [caseChanges, (snake_facts (h c (by simp))).2.1, (snake_facts (h x (by simp))).2.1]
    rw [snakeLoop, hc, Bool.and_false, if_neg (by simp), ih, ih]
    rcases h c (by simp) with hl | rfl
    · rw [if_neg (by simp [sep_low hl])]
    · rfl

theorem screaming_snake {s : Ident} (h : LowerSnake s) : toScreamingSnake s = s.map upperOf := by
  unfold toScreamingSnake
  rw [words_snake h _ (by simp), trim_id, loop_snake h]
  · intro e
    exact (snake_facts (h _ (List.mem_of_mem_head? e))).2.2 rfl
  · intro e
    exact (snake_facts (h _ (List.mem_of_getLast? e))).2.2 rfl

theorem upperOf_toNat {c : Char} (h : isLow c = true) : (upperOf c).toNat = c.toNat - 32 := by
  rw [upperOf, if_pos h, toNat_ofNat]
  have := (low_iff c).1 h
  omega

theorem upper_inj {c d : Char} (hc : isLow c = true ∨ c = '_') (hd : isLow d = true ∨ d = '_')
    (h : upperOf c = upperOf d) : c = d := by
  have h' := congrArg Char.toNat h
  have u : (upperOf '_').toNat = 95 := by decide
  have ext : c.toNat = d.toNat → c = d := fun e => by rw [← Char.ofNat_toNat c, ← Char.ofNat_toNat d, e]
  rcases hc with hc | rfl <;> rcases hd with hd | rfl
  · rw [upperOf_toNat hc, upperOf_toNat hd] at h'
    have := (low_iff c).1 hc
    have := (low_iff d).1 hd
    exact ext (by omega)
  · rw [upperOf_toNat hc, u] at h'
    have := (low_iff c).1 hc
    omega
  · rw [upperOf_toNat hd, u] at h'
    have := (low_iff d).1 hd
    omega
  · rfl

theorem map_upper_inj : ∀ {s t : Ident}, LowerSnake s → LowerSnake t → s.map upperOf = t.map upperOf → s = t
  | [], [], _, _, _ => rfl
  | [], _ :: _, _, _, h => by simp at h
  | _ :: _, [], _, _, h => by simp at h
  | c :: s, d :: t, hs, ht, h => by
    simp only [List.map_cons, List.cons.injEq] at h
    rw [upper_inj (hs c (by simp)) (ht d (by simp)) h.1,
      map_upper_inj (fun x hx => hs x (by simp [hx])) (fun x hx => ht x (by simp [hx])) h.2]

theorem stem_proto {s : Ident} : Module.stem (s ++ ".proto".toList) = s := by
  unfold Module.stem
  simp [List.findIdx?_cons]

/-- The base name of a file in a directory, or in none. -/
theorem base_proto {dir s : Ident} (hd : dir = [] ∨ dir.getLast? = some '/') (h : LowerSnake s) :
    baseName (dir ++ s ++ ".proto".toList) = s := by
  have hs : ∀ c ∈ s ++ ".proto".toList, (c != '/') = true := by
    intro c hc
    rcases List.mem_append.1 hc with hc | hc
    · rcases h c hc with hl | rfl
      · have : c ≠ '/' := by
          rintro rfl
          revert hl
          decide
        simpa using this
      · rfl
    · exact (by decide : ∀ c ∈ ".proto".toList, (c != '/') = true) c hc
  have e : ((dir ++ s ++ ".proto".toList).reverse.takeWhile (· != '/')).reverse = s ++ ".proto".toList := by
    rw [List.append_assoc, List.reverse_append,
      List.takeWhile_append_of_pos (fun c hc => hs c (List.mem_reverse.1 hc))]
    have : dir.reverse.takeWhile (· != '/') = [] := by
      rcases hd with rfl | hd
      · rfl
      · rw [← List.head?_reverse] at hd
        cases hr : dir.reverse with
        | nil => rfl
        | cons a l => rw [hr] at hd; simp at hd; subst hd; rfl
    rw [this]
    simp
  unfold baseName
  rw [e, stem_proto]

/-- **C96, partial** The headers of two files of one package, in whatever directories, whose names without the
directory are different, of lower-case letters and underscores, define different macros.
Missing: other names, see `C96_macro_case`, and files of one name in two directories, see `C96_macro_same_base`. -/
theorem C96_macros_partial (package d1 d2 a b : Ident) (h1 : d1 = [] ∨ d1.getLast? = some '/')
    (h2 : d2 = [] ∨ d2.getLast? = some '/') (ha : LowerSnake a) (hb : LowerSnake b) (h : a ≠ b) :
    macroName package (d1 ++ a ++ ".proto".toList) ≠ macroName package (d2 ++ b ++ ".proto".toList) := by
  intro e
  unfold macroName at e
  rw [base_proto h1 ha, base_proto h2 hb, screaming_snake ha, screaming_snake hb] at e
  exact h (map_upper_inj ha hb (by simpa using e))

/-- The hypotheses of `C96_macros_partial` are met. -/
example : macroName "SHOP".toList ("api/".toList ++ "order_item".toList ++ ".proto".toList) ≠
    macroName "SHOP".toList ([] ++ "order".toList ++ ".proto".toList) :=
  C96_macros_partial _ _ _ _ _ (by decide +kernel) (by decide +kernel) (by unfold LowerSnake; decide +kernel)
    (by unfold LowerSnake; decide +kernel) (by decide +kernel)

example : macroName "SHOP".toList "api/order_item.proto".toList = "X_SHOP_ORDER_ITEM".toList := by decide +kernel

/-- **C96** (divergence) `fooBar.proto` and `foo_bar.proto`, or `foo1.proto` and `foo_1.proto`, define one macro: a
source that includes both headers lists the messages of only one. -/
theorem C96_macro_case (package : Ident) :
    macroName package "fooBar.proto".toList = macroName package "foo_bar.proto".toList ∧
      macroName package "foo1.proto".toList = macroName package "foo_1.proto".toList := by
  have h1 : toScreamingSnake (baseName "fooBar.proto".toList) = toScreamingSnake (baseName "foo_bar.proto".toList) := by
    decide +kernel
  have h2 : toScreamingSnake (baseName "foo1.proto".toList) = toScreamingSnake (baseName "foo_1.proto".toList) := by
    decide +kernel
  unfold macroName
  exact ⟨by rw [h1], by rw [h2]⟩

/-- **C96** (divergence) So do files of one name in two directories. -/
theorem C96_macro_same_base (package d1 d2 a : Ident) (h1 : d1 = [] ∨ d1.getLast? = some '/')
    (h2 : d2 = [] ∨ d2.getLast? = some '/') (ha : LowerSnake a) :
    macroName package (d1 ++ a ++ ".proto".toList) = macroName package (d2 ++ a ++ ".proto".toList) := by
  unfold macroName
  rw [base_proto h1 ha, base_proto h2 ha]

example : macroName "SHOP".toList ("v1/".toList ++ "order".toList ++ ".proto".toList) =
    macroName "SHOP".toList ("v2/".toList ++ "order".toList ++ ".proto".toList) :=
  C96_macro_same_base _ _ _ _ (by decide +kernel) (by decide +kernel) (by unfold LowerSnake; decide +kernel)

/-- **C96, partial** Files of one name, in the same directory or not, have different macros if their packages are
spelt differently in them. Missing: `C96_macro_parts`. -/
theorem C96_macro_packages_partial (p q d1 d2 a : Ident) (h1 : d1 = [] ∨ d1.getLast? = some '/')
    (h2 : d2 = [] ∨ d2.getLast? = some '/') (ha : LowerSnake a) (h : p ≠ q) :
    macroName p (d1 ++ a ++ ".proto".toList) ≠ macroName q (d2 ++ a ++ ".proto".toList) := by
  intro e
  unfold macroName at e
  rw [base_proto h1 ha, base_proto h2 ha] at e
  exact h (by simpa using e)

example : macroName "SHOP".toList ([] ++ "order".toList ++ ".proto".toList) ≠
    macroName "BANK".toList ([] ++ "order".toList ++ ".proto".toList) :=
  C96_macro_packages_partial _ _ _ _ _ (by decide +kernel) (by decide +kernel) (by unfold LowerSnake; decide +kernel) (by decide +kernel)

/-- **C96** (divergence) A part of the name can move from the file to the package: `b_c.proto` of package `a` and
`c.proto` of package `a.b` have one macro. -/
theorem C96_macro_parts : macroName "A".toList "b_c.proto".toList = macroName "A_B".toList "c.proto".toList := by
  decide +kernel

theorem inside_package : ∀ {ps : List Ident}, ps ≠ [] → ∀ n, Cpp.inside ps n = packageName ps ++ n
  | [], h, _ => (h rfl).elim
  | [p], _, n => by simp [Cpp.inside, packageName, List.intercalate]
  | p :: q :: ps, _, n => by
    have := inside_package (ps := q :: ps) (by simp) n
    rw [Cpp.inside, this]
    simp [packageName, List.intercalate, List.intersperse]

/-- **C96** In a program of files with packages, whose messages have different classes: every header declares what its
source defines; no function is defined twice; every function that a source registers is defined in it, and those it
defines but does not register are those of disabled messages; and the macro of a header lists just the classes there is
a function for. -/
theorem C96_functions (prog : List LinkFile) (hp : ∀ f ∈ prog, f.package ≠ [] ∧ ∀ m ∈ f.messages, m.package = f.package)
    (hc : ((prog.flatMap (·.messages)).map className).Nodup) :
    (prog.flatMap Cpp.defined).Nodup ∧ ∀ f ∈ prog,
      (∀ s, s ∈ Cpp.declared f ↔ s ∈ Cpp.defined f) ∧
      (∀ s ∈ Cpp.registered f, s ∈ Cpp.defined f) ∧
      (∀ s ∈ Cpp.defined f, s ∉ Cpp.registered f → ∃ m ∈ f.messages, m.disabled = true ∧ s.2 = className m) ∧
      (∀ c, c ∈ Cpp.listed f ↔ ∃ s ∈ Cpp.declared f, s.2 = c) ∧
      ∀ m ∈ f.messages, m.ignored = false → m.disabled = false → ∃ s ∈ Cpp.registered f, s.2 = className m := by
  refine ⟨?_, fun f hf => ⟨fun _ => Iff.rfl, ?_, ?_, ?_, ?_⟩⟩
  · have h : ((prog.flatMap Cpp.defined).map Prod.snd).Nodup := by
      refine List.Nodup.sublist ?_ hc
      clear hc hp
      induction prog with
      | nil => exact .slnil
      | cons f fs ih =>
        simp only [List.flatMap_cons, List.map_append]
        refine List.Sublist.append ?_ ih
        unfold Cpp.defined
        rw [List.map_map]
        exact List.Sublist.map _ List.filter_sublist
    unfold List.Nodup at h ⊢
    rw [List.pairwise_map] at h
    exact h.imp fun hne he => hne (congrArg Prod.snd he)
  · intro s hs
    obtain ⟨m, hm, rfl⟩ := List.mem_map.1 hs
    rw [List.mem_filter] at hm
    obtain ⟨hm, ho⟩ := hm
    simp only [Bool.and_eq_true] at ho
    refine List.mem_map.2 ⟨m, List.mem_filter.2 ⟨hm, ho.1⟩, ?_⟩
    rw [inside_package (hp f hf).1, (hp f hf).2 m hm]
  · intro s hs hn
    obtain ⟨m, hm, rfl⟩ := List.mem_map.1 hs
    rw [List.mem_filter] at hm
    obtain ⟨hm, ho⟩ := hm
    refine ⟨m, hm, ?_, rfl⟩
    cases hd : m.disabled with
    | true => rfl
    | false =>
      refine (hn (List.mem_map.2 ⟨m, List.mem_filter.2 ⟨hm, by simp [ho, hd]⟩, ?_⟩)).elim
      rw [inside_package (hp f hf).1, (hp f hf).2 m hm]
  · intro c
    simp only [Cpp.listed, Cpp.declared, List.mem_map]
    constructor
    · rintro ⟨m, hm, rfl⟩; exact ⟨_, ⟨m, hm, rfl⟩, rfl⟩
    · rintro ⟨_, ⟨m, hm, rfl⟩, rfl⟩; exact ⟨m, hm, rfl⟩
  · intro m hm hi hd
    exact ⟨_, List.mem_map.2 ⟨m, List.mem_filter.2 ⟨hm, by simp [hi, hd]⟩, rfl⟩, rfl⟩

/-- Two files of one package; the second message of the first is disabled, the third ignored. -/
def twoFiles : List LinkFile :=
  [{ package := ["a".toList, "b".toList],
     messages := [msgC, { msgD with disabled := true }, { package := ["a".toList, "b".toList], path := ["E".toList], ignored := true }] },
   { package := ["a".toList, "b".toList], messages := [{ package := ["a".toList, "b".toList], path := ["F".toList] }] }]

/-- C96's hypotheses are met; three functions are defined and two registered. -/
example : (twoFiles.flatMap Cpp.defined).Nodup ∧ (twoFiles.flatMap Cpp.defined).length = 3 ∧
    (twoFiles.flatMap Cpp.registered).length = 2 :=
  ⟨(C96_functions twoFiles (by decide) (by decide)).1, by decide, by decide⟩

example : Cpp.registered (twoFiles.headD ⟨[], []⟩) = [("::a::b::Validate".toList, "::a::b::C".toList)] := by decide

end PGV.Props.CppLink
