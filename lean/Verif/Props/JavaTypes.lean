import Verif.Spec.JavaTypes
import Verif.Props.CppNames

/-!
C90: the dictionary of Java class names of java/pgv-java-validation.
-/

set_option linter.unusedSimpArgs false

namespace PGV.Props
open PGV PGV.TypeMap PGV.Spec.JavaTypes
open PGV.Cpp (Ident isLow isUp isDig upperOf lowerOf)
open PGV.JavaNames (TypeTree NamedFile protocOuter protocCap protocLoop nameWithinAny nameWithin)

/-! ### The outer class -/

theorem lowerOf_same {c : Char} (h : isUp c = false) : lowerOf c = c := by
  simp [lowerOf, h]

theorem upperOf_same {c : Char} (h : isLow c = false) : upperOf c = c := by
  simp [upperOf, h]

theorem ascii_facts : ∀ n : Fin 128, let c := Char.ofNat n
    (isUp c = true → lowerOf c ≠ c ∧ isDig (lowerOf c) = false) ∧ (isLow c = true → isDig (upperOf c) = false) := by
  decide +kernel

theorem letter_ascii {c : Char} (h : isUp c = true ∨ isLow c = true) : c.toNat < 128 := by
  rcases h with h | h
  · simp only [isUp, decide_eq_true_eq, Char.le_def, UInt32.le_iff_toNat_le] at h
    have h2 : 'Z'.val.toNat = 90 := rfl
    have h3 : c.val.toNat = c.toNat := rfl
    omega
  · simp only [isLow, decide_eq_true_eq, Char.le_def, UInt32.le_iff_toNat_le] at h
    have h2 : 'z'.val.toNat = 122 := rfl
    have h3 : c.val.toNat = c.toNat := rfl
    omega

theorem up_lower {c : Char} (h : isUp c = true) : lowerOf c ≠ c ∧ isDig (lowerOf c) = false := by
  have := (ascii_facts ⟨c.toNat, letter_ascii (.inl h)⟩).1
  simp only [Char.ofNat_toNat] at this
  exact this h

theorem low_upper {c : Char} (h : isLow c = true) : isDig (upperOf c) = false := by
  have := (ascii_facts ⟨c.toNat, letter_ascii (.inr h)⟩).2
  simp only [Char.ofNat_toNat] at this
  exact this h

/-- Whether a capital comes where no word starts. -/
def inWord : Bool → Ident → Bool
  | _, [] => false
  | start, c :: t =>
    if isLow c then inWord false t else if isUp c then !start || inWord false t else inWord true t

/-- The dictionary names the outer class as protoc does unless there is a capital inside a word. -/
theorem upcase_camel (s : Ident) : ∀ first digit : Bool,
    upcaseAfterNumber digit (upperCamel first (invalidToUnderscores s)) = protocLoop (first || digit) s ↔
      inWord (first || digit) s = false := by
  induction s with
  | nil => intro first digit; simp [invalidToUnderscores, upperCamel, upcaseAfterNumber, protocLoop, inWord]
  | cons c t ih =>
    intro first digit
    have e : invalidToUnderscores (c :: t) =
        (if isDig c || isUp c || isLow c then c else '_') :: invalidToUnderscores t := rfl
    rw [e]
    by_cases hl : isLow c = true
    · obtain ⟨h1, h2, h3, -⟩ := low_facts hl
      simp only [hl, Bool.or_true, if_true, upperCamel, beq_iff_eq, h1, if_false, upcaseAfterNumber, protocLoop, inWord]
      have hd : isDig (if first = true then upperOf c else lowerOf c) = false := by
        split
        · exact low_upper hl
        · rw [lowerOf_same h3, h2]
      rw [hd]
      have := ih false false
      simp only [Bool.or_self] at this
      rw [← this, List.cons.injEq]
      have hc : (if digit = true then upperOf (if first = true then upperOf c else lowerOf c)
          else if first = true then upperOf c else lowerOf c) = (if (first || digit) = true then upperOf c else c) := by
        have hu : isLow (upperOf c) = false := by
          have : ∀ n : Fin 128, isLow (Char.ofNat n) = true → isLow (upperOf (Char.ofNat n)) = false := by decide +kernel
          have := this ⟨c.toNat, letter_ascii (.inr hl)⟩
          simp only [Char.ofNat_toNat] at this
          exact this hl
        cases first <;> cases digit <;> simp [lowerOf_same h3, upperOf_same hu]
      simp [hc]
    · simp only [Bool.not_eq_true] at hl
      by_cases hu : isUp c = true
      · obtain ⟨h1, h2, -⟩ := up_facts hu
        obtain ⟨h3, h4⟩ := up_lower hu
        simp only [hl, hu, Bool.or_true, Bool.true_or, if_true, upperCamel, beq_iff_eq, h1, if_false, upcaseAfterNumber,
          protocLoop, inWord, Bool.false_eq_true, upperOf_same hl]
        have hd : isDig (if first = true then c else lowerOf c) = false := by
          split
          · exact h2
          · exact h4
        rw [hd]
        have := ih false false
        simp only [Bool.or_self] at this
        have hlu : upperOf (lowerOf c) = c := by
          have : ∀ n : Fin 128, isUp (Char.ofNat n) = true → upperOf (lowerOf (Char.ofNat n)) = Char.ofNat n := by
            decide +kernel
          have := this ⟨c.toNat, letter_ascii (.inl hu)⟩
          simp only [Char.ofNat_toNat] at this
          exact this hu
        rw [List.cons.injEq, this]
        cases first <;> cases digit <;> simp [upperOf_same hl, hlu, h3]
      · simp only [Bool.not_eq_true] at hu
        by_cases hd : isDig c = true
        · obtain ⟨h1, -, -⟩ := dig_facts hd
          simp only [hl, hu, hd, Bool.or_true, Bool.true_or, if_true, upperCamel, beq_iff_eq, h1, if_false,
            upcaseAfterNumber, protocLoop, inWord, Bool.false_eq_true, upperOf_same hl, lowerOf_same hu, ite_self]
          have := ih false true
          simp only [Bool.false_or] at this
          rw [List.cons.injEq, this]
          simp
        · simp only [Bool.not_eq_true] at hd
          simp only [hl, hu, hd, Bool.or_self, Bool.false_eq_true, if_false, upperCamel, beq_self_eq_true, if_true,
            protocLoop, inWord]
          have := ih true digit
          simp only [Bool.true_or] at this
          exact this

theorem inWord_iff (s : Ident) : (inWord true s = true ↔ CapitalInWord s) ∧
    (inWord false s = true ↔ CapitalInWord s ∨ ∃ y r, s = y :: r ∧ isUp y = true) := by
  induction s with
  | nil => simp [inWord, CapitalInWord]
  | cons c t ih =>
    have hcons : CapitalInWord (c :: t) ↔ CapitalInWord t ∨
        ((isLow c = true ∨ isUp c = true) ∧ ∃ y r, t = y :: r ∧ isUp y = true) := by
      constructor
      · rintro ⟨a, x, y, r, e, hx, hy⟩
        cases a with
        | nil =>
          simp only [List.nil_append, List.cons.injEq] at e
          obtain ⟨rfl, rfl⟩ := e
          exact .inr ⟨hx, y, r, rfl, hy⟩
        | cons d a =>
          simp only [List.cons_append, List.cons.injEq] at e
          exact .inl ⟨a, x, y, r, e.2, hx, hy⟩
      · rintro (⟨a, x, y, r, e, hx, hy⟩ | ⟨hc, y, r, e, hy⟩)
        · exact ⟨c :: a, x, y, r, by rw [e]; rfl, hx, hy⟩
        · exact ⟨[], c, y, r, by rw [e]; rfl, hc, hy⟩
    rw [hcons]
    obtain ⟨i1, i2⟩ := ih
    by_cases hl : isLow c = true
    · obtain ⟨-, -, h3, -⟩ := low_facts hl
      simp only [inWord, hl, if_true, i2, true_or, true_and, List.cons.injEq]
      refine ⟨fun h => .inl h, ?_⟩
      rintro (h | ⟨y, r, ⟨rfl, -⟩, hy⟩)
      · exact h
      · rw [h3] at hy; cases hy
    · simp only [Bool.not_eq_true] at hl
      by_cases hu : isUp c = true
      · simp only [inWord, hl, hu, if_true, Bool.false_eq_true, if_false, Bool.not_true, Bool.false_or, i2, or_true,
          true_and, List.cons.injEq, Bool.not_false, Bool.true_or, true_iff]
        exact .inr ⟨c, t, ⟨rfl, rfl⟩, hu⟩
      · simp only [Bool.not_eq_true] at hu
        simp only [inWord, hl, hu, Bool.false_eq_true, if_false, i1, or_self, false_and, or_false, List.cons.injEq, true_and]
        refine ⟨fun h => .inl h, ?_⟩
        rintro (h | ⟨y, r, ⟨rfl, -⟩, hy⟩)
        · exact h
        · rw [hu] at hy; cases hy

/-- **C90** The dictionary takes the class of a file for the one that protoc makes out of the file's name exactly if no letter
of this name is a capital inside a word. -/
theorem C90_class_of_file (s : Ident) :
    upcaseAfterNumber false (upperCamel true (invalidToUnderscores s)) = protocCap s ↔ ¬ CapitalInWord s := by
  have := upcase_camel s true false
  simp only [Bool.or_false] at this
  rw [protocCap, this, ← (inWord_iff s).1, Bool.not_eq_true]

/-! ### The entries -/

theorem mem_addAll {pp : Ident} {enc jp : Option Ident} {m : PMsg} {x : Ident × Ident} : ∀ {ms : List PMsg}, m ∈ ms →
    x ∈ addTypes pp enc jp m → x ∈ addAll pp enc jp ms
  | [], h, _ => by cases h
  | m' :: ms, h, hx => by
    rw [addAll, List.mem_append]
    rcases List.mem_cons.1 h with rfl | h
    · exact .inl hx
    · exact .inr (mem_addAll h hx)

theorem addTypes_eq (pp : Ident) (enc jp : Option Ident) (m : PMsg) :
    addTypes pp enc jp m = (pp ++ '.' :: m.name, typeName m.name enc jp) ::
      (m.enums.map (fun e => (pp ++ '.' :: e, typeName e enc jp)) ++
        addAll (pp ++ '.' :: m.name) (some (textOf enc ++ '$' :: m.name)) jp m.nested) := by
  cases m
  rw [addTypes]
  rfl

theorem dollars (a b : Ident) (l : List Ident) : List.intercalate ['$'] (a :: b :: l) = a ++ '$' :: List.intercalate ['$'] (b :: l) := by
  simp [List.intercalate, List.intersperse]

theorem dollars_glue (a b : Ident) (l : List Ident) :
    List.intercalate ['$'] ((a ++ '$' :: b) :: l) = List.intercalate ['$'] (a :: b :: l) := by
  cases l with
  | nil => simp [List.intercalate, List.intersperse]
  | cons c l => rw [dollars, dollars, dollars]; simp

/-- A message at any depth is in the dictionary, under its full name. -/
theorem added {p : List Ident} {ms : List PMsg} (h : Inside p ms) : ∀ (pp o : Ident) (jp : Option Ident),
    (pp ++ p.flatMap (fun n => '.' :: n), join '.' jp (List.intercalate ['$'] (o :: p))) ∈ addAll pp (some o) jp ms := by
  induction h with
  | here m h =>
    intro pp o jp
    refine mem_addAll h ?_
    rw [addTypes_eq]
    simp [typeName, join, dollars, List.intercalate, List.intersperse]
  | deeper m h hp ih =>
    intro pp o jp
    refine mem_addAll h ?_
    rw [addTypes_eq]
    have := ih (pp ++ '.' :: m.name) (o ++ '$' :: m.name) jp
    rw [dollars_glue] at this
    simp only [List.flatMap_cons, textOf, Option.getD_some, List.mem_cons, List.mem_append]
    right; right
    simpa using this

theorem lookup_of_mem {l : List (Ident × Ident)} {k v : Ident} (hn : (l.map (·.1)).Nodup) (h : (k, v) ∈ l) :
    l.lookup k = some v := by
  induction l with
  | nil => cases h
  | cons e l ih =>
    obtain ⟨k', v'⟩ := e
    simp only [List.map_cons, List.nodup_cons] at hn
    rcases List.mem_cons.1 h with h1 | h1
    · cases h1
      simp
    · have hne : k ≠ k' := fun e => hn.1 (List.mem_map.2 ⟨(k, v), h1, e⟩)
      rw [List.lookup_cons, beq_false_of_ne hne]
      exact ih hn.2 h1

theorem typeMap_some {files : List PFile} {T : List (Ident × Ident)} (h : typeMap files = some T) :
    T = files.flatMap fileEntries ∧ (T.map (·.1)).Nodup := by
  unfold typeMap at h
  split at h
  · cases h
  · dsimp only at h
    split at h
    · rename_i hn
      cases h
      exact ⟨rfl, hn⟩
    · cases h

theorem package_dot (f : PFile) (x : Ident) :
    join '.' (javaPackage f) x = (if packageName f = [] then [] else packageName f ++ ['.']) ++ x := by
  unfold javaPackage emptyToNull
  have : f.javaPackage.getD (f.package.getD []) = packageName f := rfl
  rw [this]
  cases packageName f <;> simp [join]

theorem entries_inside {files : List PFile} {T : List (Ident × Ident)} (h : typeMap files = some T) {f : PFile}
    (hf : f ∈ files) {k v : Ident} (hkv : (k, v) ∈ addAll (protoPackage f) (enclosingClass f) (javaPackage f) f.msgs) :
    T.lookup k = some v := by
  obtain ⟨rfl, hn⟩ := typeMap_some h
  refine lookup_of_mem hn (List.mem_flatMap.2 ⟨f, hf, ?_⟩)
  rw [fileEntries, List.mem_append]
  exact .inr hkv

theorem fullName_eq (f : PFile) (p : List Ident) : fullName f p = protoPackage f ++ p.flatMap (fun n => '.' :: n) := by
  unfold fullName protoPackage
  cases f.package <;> rfl

theorem nameWithinAny_append (cls : Ident) (a b : List TypeTree) :
    nameWithinAny cls (a ++ b) = (nameWithinAny cls a || nameWithinAny cls b) := by
  induction a with
  | nil => simp [nameWithinAny]
  | cons t a ih => simp [nameWithinAny, ih, Bool.or_assoc]

theorem top_within {f : PFile} {cls : Ident} (h : cls ∈ f.enums ++ f.msgs.map PMsg.name ++ f.services) :
    (nameWithinAny cls (named f).types || f.services.any (· == cls)) = true := by
  simp only [List.mem_append] at h
  rcases h with (h | h) | h
  · have : nameWithinAny cls (f.enums.map (fun e => TypeTree.mk e [])) = true := by
      generalize f.enums = es at h
      induction es with
      | nil => cases h
      | cons e es ih =>
        simp only [List.map_cons, nameWithinAny, nameWithin, Bool.or_eq_true, beq_iff_eq]
        rcases List.mem_cons.1 h with rfl | h
        · exact .inl (.inl rfl)
        · exact .inr (ih h)
    simp [named, nameWithinAny_append, this]
  · have : nameWithinAny cls (treesOf f.msgs) = true := by
      generalize f.msgs = ms at h
      induction ms with
      | nil => cases h
      | cons m ms ih =>
        rw [treesOf, nameWithinAny, Bool.or_eq_true]
        simp only [List.map_cons, List.mem_cons] at h
        rcases h with h | h
        · left
          cases m
          rw [treeOf, nameWithin]
          simp only [PMsg.name] at h
          simp [h]
        · exact .inr (ih h)
    simp [named, nameWithinAny_append, this]
  · have : f.services.any (· == cls) = true := List.any_eq_true.2 ⟨cls, h, by simp⟩
    simp [this]

theorem outer_eq (f : PFile) (hb : f.outerOption = none → ¬ CapitalInWord (afterSlash f.path))
    (hc : f.outerOption = none → NoHiddenClash f) : outerClassname f = protocOuter (named f) := by
  unfold outerClassname protocOuter
  have e : (named f).outerOption = f.outerOption := rfl
  rw [e]
  cases ho : f.outerOption with
  | some o => rfl
  | none =>
    simp only []
    rw [(C90_class_of_file _).2 (hb ho)]
    have hbase : (named f).base = afterSlash f.path := rfl
    have hserv : (named f).services = f.services := rfl
    rw [hbase, hserv]
    unfold appendOuterClassSuffix
    have key : (f.enums.any (· == protocCap (afterSlash f.path)) ||
          f.msgs.any (fun m => m.name == protocCap (afterSlash f.path)) ||
          f.services.any (· == protocCap (afterSlash f.path))) =
        (nameWithinAny (protocCap (afterSlash f.path)) (named f).types ||
          f.services.any (· == protocCap (afterSlash f.path))) := by
      have hmem : (f.enums.any (· == protocCap (afterSlash f.path)) ||
          f.msgs.any (fun m => m.name == protocCap (afterSlash f.path)) ||
          f.services.any (· == protocCap (afterSlash f.path))) = true ↔
            protocCap (afterSlash f.path) ∈ f.enums ++ f.msgs.map PMsg.name ++ f.services := by
        simp [or_assoc]
      refine Bool.eq_iff_iff.2 ⟨fun h => top_within (hmem.1 h), fun h => ?_⟩
      rw [hmem]
      rcases Bool.or_eq_true _ _ ▸ h with h | h
      · exact hc ho h
      · simp only [List.any_eq_true, beq_iff_eq] at h
        obtain ⟨x, hx, rfl⟩ := h
        simp [hx]
    rw [key]

/-- **C90, partial** When the dictionary of a set of files can be made, it gives the Java class of every message in them at any
depth, if the file has one outer class that is named by an option or after a file name without capitals inside words, and
no nested type is called like it. With `java_multiple_files` it does for top-level messages. Missing: other files, see
`C90_class_of_file` and `C90_clash_overlooked`; nested messages under `java_multiple_files`, see `C90_null_class`; sets of
files without a dictionary, see `C90_enum_twice`. -/
theorem C90_found_partial (files : List PFile) (T : List (Ident × Ident)) (h : typeMap files = some T) (f : PFile)
    (hf : f ∈ files) (p : List Ident) (hp : Inside p f.msgs)
    (hone : f.multiple = false → f.outerOption = none → ¬ CapitalInWord (afterSlash f.path) ∧ NoHiddenClash f)
    (htop : f.multiple = true → ∃ n, p = [n]) :
    lookup T (fullName f p) = some (binaryName f p) := by
  unfold lookup
  cases hm : f.multiple with
  | false =>
    refine entries_inside h hf ?_
    have hadd := added hp (protoPackage f) (outerClassname f) (javaPackage f)
    rw [package_dot, outer_eq f (fun ho => (hone hm ho).1) (fun ho => (hone hm ho).2)] at hadd
    have : enclosingClass f = some (protocOuter (named f)) := by
      rw [← outer_eq f (fun ho => (hone hm ho).1) (fun ho => (hone hm ho).2)]
      simp [enclosingClass, hm]
    rw [this]
    simpa [fullName_eq, binaryName, hm] using hadd
  | true =>
    obtain ⟨n, rfl⟩ := htop hm
    refine entries_inside h hf ?_
    cases hp with
    | here m hmem =>
      refine mem_addAll hmem ?_
      rw [addTypes_eq]
      have : enclosingClass f = none := by simp [enclosingClass, hm]
      rw [this]
      simp only [List.mem_cons, Prod.mk.injEq]
      left
      refine ⟨by simp [fullName_eq], ?_⟩
      rw [typeName, join, package_dot]
      simp [binaryName, hm, List.intercalate, List.intersperse]
    | deeper m hmem hp' => cases hp'

/-- **C90, negation** With `java_multiple_files`, the class given for a nested message is in a class called `null`. -/
theorem C90_null_class (files : List PFile) (T : List (Ident × Ident)) (h : typeMap files = some T) (f : PFile)
    (hf : f ∈ files) (hm : f.multiple = true) (n : Ident) (p : List Ident) (hp : Inside (n :: p) f.msgs) (hne : p ≠ []) :
    lookup T (fullName f (n :: p)) =
      some ((if packageName f = [] then [] else packageName f ++ ['.']) ++ List.intercalate ['$'] ("null".toList :: n :: p)) := by
  unfold lookup
  refine entries_inside h hf ?_
  generalize hq : n :: p = q at hp
  cases hp with
  | here m hmem =>
    simp only [List.cons.injEq] at hq
    exact absurd hq.2 hne
  | deeper m hmem hp' =>
    simp only [List.cons.injEq] at hq
    obtain ⟨rfl, rfl⟩ := hq
    refine mem_addAll hmem ?_
    rw [addTypes_eq]
    have : enclosingClass f = none := by simp [enclosingClass, hm]
    rw [this]
    simp only [List.mem_cons, List.mem_append]
    right; right
    have hadd := added hp' (protoPackage f ++ '.' :: m.name) ("null".toList ++ '$' :: m.name) (javaPackage f)
    rw [dollars_glue, package_dot] at hadd
    simpa [fullName_eq, textOf] using hadd

/-- **C90, negation** So it is never the class of that message. -/
theorem C90_null_wrong (files : List PFile) (T : List (Ident × Ident)) (h : typeMap files = some T) (f : PFile)
    (hf : f ∈ files) (hm : f.multiple = true) (n : Ident) (p : List Ident) (hp : Inside (n :: p) f.msgs) (hne : p ≠ []) :
    lookup T (fullName f (n :: p)) ≠ some (binaryName f (n :: p)) := by
  rw [C90_null_class files T h f hf hm n p hp hne]
  intro he
  have he := congrArg List.length (List.append_cancel_left (Option.some.inj he))
  rw [dollars, hm] at he
  simp at he
  omega

/-- **C90, negation** An enum of a message is entered without the name of its message, so the types of two messages that
both have an enum `e` cannot be put in one dictionary, whatever else is there. -/
theorem C90_enum_twice (files : List PFile) (f : PFile) (hf : f ∈ files) (a b : PMsg) (l m r : List PMsg)
    (hab : f.msgs = l ++ a :: m ++ b :: r) (e : Ident) (ha : e ∈ a.enums) (hb : e ∈ b.enums) :
    typeMap files = none := by
  cases h : typeMap files with
  | none => rfl
  | some T =>
    exfalso
    obtain ⟨rfl, hn⟩ := typeMap_some h
    have hsub : List.Sublist (fileEntries f) (files.flatMap fileEntries) := by
      clear h hn
      induction files with
      | nil => cases hf
      | cons g gs ih =>
        rw [List.flatMap_cons]
        rcases List.mem_cons.1 hf with rfl | hf
        · exact List.sublist_append_left _ _
        · exact (ih hf).trans (List.sublist_append_right _ _)
    have hn := hn.sublist (hsub.map _)
    rw [fileEntries, List.map_append] at hn
    have hn := (List.nodup_append.1 hn).2.1
    have happ : ∀ (x y : List PMsg), addAll (protoPackage f) (enclosingClass f) (javaPackage f) (x ++ y) =
        addAll (protoPackage f) (enclosingClass f) (javaPackage f) x ++
          addAll (protoPackage f) (enclosingClass f) (javaPackage f) y := by
      intro x y
      induction x with
      | nil => rw [addAll]; rfl
      | cons c x ih => rw [List.cons_append, addAll, addAll, ih, List.append_assoc]
    rw [hab, happ, List.map_append] at hn
    have hne := (List.nodup_append.1 hn).2.2
    have key : ∀ c : PMsg, e ∈ c.enums → ∀ cs, c ∈ cs → protoPackage f ++ '.' :: e ∈
        (addAll (protoPackage f) (enclosingClass f) (javaPackage f) cs).map (·.1) := by
      intro c hc cs hcs
      refine List.mem_map.2 ⟨(protoPackage f ++ '.' :: e, typeName e (enclosingClass f) (javaPackage f)), ?_, rfl⟩
      refine mem_addAll hcs ?_
      rw [addTypes_eq]
      simp only [List.mem_cons, List.mem_append, List.mem_map]
      exact .inr (.inl ⟨e, hc, rfl⟩)
    exact hne _ (key a ha _ (by simp)) _ (key b hb _ (by simp)) rfl

mutual
theorem keys_of (pp : Ident) (enc jp : Option Ident) : ∀ m : PMsg,
    (addTypes pp enc jp m).map (·.1) = (pathsOf m).map fun p => pp ++ p.flatMap fun n => '.' :: n
  | .mk n es ns => by
    rw [addTypes, pathsOf]
    simp [keys_in (pp ++ '.' :: n) _ jp ns, Function.comp_def]
theorem keys_in (pp : Ident) (enc jp : Option Ident) : ∀ ms : List PMsg,
    (addAll pp enc jp ms).map (·.1) = (pathsIn ms).map fun p => pp ++ p.flatMap fun n => '.' :: n
  | [] => by rw [addAll, pathsIn]; rfl
  | m :: ms => by
    rw [addAll, pathsIn, List.map_append, List.map_append, keys_of pp enc jp m, keys_in pp enc jp ms]
end

/-- **C90** A dictionary can be made exactly when there is a file and no two types have one name, if the enums of messages
are counted as if declared beside them. -/
theorem C90_builds_iff (files : List PFile) :
    (∃ T, typeMap files = some T) ↔ files ≠ [] ∧ (files.flatMap shiftedNames).Nodup := by
  have key : (files.flatMap fileEntries).map (·.1) = files.flatMap shiftedNames := by
    induction files with
    | nil => rfl
    | cons f fs ih =>
      rw [List.flatMap_cons, List.flatMap_cons, List.map_append, ih]
      congr 1
      rw [fileEntries, shiftedNames, List.map_append, keys_in, List.map_append]
      simp [fullName_eq, Function.comp_def]
  unfold typeMap
  rw [← key]
  cases files with
  | nil => simp
  | cons f fs =>
    simp only [List.isEmpty_cons, Bool.false_eq_true, if_false, ne_eq, reduceCtorEq, not_false_eq_true, true_and]
    split <;> simp_all

mutual
theorem inside_of : ∀ (m : PMsg), NoInnerEnums m → ∀ ms : List PMsg, m ∈ ms → ∀ p ∈ pathsOf m, Inside p ms
  | .mk n es ns, h, ms, hm, p, hp => by
    rw [NoInnerEnums] at h
    obtain ⟨rfl, h⟩ := h
    rw [pathsOf] at hp
    simp only [List.map_nil, List.nil_append, List.mem_cons, List.mem_map] at hp
    rcases hp with rfl | ⟨q, hq, rfl⟩
    · exact .here (.mk n [] ns) hm
    · exact .deeper (.mk n [] ns) hm (inside_in ns h q hq)
theorem inside_in : ∀ (ms : List PMsg), NoInnerEnumsIn ms → ∀ p ∈ pathsIn ms, Inside p ms
  | [], _, p, hp => by rw [pathsIn] at hp; cases hp
  | m :: ms, h, p, hp => by
    rw [NoInnerEnumsIn] at h
    rw [pathsIn, List.mem_append] at hp
    rcases hp with hp | hp
    · exact inside_of m h.1 (m :: ms) (by simp) p hp
    · have := inside_in ms h.2 p hp
      cases this with
      | here m' h' => exact .here m' (List.mem_cons_of_mem _ h')
      | deeper m' h' hp' => exact .deeper m' (List.mem_cons_of_mem _ h') hp'
end

/-- **C90** Then every name that is looked up and found is that of a message at some depth or of a top-level enum. -/
theorem C90_no_others (files : List PFile) (T : List (Ident × Ident)) (h : typeMap files = some T)
    (hne : ∀ f ∈ files, NoInnerEnumsIn f.msgs) (k v : Ident) (hk : lookup T k = some v) :
    ∃ f ∈ files, (∃ p, Inside p f.msgs ∧ k = fullName f p) ∨ ∃ e ∈ f.enums, k = fullName f [e] := by
  obtain ⟨rfl, _⟩ := typeMap_some h
  have hmem : k ∈ (files.flatMap fileEntries).map (·.1) := by
    unfold lookup at hk
    generalize files.flatMap fileEntries = l at hk
    induction l with
    | nil => cases hk
    | cons e l ih =>
      rw [List.lookup_cons] at hk
      cases hb : k == e.1 with
      | true => simp [beq_iff_eq.1 hb]
      | false => rw [hb] at hk; exact List.mem_map.2 (by simpa using .inr (by simpa using ih hk))
  rw [List.map_flatMap, List.mem_flatMap] at hmem
  obtain ⟨f, hf, hk⟩ := hmem
  refine ⟨f, hf, ?_⟩
  rw [fileEntries, List.map_append, keys_in, List.mem_append] at hk
  rcases hk with hk | hk
  · simp only [List.map_map, List.mem_map, Function.comp_def] at hk
    obtain ⟨e, he, rfl⟩ := hk
    exact .inr ⟨e, he, by simp [fullName_eq]⟩
  · obtain ⟨p, hp, rfl⟩ := List.mem_map.1 hk
    exact .inl ⟨p, inside_in f.msgs (hne f hf) p hp, (fullName_eq f p).symm⟩

/-- **C90** What an Any holds is looked up by the rest of its type URL: for a message that the dictionary has, this is the
class that the dictionary gives. -/
theorem C90_unpacks (T : List (Ident × Ident)) (name : Ident) :
    classToLoad T ("type.googleapis.com/".toList ++ name) = lookup T ('.' :: name) := by
  have h : (urlStart.isPrefixOf ("type.googleapis.com/".toList ++ name)) = true := by
    rw [List.isPrefixOf_iff_prefix]
    exact List.prefix_append _ _
  unfold classToLoad
  rw [h]
  rfl

/-- **C90** No class is loaded for any other type URL: it starts with the address of the registry, and the rest is a name
that the dictionary has. -/
theorem C90_unpacks_iff (T : List (Ident × Ident)) (typeUrl cls : Ident) :
    classToLoad T typeUrl = some cls ↔
      ∃ name, typeUrl = "type.googleapis.com/".toList ++ name ∧ lookup T ('.' :: name) = some cls := by
  constructor
  · intro h
    by_cases hp : urlStart.isPrefixOf typeUrl = true
    · obtain ⟨name, hn⟩ := List.isPrefixOf_iff_prefix.1 hp
      have e : typeUrl = "type.googleapis.com/".toList ++ name := hn.symm
      refine ⟨name, e, ?_⟩
      rw [e, C90_unpacks] at h
      exact h
    · unfold classToLoad at h
      rw [if_neg hp] at h
      cases h
  · rintro ⟨name, rfl, h⟩
    rw [C90_unpacks]
    exact h

/-! ### Cases -/

/-- `dir/foo_bar.proto`: a message with two inside each other and a top-level enum. -/
def typeFile : PFile where
  path := "dir/foo_bar".toList
  package := some "p.q".toList
  javaPackage := none
  outerOption := none
  multiple := false
  enums := ["Color".toList]
  msgs := [.mk "Outer".toList [] [.mk "Mid".toList [] [.mk "In".toList [] []]], .mk "Other".toList [] []]
  services := []

def typePath : List Ident := ["Outer".toList, "Mid".toList, "In".toList]

theorem typePath_inside (f : PFile) (h : f.msgs = typeFile.msgs) : Inside typePath f.msgs := by
  rw [h]
  exact .deeper (.mk "Outer".toList [] [.mk "Mid".toList [] [.mk "In".toList [] []]]) List.mem_cons_self
    (.deeper (.mk "Mid".toList [] [.mk "In".toList [] []]) List.mem_cons_self
      (.here (.mk "In".toList [] []) List.mem_cons_self))

example : ∃ T, typeMap [typeFile] = some T := (C90_builds_iff _).2 ⟨by simp, by decide +kernel⟩
example : (typeMap [typeFile]).bind (lookup · ".p.q.Outer.Mid.In".toList) = some "p.q.FooBar$Outer$Mid$In".toList := by
  decide +kernel
example : fullName typeFile typePath = ".p.q.Outer.Mid.In".toList ∧
    binaryName typeFile typePath = "p.q.FooBar$Outer$Mid$In".toList := by decide +kernel
example : ¬ CapitalInWord (afterSlash typeFile.path) ∧ NoHiddenClash typeFile := by
  refine ⟨?_, ?_⟩
  · rw [← C90_class_of_file]
    decide +kernel
  · unfold NoHiddenClash
    decide +kernel
example : NoInnerEnumsIn typeFile.msgs :=
  ⟨⟨rfl, ⟨rfl, ⟨rfl, trivial⟩, trivial⟩, trivial⟩, ⟨rfl, trivial⟩, trivial⟩
example : Inside typePath { typeFile with multiple := true }.msgs := typePath_inside _ rfl
example : (typeMap [{ typeFile with multiple := true }]).bind (lookup · ".p.q.Outer.Mid.In".toList) =
    some "p.q.null$Outer$Mid$In".toList := by decide +kernel
example : (typeMap [typeFile]).bind (classToLoad · "type.googleapis.com/p.q.Outer".toList) =
    some "p.q.FooBar$Outer".toList := by decide +kernel
example : (typeMap [typeFile]).bind (classToLoad · "types.elsewhere.org//p.q.Outer".toList) = none := by decide +kernel
example : CapitalInWord "fooBar".toList := ⟨"fo".toList, 'o', 'B', "ar".toList, rfl, by decide, by decide⟩

/-- A message with an enum nested in it. -/
def withEnum (n e : String) : PMsg := .mk n.toList [e.toList] []

example : typeMap [{ typeFile with msgs := [withEnum "A" "Kind", withEnum "B" "Kind"] }] = none :=
  C90_enum_twice _ _ List.mem_cons_self (withEnum "A" "Kind") (withEnum "B" "Kind") [] [] [] rfl "Kind".toList
    (by simp [withEnum, PMsg.enums]) (by simp [withEnum, PMsg.enums])

/-- **C90, negation** A type nested in a message that is called like the outer class is overlooked: protoc makes the class
`FooOuterClass`, the dictionary says `Foo`. -/
theorem C90_clash_overlooked : ∃ (f : PFile) (p : List Ident) (T : List (Ident × Ident)), typeMap [f] = some T ∧
    Inside p f.msgs ∧ lookup T (fullName f p) = some "Foo$Bar".toList ∧ binaryName f p = "FooOuterClass$Bar".toList := by
  refine ⟨{ typeFile with path := "foo".toList, package := none, msgs := [.mk "Bar".toList [] [.mk "Foo".toList [] []]] },
    ["Bar".toList], _, rfl, .here (.mk "Bar".toList [] [.mk "Foo".toList [] []]) (by simp), ?_, ?_⟩ <;> decide +kernel

/-- **C90, negation** An enum nested in a message is entered with a name that is not its own, and a class that does not exist. -/
theorem C90_inner_enum_lost : ∃ (f : PFile) (T : List (Ident × Ident)), f.msgs = [withEnum "A" "Kind"] ∧
    typeMap [f] = some T ∧ lookup T ".p.q.A.Kind".toList = none ∧
    lookup T ".p.q.Kind".toList = some "p.q.FooBar$Kind".toList := by
  refine ⟨{ typeFile with msgs := [withEnum "A" "Kind"] }, _, rfl, rfl, ?_, ?_⟩ <;> decide +kernel

end PGV.Props
