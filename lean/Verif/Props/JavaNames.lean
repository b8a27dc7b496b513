import Verif.Lemmas.JavaClass
import Verif.Props.JavaCompile
import Verif.Props.Index

/-!
Names in generated Java code: accessors (C87), classes (C88, C64) and constants (C76).
-/

set_option linter.unusedSimpArgs false

namespace PGV.Props
open PGV PGV.JavaNames PGV.Spec PGV.Spec.JavaNames
open PGV.Cpp (Ident isLow isUp isDig upperOf lowerOf upperCamel pggLoop)

/-! ### C87 -/

theorem inTheWay_all {forbidden : Ident → Bool} {others : List NamedField} {f : NamedField} :
    (∀ g ∈ others, ¬ InTheWay forbidden f g) ↔ ∀ g ∈ others, clashes forbidden f g = false := by
  refine forall_congr' fun g => forall_congr' fun _ => ?_
  rw [← Bool.not_eq_true, clashes, clashesOneWay, clashesOneWay]
  simp only [InTheWay, Bool.or_eq_true, Bool.and_eq_true, decide_eq_true_eq, beq_iff_eq, or_assoc]

/-- **C87, partial** The generated validator reads a field with the getter protoc declares for it exactly when protoc
neither takes the field's name for one of its own nor gives the field another name because of its neighbours. (`forbidden`
is protoc's list of such names; `others` are the other fields of the message.) Missing: those fields, see
`C87_class`, `C87_count` and `C87_list`. -/
theorem C87_getter_iff_partial (forbidden : Ident → Bool) (others : List NamedField) (f : NamedField)
    (hi : Identifier f.name) :
    fieldAccessor f = protocGetter forbidden others f ↔
      forbidden f.name = false ∧ ∀ g ∈ others, ¬ InTheWay forbidden f g := by
  rw [inTheWay_all, ← methodName_iff, fieldAccessor_eq hi, protocGetter]
  constructor
  · intro h
    rw [List.append_assoc, List.append_assoc] at h
    exact (List.append_cancel_right (List.append_cancel_left h)).symm
  · intro h
    rw [h]
    rfl

/-- **C87, partial** The same for the method that says whether a message field is set. -/
theorem C87_has_iff_partial (forbidden : Ident → Bool) (others : List NamedField) (f : NamedField)
    (hi : Identifier f.name) :
    hasAccessor f = protocHas forbidden others f ↔
      forbidden f.name = false ∧ ∀ g ∈ others, ¬ InTheWay forbidden f g := by
  rw [inTheWay_all, ← methodName_iff, hasAccessor, camel_eq _ (ident_plain hi), protocHas]
  constructor
  · intro h
    exact (List.append_cancel_left h).symm
  · intro h
    rw [h]

/-- **C87, partial** The method that says which member of a oneof is set. Missing: names with a lower-case letter
right after a digit (`C87_oneof_digit`). -/
theorem C87_oneof_partial (o : Ident) (hi : Identifier o) (hd : ¬ DigitThenLow o) :
    caseAccessor o = protocCaseAccessor o := by
  rw [caseAccessor, protocCaseAccessor, toCamel_eq hi]
  refine digitLow_false o false ?_
  intro a v r e hv
  refine ⟨fun _ => rfl, fun y hy => ?_⟩
  cases hg : isDig y with
  | false => rfl
  | true =>
    refine absurd ⟨a.dropLast, y, v, r, ?_, hg, hv⟩ hd
    obtain ⟨b, rfl⟩ := List.getLast?_eq_some_iff.1 hy
    rw [e, List.dropLast_concat, List.append_assoc]
    rfl

/-- **C87, negation** A field called `class`: protoc's getter is `getClass_`. -/
theorem C87_class (forbidden : Ident → Bool) (h : forbidden "class".toList = true) (n : Nat) :
    fieldAccessor ⟨"class".toList, n, .one⟩ = "getClass".toList ∧
      protocGetter forbidden [] ⟨"class".toList, n, .one⟩ = "getClass_".toList := by
  refine ⟨rfl, ?_⟩
  simp only [protocGetter, protocMethodName, protocFieldCap, h]
  rfl

/-- **C87, negation** A repeated field `foo` beside a field `foo_count`: protoc writes their numbers into the names of
both getters. -/
theorem C87_count :
    let foo : NamedField := ⟨"foo".toList, 1, .list⟩
    let count : NamedField := ⟨"foo_count".toList, 2, .one⟩
    let forbidden : Ident → Bool := fun n => n == "class".toList
    fieldAccessor foo = "getFooList".toList ∧ protocGetter forbidden [count] foo = "getFoo1List".toList ∧
      fieldAccessor count = "getFooCount".toList ∧ protocGetter forbidden [foo] count = "getFooCount2".toList := by
  intro foo count forbidden
  refine ⟨by decide, by decide, by decide, by decide⟩

/-- **C87, negation** Likewise for a map `foo` beside a field `foo_list`. -/
theorem C87_list :
    let foo : NamedField := ⟨"foo".toList, 1, .map⟩
    let list : NamedField := ⟨"foo_list".toList, 2, .one⟩
    let forbidden : Ident → Bool := fun n => n == "class".toList
    fieldAccessor foo = "getFooMap".toList ∧ protocGetter forbidden [list] foo = "getFoo1Map".toList ∧
      fieldAccessor list = "getFooList".toList ∧ protocGetter forbidden [foo] list = "getFooList2".toList := by
  intro foo list forbidden
  refine ⟨by decide, by decide, by decide, by decide⟩

/-- **C87, negation** A oneof called `choice_2fa`. -/
theorem C87_oneof_digit : caseAccessor "choice_2fa".toList = "getChoice2faCase".toList ∧
    protocCaseAccessor "choice_2fa".toList = "getChoice2FaCase".toList := by decide

/-- Fields and a oneof that meet the hypotheses, with digits and underscores in their names. -/
example : let f : NamedField := ⟨"a1b2c_3d".toList, 1, .map⟩
    let g : NamedField := ⟨"fooBAR".toList, 2, .one⟩
    let forbidden : Ident → Bool := fun n => n == "class".toList
    Identifier f.name ∧ (forbidden f.name = false ∧ ∀ x ∈ [g], ¬ InTheWay forbidden f x) ∧
      fieldAccessor f = "getA1B2C3DMap".toList ∧ Identifier "kind_1_of".toList ∧ digitLow false "kind_1_of".toList = false := by
  intro f g forbidden
  refine ⟨?_, ⟨by decide, inTheWay_all.2 (by decide)⟩, by decide, ?_, by decide⟩ <;> (unfold Identifier; decide)

/-! ### C88 -/

/-- Whether some two neighbours in a name are as given. -/
def neighbours (p q : Char → Bool) : Ident → Bool
  | x :: y :: r => (p x && q y) || neighbours p q (y :: r)
  | _ => false

theorem neighbours_of {p q : Char → Bool} : ∀ (a : Ident) {s : Ident} {x y : Char} {r : Ident}, s = a ++ x :: y :: r →
    p x = true → q y = true → neighbours p q s = true
  | [], _, _, _, _, e, hx, hy => by subst e; simp [neighbours, hx, hy]
  | [c], _, x, y, r, e, hx, hy => by subst e; simp [neighbours, hx, hy]
  | c :: d :: a, _, x, y, r, e, hx, hy => by
    subst e
    have := neighbours_of (d :: a) (s := d :: (a ++ x :: y :: r)) rfl hx hy
    simp [neighbours, this]

theorem plain_name {s : Ident} (h1 : neighbours isLow isUp s = false) (h2 : neighbours isUp isUp s = false) :
    ¬ LoneLower s ∧ ¬ UpperPair s := by
  constructor
  · rintro ⟨a, v, x, r, e, hv, hx, _⟩
    rw [neighbours_of a e hv hx] at h1
    cases h1
  · rintro ⟨a, x, y, r, e, hx, hy⟩
    rw [neighbours_of a e hx hy] at h2
    cases h2

/-- **C88, partial** The generator knows the outer class of a file by the name protoc gives it. Missing: names of files in
which a single lower-case letter runs into upper-case ones (`C88_lone_lower`), and files with a nested type called like
the outer class (`C88_nested_name`). -/
theorem C88_outer_class_partial (f : NamedFile) (hm : f.multiple = false) (hl : f.outerOption = none → ¬ LoneLower f.base)
    (hn : f.outerOption = none → nameWithinAny (protocCap f.base) f.types = true →
      (∃ t ∈ f.types, t.name = protocCap f.base) ∨ protocCap f.base ∈ f.services) :
    classNameFile f = protocOuter f := by
  unfold classNameFile protocOuter
  cases ho : f.outerOption with
  | some o => simp [hm]
  | none =>
    simp only [sanitize_eq _ (clean_of_noLone (hl ho)), appendOuterClassName]
    have hsub : ∀ ts : List TypeTree, ts.any (fun t => t.name == protocCap f.base) = true →
        nameWithinAny (protocCap f.base) ts = true := by
      intro ts
      induction ts with
      | nil => simp
      | cons t ts ih =>
        intro h
        rw [nameWithinAny, Bool.or_eq_true]
        simp only [List.any_cons, Bool.or_eq_true] at h
        rcases h with h | h
        · left
          cases t
          simp only [TypeTree.name] at h
          rw [nameWithin, h, Bool.true_or]
        · exact .inr (ih h)
    have : (f.types.any (fun t => t.name == protocCap f.base) || f.services.any (· == protocCap f.base)) =
        (nameWithinAny (protocCap f.base) f.types || f.services.any (· == protocCap f.base)) := by
      cases hs : f.services.any (· == protocCap f.base) with
      | true => simp
      | false =>
        simp only [Bool.or_false]
        refine Bool.eq_iff_iff.2 ⟨hsub _, fun h => ?_⟩
        rcases hn ho h with ⟨t, ht, he⟩ | he
        · exact List.any_eq_true.2 ⟨t, ht, by simpa using he⟩
        · have : f.services.any (· == protocCap f.base) = true := List.any_eq_true.2 ⟨_, he, by simp⟩
          rw [hs] at this
          cases this
    rw [this]

/-- **C88, negation** The file `aB.proto`: the generator writes `Ab` for the class `AB`. -/
theorem C88_lone_lower :
    let f : NamedFile := ⟨"aB".toList, none, false, [], []⟩
    classNameFile f = "Ab".toList ∧ protocOuter f = "AB".toList := by decide

/-- **C88, negation** The file `foo.proto` with a message `Foo` nested in another one: the generator writes `Foo` for the
class `FooOuterClass`. -/
theorem C88_nested_name :
    let f : NamedFile := ⟨"foo".toList, none, false, [.mk "Bar".toList [.mk "Foo".toList []]], []⟩
    classNameFile f = "Foo".toList ∧ protocOuter f = "FooOuterClass".toList := by decide

/-- A file that meets the hypotheses: a top-level message is called like the outer class. -/
example : let f : NamedFile := ⟨"route_v2beta".toList, none, false,
      [.mk "RouteV2Beta".toList [.mk "Match".toList []], .mk "Vhost".toList []], []⟩
    ¬ LoneLower f.base ∧ (∃ t ∈ f.types, t.name = protocCap f.base) ∧
      classNameFile f = "RouteV2BetaOuterClass".toList := by
  intro f
  exact ⟨(plain_name (by decide) (by decide)).1, ⟨_, List.mem_cons_self, by decide⟩, by decide +kernel⟩

/-- **C88, partial** With `java_multiple_files`, the validator of a message is called after the message. Missing: messages
whose name has a lower-case letter at its beginning or after a digit (`C88_renamed`), or the word "Underscore". -/
theorem C88_message_class_partial (n : Ident) (hi : Identifier n) (hs : ¬ StartsLow n)
    (hu : ∀ a b, n ≠ a ++ "Underscore".toList ++ b) : classNameMessage n = n :=
  classNameMessage_eq hi hs hu

/-- **C88, negation** A message whose name begins with a lower-case letter never is. -/
theorem C88_renamed (c : Char) (t : Ident) (h : isLow c = true) : classNameMessage (c :: t) ≠ c :: t := by
  obtain ⟨x, r, e, hx⟩ := classNameMessage_low (t := t) h
  rw [e]
  intro he
  exact hx (List.cons.inj he).1

theorem pggLoop_id : ∀ (n : Ident) (cap : Bool), Identifier n → settled cap n = true →
    (∀ a v r, n = a ++ '_' :: v :: r → isLow v = false) → pggLoop cap n = n
  | [], _, _, _, _ => rfl
  | c :: t, cap, hi, hs, hu => by
    simp only [settled, Bool.and_eq_true] at hs
    have ih : ∀ cap', settled cap' t = true → pggLoop cap' t = t := fun cap' h =>
      pggLoop_id t cap' (fun x hx => hi x (by simp [hx])) h (fun a v r e => hu (c :: a) v r (by simp [e]))
    have mono : settled (isDig c) t = true → settled false t = true := by
      cases t with
      | nil => simp [settled]
      | cons x r => simp only [settled, Bool.and_eq_true]; exact fun h => ⟨by simp, h.2⟩
    rcases hi c (by simp) with hl | hup | hd | rfl
    · have : cap = false := by simpa [hl] using hs.1
      subst this
      simp [pggLoop, hl, ih false (mono hs.2)]
    · simp [pggLoop, up_facts hup, upperOf_up hup, ih false (mono hs.2)]
    · have := hs.2
      rw [hd] at this
      simp [pggLoop, dig_facts hd, hd, ih true this]
    · have hnext : (t.head?.map isLow).getD false = false := by
        cases t with
        | nil => rfl
        | cons v r => simpa using hu [] v r rfl
      have hu' : upperOf '_' = '_' := by decide
      have h1 : isLow '_' = false := by decide
      have h2 : isDig '_' = false := by decide
      simp [pggLoop, h1, h2, hnext, hu', ih false (mono hs.2)]

theorem upperCamel_id {n : Ident} (hi : Identifier n) (hs : ¬ StartsLow n) (h0 : n.head? ≠ some '_')
    (hu : ∀ a v r, n = a ++ '_' :: v :: r → isLow v = false) : upperCamel n = n := by
  cases n with
  | nil => rfl
  | cons c t =>
    rw [upperCamel, if_neg (by simpa using h0)]
    exact pggLoop_id _ _ hi ((settled_startsLow _).2 hs) hu

/-- **C88, partial** With `java_multiple_files`, the class a validator instantiates for its own message is the class
declared in the file. Missing: names with an underscore at the beginning or before a lower-case letter
(`C88_instantiated`), and those of `C88_message_class_partial`. -/
theorem C88_instantiates_partial (n : Ident) (hi : Identifier n) (hs : ¬ StartsLow n)
    (hu : ∀ a b, n ≠ a ++ "Underscore".toList ++ b) (h0 : n.head? ≠ some '_')
    (h_ : ∀ a v r, n = a ++ '_' :: v :: r → isLow v = false) : simpleName [n] = classNameMessage n := by
  rw [classNameMessage_eq hi hs hu, simpleName, List.foldl_nil, upperCamel_id hi hs h0 h_]

/-- **C88, negation** A message with the word "Underscore" in its name may lose it. -/
theorem C88_underscore_word : classNameMessage "FooUnderscoreUnderscoreUnderscoreBar".toList = "Foo_Bar".toList := by
  decide +kernel

/-- **C88, negation** The message `Foo_bar`: `new FooBarValidator()` in a class called `Foo_barValidator`. -/
theorem C88_instantiated : classNameMessage "Foo_bar".toList = "Foo_bar".toList ∧
    simpleName ["Foo_bar".toList] = "FooBar".toList := by decide +kernel

/-- A message name of letters and digits that Java would spell the same. -/
def CamelName (n : Ident) : Prop :=
  n ≠ [] ∧ (∀ c ∈ n, isLow c = true ∨ isUp c = true ∨ isDig c = true) ∧ ¬ StartsLow n

theorem camel_identifier {n : Ident} (h : CamelName n) : Identifier n := by
  intro c hc
  rcases h.2.1 c hc with h | h | h
  · exact .inl h
  · exact .inr (.inl h)
  · exact .inr (.inr (.inl h))

theorem camel_noUnder {n : Ident} (h : CamelName n) : '_' ∉ n := by
  intro hm
  rcases h.2.1 _ hm with h | h | h <;> revert h <;> decide

theorem settled_join : ∀ (a : Ident) (cap : Bool) (b : Ident), settled cap a = true → settled true b = true →
    settled cap (a ++ '_' :: b) = true
  | [], cap, b, _, hb => by
    have h1 : isLow '_' = false := by decide
    have h2 : isDig '_' = false := by decide
    cases b with
    | nil => simp [settled, h1]
    | cons c t =>
      simp only [settled, Bool.and_eq_true] at hb
      simp [settled, h1, h2, hb.2]
  | c :: a, cap, b, ha, hb => by
    simp only [settled, Bool.and_eq_true, List.cons_append] at ha ⊢
    exact ⟨ha.1, settled_join a _ b ha.2 hb⟩

/-- The names of a path, with an underscore between each two. -/
def joined : Ident → List Ident → Ident
  | n, [] => n
  | n, m :: path => n ++ '_' :: joined m path

theorem foldl_joined : ∀ (path : List Ident) (acc : Ident), Identifier acc → settled true acc = true → acc.head? ≠ some '_' →
    acc ≠ [] → (∀ a v r, acc = a ++ '_' :: v :: r → isLow v = false) → acc.getLast? ≠ some '_' →
    (∀ n ∈ path, CamelName n) →
    path.foldl (fun a b => if (b.head?.map isLow).getD false then upperCamel a ++ upperCamel b
      else upperCamel a ++ ['_'] ++ upperCamel b) acc = joined acc path
  | [], acc, _, _, _, _, _, _, _ => rfl
  | n :: path, acc, hi, hs, h0, hne, hu, hl, hp => by
    have hn := hp n (by simp)
    obtain ⟨c, t, rfl⟩ : ∃ c t, n = c :: t := by
      cases n with
      | nil => exact absurd rfl hn.1
      | cons c t => exact ⟨c, t, rfl⟩
    have hns : settled true (c :: t) = true := (settled_startsLow _).2 hn.2.2
    have hcl : isLow c = false := by
      simp only [settled, Bool.and_eq_true] at hns
      simpa using hns.1
    have h1 : upperCamel acc = acc := upperCamel_id hi ((settled_startsLow _).1 hs) h0 hu
    have hnu := camel_noUnder hn
    have h2 : upperCamel (c :: t) = c :: t := by
      refine upperCamel_id (camel_identifier hn) hn.2.2 ?_ ?_
      · simp only [List.head?_cons, ne_eq, Option.some.injEq]
        intro e
        exact hnu (by simp [e])
      · intro a v r e
        exact absurd (by rw [e]; simp) hnu
    have hcat : acc ++ ['_'] ++ (c :: t) = acc ++ '_' :: c :: t := by simp
    rw [List.foldl_cons, if_neg (by simp [hcl]), h1, h2, hcat]
    rw [foldl_joined path (acc ++ '_' :: c :: t) ?_ (settled_join _ _ _ hs hns) ?_ (by simp) ?_ ?_
      (fun m hm => hp m (by simp [hm]))]
    · cases path with
      | nil => simp [joined]
      | cons m path => simp [joined]
    · intro x hx
      rcases List.mem_append.1 hx with hx | hx
      · exact hi x hx
      · rcases List.mem_cons.1 hx with rfl | hx
        · exact .inr (.inr (.inr rfl))
        · exact camel_identifier hn x hx
    · cases acc with
      | nil => exact absurd rfl hne
      | cons x y => simpa using h0
    · intro a v r e
      rcases List.append_eq_append_iff.1 e with ⟨a', ha, hb⟩ | ⟨c', ha, hb⟩
      · cases a' with
        | nil =>
          simp only [List.nil_append, List.cons.injEq] at hb
          rw [← hb.2.1]
          exact hcl
        | cons x a' =>
          simp only [List.cons_append, List.cons.injEq] at hb
          exact absurd (by rw [hb.2]; simp) hnu
      · cases c' with
        | nil =>
          simp only [List.nil_append, List.cons.injEq] at hb
          rw [hb.2.1]
          exact hcl
        | cons x c' =>
          simp only [List.cons_append, List.cons.injEq] at hb
          obtain ⟨rfl, hb⟩ := hb
          cases c' with
          | nil => exact absurd (by rw [ha]; simp) hl
          | cons y c' =>
            simp only [List.cons_append, List.cons.injEq] at hb
            rw [hb.1]
            exact hu a y c' ha
    · rw [List.getLast?_append]
      simp only [List.getLast?_cons_cons]
      intro e
      have : (c :: t).getLast? = some '_' := by
        cases hg : (c :: t).getLast? with
        | none => simp at hg
        | some y => rw [hg] at e; simpa using e
      exact hnu (List.mem_of_getLast? this)

theorem simpleName_joined {n : Ident} {path : List Ident} (hn : CamelName n) (hp : ∀ m ∈ path, CamelName m) :
    simpleName (n :: path) = joined n path := by
  have hnu := camel_noUnder hn
  have h0 : n.head? ≠ some '_' := fun e => hnu (List.mem_of_head? e)
  have hu : ∀ a v r, n = a ++ '_' :: v :: r → isLow v = false := fun a v r e => absurd (by rw [e]; simp) hnu
  rw [simpleName, upperCamel_id (camel_identifier hn) hn.2.2 h0 hu]
  exact foldl_joined path n (camel_identifier hn) ((settled_startsLow _).2 hn.2.2) h0 hn.1 hu
    (fun e => hnu (List.mem_of_getLast? e)) hp

theorem joined_inj : ∀ (p q : List Ident) (n m : Ident), (∀ x ∈ n :: p, '_' ∉ x) → (∀ x ∈ m :: q, '_' ∉ x) →
    joined n p = joined m q → n = m ∧ p = q := by
  have first : ∀ (n m r s : Ident), '_' ∉ n → '_' ∉ m → n ++ '_' :: r = m ++ '_' :: s → n = m ∧ r = s := by
    intro n
    induction n with
    | nil =>
      intro m r s _ hm h
      cases m with
      | nil => simpa using h
      | cons x m =>
        simp only [List.nil_append, List.cons_append, List.cons.injEq] at h
        exact absurd (by rw [← h.1]; simp) hm
    | cons x n ih =>
      intro m r s hn hm h
      cases m with
      | nil =>
        simp only [List.nil_append, List.cons_append, List.cons.injEq] at h
        exact absurd (by rw [h.1]; simp) hn
      | cons y m =>
        simp only [List.cons_append, List.cons.injEq] at h
        obtain ⟨rfl, h⟩ := h
        obtain ⟨rfl, rfl⟩ := ih m r s (fun e => hn (by simp [e])) (fun e => hm (by simp [e])) h
        exact ⟨rfl, rfl⟩
  intro p
  induction p with
  | nil =>
    intro q n m hn hm h
    cases q with
    | nil => exact ⟨h, rfl⟩
    | cons x q =>
      simp only [joined] at h
      exact absurd (by rw [h]; simp) (hn n (by simp))
  | cons x p ih =>
    intro q n m hn hm h
    cases q with
    | nil =>
      simp only [joined] at h
      exact absurd (by rw [← h]; simp) (hm m (by simp))
    | cons y q =>
      simp only [joined] at h
      obtain ⟨rfl, h'⟩ := first _ _ _ _ (hn n (by simp)) (hm m (by simp)) h
      obtain ⟨rfl, rfl⟩ := ih q x y (fun z hz => hn z (by simp [hz])) (fun z hz => hm z (by simp [hz])) h'
      exact ⟨rfl, rfl⟩

/-- **C88, partial** Different messages of a file, at any depth, have validator classes of different names. Missing:
names with underscores (`C88_same_class`), and those Java spells differently. -/
theorem C88_distinct_partial (p q : List Ident) (hp : p ≠ []) (hq : q ≠ []) (hpc : ∀ n ∈ p, CamelName n)
    (hqc : ∀ n ∈ q, CamelName n) (h : simpleName p = simpleName q) : p = q := by
  cases p with
  | nil => exact absurd rfl hp
  | cons n p =>
    cases q with
    | nil => exact absurd rfl hq
    | cons m q =>
      rw [simpleName_joined (hpc n (by simp)) (fun x hx => hpc x (by simp [hx])),
        simpleName_joined (hqc m (by simp)) (fun x hx => hqc x (by simp [hx]))] at h
      obtain ⟨rfl, rfl⟩ := joined_inj p q n m (fun x hx => camel_noUnder (hpc x hx)) (fun x hx => camel_noUnder (hqc x hx)) h
      rfl

/-- **C88, negation** A message `B` inside a message `A`, and a message `A_B` beside it: two classes `A_BValidator`. -/
theorem C88_same_class : simpleName ["A".toList, "B".toList] = simpleName ["A_B".toList] := by decide

theorem camelName_of {n : Ident} (h0 : n ≠ []) (h1 : n.all (fun c => isLow c || isUp c || isDig c) = true)
    (h2 : settled true n = true) : CamelName n := by
  refine ⟨h0, ?_, (settled_startsLow _).1 h2⟩
  intro c hc
  have := List.all_eq_true.1 h1 c hc
  simpa [or_assoc] using this

/-- Names that meet the hypotheses, with digits and several capitals. -/
example : CamelName "HTTPRoute2X".toList ∧ CamelName "Match".toList ∧
    simpleName ["HTTPRoute2X".toList, "Match".toList] = "HTTPRoute2X_Match".toList ∧
    classNameMessage "HTTPRoute2X".toList = "HTTPRoute2X".toList :=
  ⟨camelName_of (by decide) (by decide) (by decide), camelName_of (by decide) (by decide) (by decide), by decide +kernel,
    by decide +kernel⟩

/-! ### C64 with the generator's own names -/

/-- **C64, partial** With the names the generator really gives its classes: reflection finds the validator of a message
under `java_multiple_files` when the enclosing top-level message is called like a Java class. -/
theorem C64_named_partial (f : Java.JFile) (loadClass : String → Option (Java.ValidatorClass (List String)))
    (hload : Loads loadClass (Java.emitted (fun s => String.ofList (classNameMessage s.toList)) f))
    (p : List String) (hp : Within p f.msgs)
    (hs : ∀ n, p.head? = some n → Identifier n.toList ∧ ¬ StartsLow n.toList ∧
      ∀ a b, n.toList ≠ a ++ "Underscore".toList ++ b) :
    Java.reflectiveValidatorFor loadClass (f.classOf p) = some (some p) := by
  refine C64_reflection_finds_partial _ f loadClass hload p hp ?_
  intro _ n hn
  obtain ⟨h1, h2, h3⟩ := hs n hn
  rw [classNameMessage_eq h1 h2 h3, String.ofList_toList]

/-- A file that meets the hypotheses. -/
example : let f : Java.JFile := 
        { pkg := "p", outer := "O", multiple := true, msgs := [.mk "A" true [.mk "b" false []], .mk "C" false []] }
    Loads (fun c => (Java.emitted (fun s => String.ofList (classNameMessage s.toList)) f).lookup c)
        (Java.emitted (fun s => String.ofList (classNameMessage s.toList)) f) ∧ Within ["A", "b"] f.msgs ∧
      CamelName "A".toList := by
  refine ⟨?_, .nested (List.mem_cons_self) (.top List.mem_cons_self), camelName_of (by decide) (by decide) (by decide)⟩
  intro e he
  have hA : classNameMessage "A".toList = "A".toList := by decide +kernel
  have hC : classNameMessage "C".toList = "C".toList := by decide +kernel
  simp only [Java.emitted, if_true, List.map_cons, List.map_nil, List.mem_cons, List.not_mem_nil, or_false, hA, hC,
    Java.JMsg.name, String.ofList_toList] at he ⊢
  have h1 : ("p.CValidator" == "p.AValidator") = false := by decide
  rcases he with rfl | rfl
  · simp [List.lookup]
  · simp [List.lookup, Java.qualify, h1]

/-- **C64, negation** With `java_multiple_files`, the validator of a message whose name begins with a lower-case letter is
never found. -/
theorem C64_lower_not_found (c : Char) (t : List Char) (h : isLow c = true) :
    let sanitize : String → String := fun s => String.ofList (classNameMessage s.toList)
    let n := String.ofList (c :: t)
    let f : Java.JFile := { pkg := "p", outer := "O", multiple := true, msgs := [.mk n false []] }
    Java.reflectiveValidatorFor (fun c => (Java.emitted sanitize f).lookup c) (f.classOf [n]) = none := by
  intro sanitize n f
  refine (C64_renamed_not_found sanitize n ?_).2
  intro he
  have := congrArg String.toList he
  simp only [sanitize, n, String.toList_ofList] at this
  exact C88_renamed c t h this

/-! ### C76: the names of constants -/

/-- The text of a constant's name. -/
def nameText (n : Java.CName) : Ident := constantText n.field.toList n.index.toList n.rule.toList

theorem constant_tails : ∀ i ∈ constantPlaces, ∀ r ∈ constantRules,
    (words .idle (i ++ '_' :: r)).getLast? ≠ some ' ' ∧ words .idle (i ++ '_' :: r) ≠ [] := by decide +kernel

theorem constant_suffixes : ∀ i ∈ constantPlaces, ∀ r ∈ constantRules, ∀ i' ∈ constantPlaces, ∀ r' ∈ constantRules,
    ('_' :: (snakeLoop true (words .idle (i ++ '_' :: r))).map upperOf).isSuffixOf
      ('_' :: (snakeLoop true (words .idle (i' ++ '_' :: r'))).map upperOf) = true → i = i' ∧ r = r' := by decide +kernel

/-- Two constants have the same name only if they are for the same rule in the same place, of fields spelled alike. -/
theorem constantText_inj {f f' i i' r r' : Ident} (hf : ' ' ∉ f) (hf' : ' ' ∉ f') (hi : i ∈ constantPlaces)
    (hi' : i' ∈ constantPlaces) (hr : r ∈ constantRules) (hr' : r' ∈ constantRules)
    (h : constantText f i r = constantText f' i' r') : spelled f = spelled f' ∧ i = i' ∧ r = r' := by
  obtain ⟨a1, a2⟩ := constant_tails i hi r hr
  obtain ⟨b1, b2⟩ := constant_tails i' hi' r' hr'
  rw [constantText_eq hf a1 a2, constantText_eq hf' b1 b2] at h
  have hir : i = i' ∧ r = r' := by
    have s1 : ('_' :: (snakeLoop true (words .idle (i ++ '_' :: r))).map upperOf) <:+
        spelled f' ++ '_' :: (snakeLoop true (words .idle (i' ++ '_' :: r'))).map upperOf := ⟨spelled f, h⟩
    have s2 : ('_' :: (snakeLoop true (words .idle (i' ++ '_' :: r'))).map upperOf) <:+
        spelled f' ++ '_' :: (snakeLoop true (words .idle (i' ++ '_' :: r'))).map upperOf := ⟨spelled f', rfl⟩
    rcases List.suffix_or_suffix_of_suffix s1 s2 with hs | hs
    · exact constant_suffixes i hi r hr i' hi' r' hr' (List.isSuffixOf_iff_suffix.2 hs)
    · obtain ⟨e1, e2⟩ := constant_suffixes i' hi' r' hr' i hi r hr (List.isSuffixOf_iff_suffix.2 hs)
      exact ⟨e1.symm, e2.symm⟩
  obtain ⟨rfl, rfl⟩ := hir
  exact ⟨List.append_cancel_right h, rfl, rfl⟩

theorem no_pairs : ∀ (s : Ident) (p : Bool), (∀ a x y r, s = a ++ x :: y :: r → isUp x = true → isUp y = false) →
    (p = true → ∀ c t, s = c :: t → isUp c = false) → underscoreBetweenUpper p s = s
  | [], _, _, _ => rfl
  | c :: t, p, h, hp => by
    have hc : (p && isUp c) = false := by
      cases p with
      | false => rfl
      | true => simp [hp rfl c t rfl]
    rw [underscoreBetweenUpper, hc, if_neg (by simp), no_pairs t (isUp c) (fun a x y r e => h (c :: a) x y r (by simp [e]))]
    intro hu x r e
    exact h [] c x r (by simp [e]) hu

/-- Fields spelled alike in constants have the same Java name. -/
theorem spelled_cap {f : Ident} (hi : Identifier f) (hl : ¬ LoneLower f) (hu : ¬ UpperPair f) :
    protocLoop true ((spelled f).map lowerOf) = protocCap f := by
  have hlow : ∀ c : Char, lowerOf (upperOf c) = lowerOf c := by
    intro c
    by_cases hc : isLow c = true
    · have hn : (upperOf c).toNat = c.toNat - 32 := by
        have := (low_iff c).1 hc
        rw [upperOf, if_pos hc, toNat_ofNat (by omega)]
      have hup : isUp (upperOf c) = true := by
        have := (low_iff c).1 hc
        rw [up_iff, hn]
        omega
      rw [lowerOf_other (low_facts hc).2.2.1, lowerOf, if_pos hup, hn]
      have := (low_iff c).1 hc
      rw [show c.toNat - 32 + 32 = c.toNat by omega, Char.ofNat_toNat]
    · rw [upperOf, if_neg hc]
  have h := snake_loop f hi false .idle true true true true (clean_of_noLone hl) (fun _ => .inl rfl) (by simp) (by
    cases f with
    | nil => trivial
    | cons x r => simp [Ready])
  rw [no_pairs f false ?_ (by simp)] at h
  · rw [spelled, List.map_map, protocCap, ← h]
    congr 1
    refine List.map_congr_left fun c _ => hlow c
  · intro a x y r e hx
    cases hy : isUp y with
    | false => rfl
    | true => exact absurd ⟨a, x, y, r, e, hx, hy⟩ hu

/-- **C76** In the text of the generated class, too, no constant is declared twice, if the fields have different Java
names and no name has two upper-case letters in a row or a single lower-case letter that runs into upper-case ones.
Missing: other names, see `C76_same_constant`. -/
theorem C76_constant_names_partial (isPrint : Nat → Bool) (d : MsgDesc) (ht : JavaTyped d)
    (hi : ∀ f, FieldOf d f → Identifier f.name.toList ∧ ¬ LoneLower f.name.toList ∧ ¬ UpperPair f.name.toList)
    (hn : ∀ f g, FieldOf d f → FieldOf d g → protocCap f.name.toList = protocCap g.name.toList → f.name = g.name) :
    ((Java.classCode isPrint d).decls.map fun x => nameText x.name).Nodup := by
  have hdist : ∀ f ∈ Go.allFields d, Java.Distinct f.name ["", "Key", "Value"] (Java.fieldCode isPrint f).decls := by
    intro f hf
    have hf := mem_allFields.1 hf
    exact Java.fieldCode_distinct isPrint (ht.suits f hf _ _ .top) (ht.elems f hf)
  have hnames : ((Go.allFields d).map (·.name)).Nodup := by
    have := ht.names
    rwa [Go.allFields, List.map_append, List.map_flatMap]
  have hnodup := Java.nodup_flatMap (isPrint := isPrint) _ hnames hdist
  have hmem : ∀ x ∈ (Java.classCode isPrint d).decls, ∃ f, FieldOf d f ∧ x.name.field = f.name ∧
      x.name.index.toList ∈ constantPlaces ∧ x.name.rule.toList ∈ constantRules := by
    intro x hx
    obtain ⟨f, hf, hx⟩ := List.mem_flatMap.1 hx
    have hd := hdist f hf
    exact ⟨f, mem_allFields.1 hf, hd.field x hx, List.mem_map_of_mem (hd.index x hx), List.mem_map_of_mem (hd.rule x hx)⟩
  have hcomp : (Java.classCode isPrint d).decls.map (fun x => nameText x.name) =
      ((Java.classCode isPrint d).decls.map (·.name)).map nameText := by
    rw [List.map_map]; rfl
  rw [hcomp, List.Nodup, List.pairwise_map]
  refine List.Pairwise.imp_of_mem ?_ hnodup
  intro a b ha hb hne he
  obtain ⟨x, hx, rfl⟩ := List.mem_map.1 ha
  obtain ⟨y, hy, rfl⟩ := List.mem_map.1 hb
  obtain ⟨f, hf, hxf, hxi, hxr⟩ := hmem x hx
  obtain ⟨g, hg, hyf, hyi, hyr⟩ := hmem y hy
  obtain ⟨f1, f2, f3⟩ := hi f hf
  obtain ⟨g1, g2, g3⟩ := hi g hg
  have nosp : ∀ {s : Ident}, Identifier s → ' ' ∉ s := by
    intro s h hm
    rcases h _ hm with h | h | h | h <;> revert h <;> decide
  unfold nameText at he
  rw [hxf, hyf] at he
  obtain ⟨h1, h2, h3⟩ := constantText_inj (nosp f1) (nosp g1) hxi hyi hxr hyr he
  have hcap : protocCap f.name.toList = protocCap g.name.toList := by
    rw [← spelled_cap f1 f2 f3, ← spelled_cap g1 g2 g3, h1]
  have hfg := hn f g hf hg hcap
  apply hne
  have e1 : x.name.field = y.name.field := by rw [hxf, hyf, hfg]
  have e2 : x.name.index = y.name.index := String.toList_inj.1 h2
  have e3 : x.name.rule = y.name.rule := String.toList_inj.1 h3
  cases hxn : x.name
  cases hyn : y.name
  simp_all

/-- **C76, negation** The fields `foo_bar` and `fooBAR` with a list each: both lists are called `FOO_BAR__IN`. Their
getters, `getFooBar` and `getFooBAR`, are not confused. -/
theorem C76_same_constant :
    constantText "foo_bar".toList [] "In".toList = "FOO_BAR__IN".toList ∧
    constantText "fooBAR".toList [] "In".toList = "FOO_BAR__IN".toList ∧
    protocCap "foo_bar".toList = "FooBar".toList ∧ protocCap "fooBAR".toList = "FooBAR".toList := by decide

/-- A message that meets the hypotheses. -/
example : JavaTyped javaRoute ∧
    (∀ f, FieldOf javaRoute f → Identifier f.name.toList ∧ ¬ LoneLower f.name.toList ∧ ¬ UpperPair f.name.toList) ∧
    (∀ f g, FieldOf javaRoute f → FieldOf javaRoute g → protocCap f.name.toList = protocCap g.name.toList →
      f.name = g.name) := by
  have one : ∀ n : String, n.toList.all (fun c => isLow c || isUp c || isDig c || c == '_') = true →
      neighbours isLow isUp n.toList = false → neighbours isUp isUp n.toList = false →
      Identifier n.toList ∧ ¬ LoneLower n.toList ∧ ¬ UpperPair n.toList := by
    intro n h1 h2 h3
    refine ⟨?_, plain_name h2 h3⟩
    intro c hc
    have := List.all_eq_true.1 h1 c hc
    simpa [or_assoc] using this
  refine ⟨javaRoute_typed, ?_, ?_⟩
  · refine javaRoute_fields ?_ ?_ ?_ ?_ ?_ <;> exact one _ (by decide) (by decide) (by decide)
  · have key : ∀ f, FieldOf javaRoute f → ∀ g, FieldOf javaRoute g →
        protocCap f.name.toList = protocCap g.name.toList → f.name = g.name := by
      refine javaRoute_fields ?_ ?_ ?_ ?_ ?_ <;> refine javaRoute_fields ?_ ?_ ?_ ?_ ?_ <;>
        first | (intro _; rfl) | (intro h; revert h; decide)
    exact fun f g hf hg => key f hf g hg

end PGV.Props
