import Verif.Lemmas.JavaMsg
import Verif.Props.Strings
import Verif.Props.Numbers

/-!
C16, C41-C43, C48, C60-C63: the generated Java validators and their agreement with Go.
-/

set_option linter.unusedSimpArgs false

namespace PGV.Props
open PGV PGV.Spec PGV.Checker
open PGV.Go (Env accepts_iff checked_num checked_string checked_enum)
open PGV.Java (JEnv javaAccepts_iff javaAccepts_scalar scalarTpl_ok numTpl_ok)

/-! ### Fixtures -/

/-- Java libraries in which nothing parses and no pattern matches, with the clock of
`Fixtures.env`. -/
def jenv : JEnv where
  nowMs := 1600000000000
  isPrint := fun _ => true
  matches_ := fun _ _ => false
  email := fun _ => false
  domain := fun _ => false
  ip := fun _ => false
  ipv4 := fun _ => false
  ipv6 := fun _ => false
  uri := fun _ => none
  other := fun _ => .ok ()
  order := fun l => l
  order_perm := fun l => List.Perm.refl l
  printed := fun f => "0xc000123456 " ++ f ++ " 0xc000123457 <nil> 0xc000123458 <nil>"

theorem only_notIgnored (f : FieldDesc) : NotIgnored (Fixtures.only f) "M" := by
  intro d h
  cases h
  rfl

/-! ### C16 -/

/-- **C16** Java accepts exactly the same strings as UUIDs as Go, whatever their bytes. -/
theorem C16_java_agrees (E : Env) (J : JEnv) (S : Schema) (typ : String) (f : FieldDesc)
    (h : OnlyField S typ f) (hi : NotIgnored S typ) (m : Option MessageRules) (hT : f.typ = .one .string)
    (hr : f.rules = .mk m (.string { wellKnown := some (.uuid true) })) (s : Bytes) :
    JavaAccepts J S typ f (.sc (.str s)) ↔ Accepts E S typ f (.sc (.str s)) := by
  have hty : f.rules.type = .string { wellKnown := some (.uuid true) } := by rw [hr]; rfl
  rw [C16_uuid E S typ f h m hT hr, javaAccepts_scalar h hi hT rfl _ (by rw [hty]; simp), hty]
  rw [← Java.uuid_ok (Java.fullyQualified typ f.name) s]
  simp [Java.scalarTpl, Java.stringTpl, Java.withOpt, Java.when, Java.strLen, Java.strAffix,
    Java.strWellKnown, StringRules.getEmail, StringRules.getAddress, StringRules.getHostname,
    StringRules.getIp, StringRules.getIpv4, StringRules.getIpv6, StringRules.getUri,
    StringRules.getUriRef, StringRules.getUuid, optB]

/-- The theorem applies to a one-field type. -/
example : let f := Fixtures.fieldOf .string (.string { wellKnown := some (.uuid true) })
    OnlyField (Fixtures.only f) "M" f ∧ NotIgnored (Fixtures.only f) "M" :=
  ⟨Fixtures.only_field _, only_notIgnored _⟩

/-! ### C41 -/

theorem mem_numbersOf {r : NumRules} {b : Num} :
    b ∈ numbersOf r ↔ (r.const = some b ∨ r.lt = some b ∨ r.lte = some b ∨ r.gt = some b ∨
      r.gte = some b) ∨ b ∈ r.ins ∨ b ∈ r.notIns := by
  unfold numbersOf
  simp only [List.mem_append, Option.mem_toList, or_assoc]

theorem plainRules_of {k : NumKind} {r : NumRules} (h : ∀ b ∈ numbersOf r, Plain k b) :
    PlainRules k r :=
  ⟨fun b hb => h b (mem_numbersOf.2 (.inl hb)), fun b hb => h b (mem_numbersOf.2 (.inr (.inl hb))),
    fun b hb => h b (mem_numbersOf.2 (.inr (.inr hb)))⟩

theorem plain_signed {k : NumKind} (hk : signed k) {i : Int} (h : IntOf k i) : Plain k (.int i) := by
  unfold IntOf at h
  simp only [signed, List.mem_cons, List.not_mem_nil, or_false] at hk
  rcases hk with rfl | rfl | rfl | rfl | rfl | rfl <;> simp [kindRange] at h <;>
    simp [Plain, narrow, wide, h]

theorem plain_compiles {k : NumKind} (hk : unsigned k) {i : Int}
    (h : Java.litCompiles k (.int i) = true) : Plain k (.int i) := by
  simp only [unsigned, List.mem_cons, List.not_mem_nil, or_false] at hk
  rcases hk with rfl | rfl | rfl | rfl <;> simp [Java.litCompiles] at h <;>
    simp [Plain, narrow, wide, h]

theorem java_num {E : Env} {J : JEnv} {S : Schema} {typ : String} {f : FieldDesc}
    (h : OnlyField S typ f) (hi : NotIgnored S typ) {k : NumKind} {m : Option MessageRules}
    {r : NumRules} (hT : f.typ = .one (.scalar k)) (hr : f.rules = .mk m (.num k r)) (hc : Checked f)
    (hp : PlainRules k r) {n : Num} (hn : Plain k n) :
    JavaAccepts J S typ f (.sc (.num n)) ↔ Accepts E S typ f (.sc (.num n)) := by
  have hty : f.rules.type = .num k r := by rw [hr]; rfl
  rw [javaAccepts_scalar h hi hT rfl _ (by rw [hty]; simp),
    accepts_scalar h hT rfl _ (by rw [hty]; trivial), hty]
  exact numTpl_ok (Java.fullyQualified typ f.name) k r n (checked_num hc hty) hp hn

/-- **C41** On a field of a signed integer kind, with rules the generator accepts, Java accepts
exactly the values Go accepts (all numeric rules, not only ranges; both languages, any libraries). -/
theorem C41_java_signed (E : Env) (J : JEnv) (S : Schema) (typ : String) (f : FieldDesc)
    (h : OnlyField S typ f) (hi : NotIgnored S typ) (k : NumKind) (hk : signed k)
    (m : Option MessageRules) (r : NumRules) (hT : f.typ = .one (.scalar k))
    (hr : f.rules = .mk m (.num k r)) (hc : Checked f) (hrules : IntRules k r) (x : Int)
    (hx : IntOf k x) :
    JavaAccepts J S typ f (.sc (.num (.int x))) ↔ Accepts E S typ f (.sc (.num (.int x))) := by
  refine java_num h hi hT hr hc (plainRules_of fun b hb => ?_) (plain_signed hk hx)
  obtain ⟨i, rfl, hi⟩ := hrules b hb
  exact plain_signed hk hi

/-- **C41** Range rules in Java, spelled out: an ordinary range accepts what lies between its
bounds, an inverted range (upper bound below the lower bound) what lies outside. -/
theorem C41_java_range (J : JEnv) (S : Schema) (typ : String) (f : FieldDesc)
    (h : OnlyField S typ f) (hi : NotIgnored S typ) (k : NumKind) (hk : signed k)
    (m : Option MessageRules) (r : NumRules) (hT : f.typ = .one (.scalar k))
    (hr : f.rules = .mk m (.num k r)) (hc : Checked f) (hrules : IntRules k r) (ho : RangeOnly r)
    (x : Int) (hx : IntOf k x) :
    (¬ Inverted r → (JavaAccepts J S typ f (.sc (.num (.int x))) ↔ BelowUpper r x ∧ AboveLower r x)) ∧
    (Inverted r → (JavaAccepts J S typ f (.sc (.num (.int x))) ↔ BelowUpper r x ∨ AboveLower r x)) := by
  rw [C41_java_signed Fixtures.env J S typ f h hi k hk m r hT hr hc hrules x hx]
  refine C10_int_range Fixtures.env S typ f h k m r hT hr hc ho ?_ x
  intro b hb
  obtain ⟨i, hi', -⟩ := hrules b (mem_numbersOf.2 (.inl (.inr hb)))
  exact ⟨i, hi'⟩

/-- An inverted int64 range with extreme bounds meets the hypotheses. -/
example : let r : NumRules := { lt := some (.int (-9223372036854775808)),
                                gte := some (.int 9223372036854775807) }
    let f := Fixtures.fieldOf (.scalar .int64) (.num .int64 r)
    Checked f ∧ IntRules .int64 r ∧ RangeOnly r ∧ Inverted r ∧ signed .int64 ∧
      IntOf .int64 9223372036854775807 ∧ AboveLower r 9223372036854775807 := by
  refine ⟨by unfold Checked; decide, ?_, ⟨rfl, rfl, rfl, by simp⟩,
    ⟨-9223372036854775808, 9223372036854775807, .inl rfl, .inr rfl, by decide⟩, by simp [signed],
    by simp [IntOf, kindRange], by simp [AboveLower]⟩
  intro b hb
  simp [numbersOf] at hb
  rcases hb with rfl | rfl <;> exact ⟨_, rfl, by simp [IntOf, kindRange]⟩

/-! ### C42 -/

theorem jnum_signedView {k : NumKind} (hk : unsigned k) {x : Int} (hx : IntOf k x) :
    Java.jnum k (.int x) = Java.jnum k (.int (signedView k x)) ∧ Plain k (.int (signedView k x)) := by
  unfold IntOf at hx
  simp only [unsigned, List.mem_cons, List.not_mem_nil, or_false] at hk
  rcases hk with rfl | rfl | rfl | rfl <;> simp only [kindRange] at hx <;>
    simp only [signedView, Java.jnum, Plain, Java.JNum.int.injEq, Java.JNum.long.injEq,
      Java.wrap32, wrap64, narrow, wide, List.mem_cons, List.not_mem_nil, reduceCtorEq, or_false,
      or_true, true_and, false_and, false_or] <;>
    split <;> refine ⟨?_, by omega, by omega⟩ <;> simp only [Int.bmod_def] <;> omega

/-- What Java does with unsigned fields: once the generated code compiles, it accepts a value
exactly when Go, under the same rules, accepts the signed number with the same bits. -/
theorem C42_java_sees_signed (E : Env) (J : JEnv) (S : Schema) (typ : String) (f : FieldDesc)
    (h : OnlyField S typ f) (hi : NotIgnored S typ) (k : NumKind) (hk : unsigned k)
    (m : Option MessageRules) (r : NumRules) (hT : f.typ = .one (.scalar k))
    (hr : f.rules = .mk m (.num k r)) (hc : Checked f) (hrules : IntRules k r)
    (hcomp : LiteralsCompile k r) (x : Int) (hx : IntOf k x) :
    JavaAccepts J S typ f (.sc (.num (.int x))) ↔
      Accepts E S typ f (.sc (.num (.int (signedView k x)))) := by
  have hty : f.rules.type = .num k r := by rw [hr]; rfl
  obtain ⟨e, hp⟩ := jnum_signedView hk hx
  have hpr : PlainRules k r := plainRules_of fun b hb => by
    obtain ⟨i, rfl, -⟩ := hrules b hb
    exact plain_compiles hk (hcomp _ hb)
  rw [← java_num (J := J) h hi hT hr hc hpr hp]
  rw [javaAccepts_scalar h hi hT rfl _ (by rw [hty]; simp),
    javaAccepts_scalar h hi hT rfl _ (by rw [hty]; simp), hty]
  simp only [Java.scalarTpl, Java.numTpl, e]

/-- **C42, negation** Java and Go disagree on unsigned fields: under `lt: 5`, Java accepts the uint32
value 3000000000 and Go rejects it. -/
theorem C42_unsigned_differs (E : Env) (J : JEnv) :
    ∃ f : FieldDesc, f.typ = .one (.scalar .uint32) ∧ Checked f ∧
      ∃ r, f.rules.type = .num .uint32 r ∧ IntRules .uint32 r ∧ LiteralsCompile .uint32 r ∧
      ∃ x, IntOf .uint32 x ∧
        JavaAccepts J (Fixtures.only f) "M" f (.sc (.num (.int x))) ∧
        ¬ Accepts E (Fixtures.only f) "M" f (.sc (.num (.int x))) := by
  let r : NumRules := { lt := some (.int 5) }
  let f := Fixtures.fieldOf (.scalar .uint32) (.num .uint32 r)
  have hc : Checked f := by unfold Checked; decide
  have h1 : IntRules .uint32 r := by
    intro b hb
    simp [numbersOf, r] at hb
    subst hb
    exact ⟨5, rfl, by simp [IntOf, kindRange]⟩
  have h2 : LiteralsCompile .uint32 r := by
    intro b hb
    simp [numbersOf, r] at hb
    subst hb
    decide
  have hx : IntOf .uint32 3000000000 := by simp [IntOf, kindRange]
  have hrange := C10_int_range E (Fixtures.only f) "M" f (Fixtures.only_field f) .uint32 none r rfl rfl hc
    ⟨rfl, rfl, rfl, by simp [r]⟩ (by
      intro b hb
      simp [r] at hb
      exact ⟨5, hb.symm⟩)
  have hni : ¬ Inverted r := by simp [Inverted, r]
  refine ⟨f, rfl, hc, r, rfl, h1, h2, 3000000000, hx, ?_, ?_⟩
  · rw [C42_java_sees_signed E J _ _ f (Fixtures.only_field f) (only_notIgnored f) .uint32
      (by simp [unsigned]) none r rfl rfl hc h1 h2 _ hx, (hrange _).1 hni]
    simp [BelowUpper, AboveLower, r, signedView]
  · rw [(hrange _).1 hni]
    simp [BelowUpper, AboveLower, r]

/-- A rule value in the upper half of an unsigned kind is not even a Java literal. -/
theorem C42_large_bound_does_not_compile :
    ∃ r : NumRules, IntRules .uint64 r ∧ ¬ LiteralsCompile .uint64 r := by
  refine ⟨{ lt := some (.int 10000000000000000000) }, ?_, ?_⟩
  · intro b hb
    simp [numbersOf] at hb
    subst hb
    exact ⟨_, rfl, by simp [IntOf, kindRange]⟩
  · intro h
    have := h (.int 10000000000000000000) (by simp [numbersOf])
    revert this
    decide

/-- **C42, partial** Missing: values and rule numbers in the upper half of the kind
(`C42_unsigned_differs`, `C42_large_bound_does_not_compile`). Below, Java and Go agree. -/
theorem C42_java_unsigned_partial (E : Env) (J : JEnv) (S : Schema) (typ : String) (f : FieldDesc)
    (h : OnlyField S typ f) (hi : NotIgnored S typ) (k : NumKind) (hk : unsigned k)
    (m : Option MessageRules) (r : NumRules) (hT : f.typ = .one (.scalar k))
    (hr : f.rules = .mk m (.num k r)) (hc : Checked f) (hrules : IntRules k r)
    (hcomp : LiteralsCompile k r) (x : Int) (hx : IntOf k x)
    (hlow : (narrow k → x < 2147483648) ∧ (wide k → x < 9223372036854775808)) :
    JavaAccepts J S typ f (.sc (.num (.int x))) ↔ Accepts E S typ f (.sc (.num (.int x))) := by
  rw [C42_java_sees_signed E J S typ f h hi k hk m r hT hr hc hrules hcomp x hx]
  have e : signedView k x = x := by
    simp only [unsigned, List.mem_cons, List.not_mem_nil, or_false] at hk
    rcases hk with rfl | rfl | rfl | rfl <;> simp [narrow, wide] at hlow <;> simp [signedView, hlow]
  rw [e]

/-- A range on a fixed64 field meets the hypotheses. -/
example : let r : NumRules := { gt := some (.int 10), lte := some (.int 9223372036854775807) }
    let f := Fixtures.fieldOf (.scalar .fixed64) (.num .fixed64 r)
    Checked f ∧ IntRules .fixed64 r ∧ LiteralsCompile .fixed64 r ∧ unsigned .fixed64 := by
  refine ⟨by unfold Checked; decide, ?_, ?_, by simp [unsigned]⟩
  · intro b hb
    simp [numbersOf] at hb
    rcases hb with rfl | rfl <;> exact ⟨_, rfl, by simp [IntOf, kindRange]⟩
  · intro b hb
    simp [numbersOf] at hb
    rcases hb with rfl | rfl <;> decide

/-! ### C43 -/

/-- Without rules on the elements, scalar elements impose nothing, in Java as in Go. -/
theorem elem_free (E : Env) (J : JEnv) (S : Schema) (rec : Val → Java.Run) (ok : Val → Prop)
    (f : String) (e : ElemT) (items : FieldRules) (hu : items.type = .unset) (he : e.isEmbed = false)
    (v : Val) : Java.elemTpl J rec f e items v = .ok () ↔ ValueOk E S ok e items v := by
  simp [Java.elemTpl, Go.resolve, hu, he, ValueOk]

/-- **C43, partial** Missing: `max_items: 0` (`C43_max_zero_ignored`), and `unique` on values that
Java compares differently from Go: NaN, negative zero, undeclared enum numbers
(`C43_unique_enum_differs`), bytes that are not UTF-8 in strings. Otherwise a list is accepted by
min_items, max_items and unique in Java exactly when Go accepts it. -/
theorem C43_java_list_partial (E : Env) (J : JEnv) (S : Schema) (typ : String) (f : FieldDesc)
    (h : OnlyField S typ f) (hi : NotIgnored S typ) (e : ElemT) (he : e.isEmbed = false)
    (m : Option MessageRules) (r : RepeatedRules) (items : FieldRules) (hu : items.type = .unset)
    (hT : f.typ = .rep e) (hr : f.rules = .mk m (.repeated r items)) (hmax : r.maxItems ≠ some 0)
    (vs : List Val) (hv : r.unique = some true → ∀ v ∈ vs, FitsItem e v) :
    JavaAccepts J S typ f (.list vs) ↔ Accepts E S typ f (.list vs) := by
  have hty : f.rules.type = .repeated r items := by rw [hr]; rfl
  rw [javaAccepts_iff h hi, accepts_iff h]
  simp only [Java.renderField, FieldOk, hT, hty]
  exact Java.repeatedTpl_of _ _ _ e r items vs
    (fun v _ => elem_free E J S _ _ _ e items hu he v) hmax hv

/-- **C43, partial** Missing: `max_pairs: 0` and `no_sparse`. Otherwise a map is accepted by min_pairs
and max_pairs in Java exactly when Go accepts it. -/
theorem C43_java_map_partial (E : Env) (J : JEnv) (S : Schema) (typ : String) (f : FieldDesc)
    (h : OnlyField S typ f) (hi : NotIgnored S typ) (kt vt : ElemT) (he : vt.isEmbed = false)
    (m : Option MessageRules) (r : MapRules) (keys values : FieldRules) (hk : keys.type = .unset)
    (hu : values.type = .unset) (hT : f.typ = .map kt vt) (hr : f.rules = .mk m (.map r keys values))
    (hmax : r.maxPairs ≠ some 0) (hs : r.noSparse ≠ some true) (kvs : List (Scalar × Val)) :
    JavaAccepts J S typ f (.map kvs) ↔ Accepts E S typ f (.map kvs) := by
  have hty : f.rules.type = .map r keys values := by rw [hr]; rfl
  rw [javaAccepts_iff h hi, accepts_iff h]
  simp only [Java.renderField, FieldOk, hT, hty]
  exact Java.mapTpl_of _ _ _ kt vt r keys values kvs
    (fun kv _ => by simp [Java.keyTpl, hk, ScalarOk])
    (fun kv _ => elem_free E J S _ _ _ vt values hu he kv.2) hmax hs

/-- **C43, negation** `max_items: 0` and `max_pairs: 0` are enforced in Go and ignored in Java: every
non-empty list or map is a counterexample. -/
theorem C43_max_zero_ignored (E : Env) (J : JEnv) (kt e : ElemT) (he : e.isEmbed = false) :
    (let f : FieldDesc := { name := "X", typ := .rep e,
                            rules := .mk none (.repeated { maxItems := some 0 } .absent) }
     ∀ vs, vs ≠ [] → JavaAccepts J (Fixtures.only f) "M" f (.list vs) ∧
       ¬ Accepts E (Fixtures.only f) "M" f (.list vs)) ∧
    (let f : FieldDesc := { name := "X", typ := .map kt e,
                            rules := .mk none (.map { maxPairs := some 0 } .absent .absent) }
     ∀ kvs, kvs ≠ [] → JavaAccepts J (Fixtures.only f) "M" f (.map kvs) ∧
       ¬ Accepts E (Fixtures.only f) "M" f (.map kvs)) := by
  have hu : FieldRules.absent.type = .unset := rfl
  refine ⟨?_, ?_⟩
  · intro f vs hne
    have hl : vs.length ≠ 0 := by simpa using hne
    refine ⟨?_, ?_⟩
    · rw [javaAccepts_iff (Fixtures.only_field f) (only_notIgnored f)]
      simp [Java.renderField, f, FieldRules.type, Java.repeatedTpl, optB, optN, Java.when, Java.seq,
        Java.elemTpl, Go.resolve, hu, he]
    · rw [accepts_iff (Fixtures.only_field f)]
      simp [FieldOk, f, FieldRules.type, RepeatedOk, CountOk, hne]
  · intro f kvs hne
    refine ⟨?_, ?_⟩
    · rw [javaAccepts_iff (Fixtures.only_field f) (only_notIgnored f)]
      simp [Java.renderField, f, FieldRules.type, Java.mapTpl, optB, optN,
        Java.elemTpl, Go.resolve, Go.elemTypNotNone, hu, he, Java.keyTpl]
    · rw [accepts_iff (Fixtures.only_field f)]
      simp [FieldOk, f, FieldRules.type, MapOk, CountOk, hne]

/-- **C43, negation** With `no_sparse`, the Java validator throws on every map, also on those whose
values are all present, which Go accepts. -/
theorem C43_no_sparse_always_throws (E : Env) (J : JEnv) :
    let f : FieldDesc := { name := "X", typ := .map .string (.embed "T" none),
                           rules := .mk none (.map { noSparse := some true } .absent .absent) }
    ∀ kvs, ¬ JavaAccepts J (Fixtures.only f) "M" f (.map kvs) ∧
      Accepts E (Fixtures.only f) "M" f (.map []) := by
  intro f kvs
  refine ⟨?_, ?_⟩
  · rw [javaAccepts_iff (Fixtures.only_field f) (only_notIgnored f)]
    simp [Java.renderField, f, FieldRules.type, Java.mapTpl, optB, optN, Java.when,
      Java.noSparse]
  · rw [accepts_iff (Fixtures.only_field f)]
    simp [FieldOk, f, FieldRules.type, MapOk, CountOk]

/-- **C43, negation** Two different numbers that the enum does not declare are one value
(`UNRECOGNIZED`) in Java: `unique` rejects them in Java and accepts them in Go. -/
theorem C43_unique_enum_differs (E : Env) (J : JEnv) (declared : List Int) (a b : Int) (hab : a ≠ b)
    (ha : a ∉ declared) (hb : b ∉ declared) :
    let f : FieldDesc := { name := "X", typ := .rep (.enum declared),
                           rules := .mk none (.repeated { unique := some true } .absent) }
    ¬ JavaAccepts J (Fixtures.only f) "M" f (.list [.sc (.enum a), .sc (.enum b)]) ∧
    Accepts E (Fixtures.only f) "M" f (.list [.sc (.enum a), .sc (.enum b)]) := by
  intro f
  have hu : FieldRules.absent.type = .unset := rfl
  refine ⟨?_, ?_⟩
  · rw [javaAccepts_iff (Fixtures.only_field f) (only_notIgnored f)]
    simp [Java.renderField, f, FieldRules.type, Java.repeatedTpl, optB, optN, Java.when,
      Java.unique, Java.itemEq, Java.jenum, ha, hb]
  · rw [accepts_iff (Fixtures.only_field f)]
    simp [FieldOk, f, FieldRules.type, RepeatedOk, CountOk, SameItem, ValueOk, hu, ElemT.isEmbed, hab]

/-- A list of strings with a count and uniqueness meets the hypotheses of the partial theorem. -/
example : ∀ v ∈ [Val.sc (.str (asc "a")), .sc (.str (asc "b"))], FitsItem .string v := by
  intro v hv
  simp at hv
  rcases hv with rfl | rfl
  · exact ⟨[0x61], by simp [ScalarValue], by decide⟩
  · exact ⟨[0x62], by simp [ScalarValue], by decide⟩

/-! ### C48 -/

/-- The two languages read the same clock, and it shows a time that protobuf can represent. -/
def SameClock (E : Env) (J : JEnv) : Prop :=
  E.now = J.nowMs * 1000000 ∧ (Java.fromMillis J.nowMs).valid = true

theorem window_below (now w x : Int) (hw : 0 < w) : x < now → now - w ≤ x → x ≤ now + w := by
  omega

theorem window_above (now w x : Int) (hw : 0 < w) :
    now < x → x ≤ now + w → now - w ≤ x := by
  omega

theorem window_edge (now w x : Int) (hw : 0 < w) (h : x = now + w ∨ x = now - w) :
    (now - w ≤ x ∧ x ≤ now + w) ∧ (now - w < x → now + w ≤ x) := by
  omega

theorem window_inside (now w x : Int) (hw : 0 < w) (h : x ≠ now + w ∧ x ≠ now - w) :
    now - w ≤ x ∧ x ≤ now + w ↔ now - w < x ∧ x < now + w := by
  omega

theorem within_sides {E : Env} {J : JEnv} {S : Schema} {typ : String} {f : FieldDesc}
    (h : OnlyField S typ f) (hi : NotIgnored S typ) (hclock : SameClock E J) {n : String} {wkt : Option WKT}
    {m : Option MessageRules} {r : TimestampRules} (hT : f.typ = .one (.embed n wkt))
    (hr : f.rules = .mk m (.timestamp r)) (hc : Checked f) {w : PDur} (hw : r.within = some w)
    (pw : PortDur w) {t : PTime} (vt : t.valid = true) (hx : instant t - E.now ≠ minInt64) :
    0 < w.exact ∧ (r.ltNow = none ∨ r.gtNow = none) ∧
    (JavaAccepts J S typ f (.ts t) ↔
      (∀ k, r.const = some k → instant t = instant k) ∧
      (r.ltNow ≠ none → instant t < E.now) ∧ (r.gtNow ≠ none → E.now < instant t) ∧
      E.now - w.exact ≤ instant t ∧ instant t ≤ E.now + w.exact) ∧
    (Accepts E S typ f (.ts t) ↔
      (∀ k, r.const = some k → instant t = instant k) ∧ NowOk E.now r (instant t)) := by
  have hty : f.rules.type = .timestamp r := by rw [hr]; rfl
  obtain ⟨hpos, hu, hl, hxor, hj⟩ := Java.timestampTpl_within hclock.1 hclock.2 (Java.fullyQualified typ f.name) r w hw pw t vt
    (Go.checked_timestamp hc hty) hx
  refine ⟨hpos, hxor, ?_, ?_⟩
  · rw [javaAccepts_iff h hi]
    simp only [Java.renderField, hT, Java.elemTpl, Go.resolve, hty]
    exact hj
  · rw [accepts_iff h]
    simp only [FieldOk, hT, ValueOk, hty, TimestampOk, hu, hl, RangeOk, true_and, vt]
    have : TsConstrained r := by simp [TsConstrained, hw]
    simp [this]

/-- **C48** `within` combined with `lt_now` or `gt_now`: Java accepts exactly the instants Go accepts,
for windows below about 292 years. (The one excluded instant lies exactly 2^63 nanoseconds before
now, where `Math.abs` overflows.) -/
theorem C48_java_combined (E : Env) (J : JEnv) (S : Schema) (typ : String) (f : FieldDesc)
    (h : OnlyField S typ f) (hi : NotIgnored S typ) (hclock : SameClock E J) (n : String)
    (wkt : Option WKT) (m : Option MessageRules) (r : TimestampRules)
    (hT : f.typ = .one (.embed n wkt)) (hr : f.rules = .mk m (.timestamp r)) (hc : Checked f) (w : PDur)
    (hw : r.within = some w) (pw : PortDur w) (hnow : r.ltNow ≠ none ∨ r.gtNow ≠ none) (t : PTime)
    (vt : t.valid = true) (hx : instant t - E.now ≠ -9223372036854775808) :
    JavaAccepts J S typ f (.ts t) ↔ Accepts E S typ f (.ts t) := by
  obtain ⟨hpos, hxor, hj, hg⟩ := within_sides h hi hclock hT hr hc hw pw vt hx
  rw [hj, hg]
  refine and_congr_right fun _ => ?_
  unfold NowOk
  rw [hw]
  cases h1 : r.ltNow with
  | some b =>
    have h2 : r.gtNow = none := by simpa [h1] using hxor
    simp [h2]
    exact window_below _ _ _ hpos
  | none =>
    cases h2 : r.gtNow with
    | some b =>
      simp
      exact window_above _ _ _ hpos
    | none => simp [h1, h2] at hnow

/-- **C48, negation** `within` on its own: at a distance of exactly the window, on either side, Java
accepts the instant and Go rejects it. -/
theorem C48_boundary_differs (E : Env) (J : JEnv) (S : Schema) (typ : String) (f : FieldDesc)
    (h : OnlyField S typ f) (hi : NotIgnored S typ) (hclock : SameClock E J) (n : String)
    (wkt : Option WKT) (m : Option MessageRules) (w : PDur)
    (hT : f.typ = .one (.embed n wkt)) (hr : f.rules = .mk m (.timestamp { within := some w }))
    (hc : Checked f) (pw : PortDur w) (t : PTime) (vt : t.valid = true)
    (ht : instant t = E.now + w.exact ∨ instant t = E.now - w.exact) :
    JavaAccepts J S typ f (.ts t) ∧ ¬ Accepts E S typ f (.ts t) := by
  have hb := pw.2
  have hpos := (Java.timestampTpl_within hclock.1 hclock.2 (Java.fullyQualified typ f.name) { within := some w } w rfl pw
    (Java.fromMillis J.nowMs) hclock.2 (Go.checked_timestamp hc (by rw [hr]; rfl)) (by
      rw [Java.instant_fromMillis, hclock.1]
      unfold minInt64
      omega)).1
  obtain ⟨-, hxor, hj, hg⟩ := within_sides h hi hclock hT hr hc rfl pw vt (by
    unfold minInt64 maxInt64 at *
    omega)
  rw [hj, hg]
  simp [NowOk]
  exact window_edge _ _ _ hpos ht

/-- **C48, partial** Missing: the two instants of `C48_boundary_differs` and windows over 292 years;
the Python validators are `C48_python_…`. Everywhere else, `within` on its own means the same in Go
and Java. -/
theorem C48_java_alone_partial (E : Env) (J : JEnv) (S : Schema) (typ : String) (f : FieldDesc)
    (h : OnlyField S typ f) (hi : NotIgnored S typ) (hclock : SameClock E J) (n : String)
    (wkt : Option WKT) (m : Option MessageRules) (r : TimestampRules)
    (hT : f.typ = .one (.embed n wkt)) (hr : f.rules = .mk m (.timestamp r)) (hc : Checked f) (w : PDur)
    (hw : r.within = some w) (pw : PortDur w) (hnow : r.ltNow = none ∧ r.gtNow = none) (t : PTime)
    (vt : t.valid = true) (hx : instant t - E.now ≠ -9223372036854775808)
    (hb : instant t ≠ E.now + w.exact ∧ instant t ≠ E.now - w.exact) :
    JavaAccepts J S typ f (.ts t) ↔ Accepts E S typ f (.ts t) := by
  obtain ⟨hpos, hxor, hj, hg⟩ := within_sides h hi hclock hT hr hc hw pw vt hx
  rw [hj, hg]
  refine and_congr_right fun _ => ?_
  simp [NowOk, hw, hnow]
  exact window_inside _ _ _ hpos hb

/-- The clocks of the fixtures agree; an hour's window meets the hypotheses, and so does the instant
an hour ahead. -/
example : let f := Fixtures.fieldOf (.embed "T" (some .timestamp)) (.timestamp { within := some ⟨3600, 0⟩ })
    SameClock Fixtures.env jenv ∧ Checked f ∧ PortDur ⟨3600, 0⟩ ∧
      (⟨1600003600, 0⟩ : PTime).valid = true ∧
      instant ⟨1600003600, 0⟩ = Fixtures.env.now + (⟨3600, 0⟩ : PDur).exact := by
  refine ⟨⟨by decide, by decide⟩, by unfold Checked; decide, ⟨by decide, by decide, by decide⟩,
    by decide, by decide⟩

/-! ### C60 -/

/-- **C60** Whole messages, of any type and nesting: if the libraries agree and the rules and values
are portable, then the Java validator accepts the message exactly when Go's `Validate()` does. -/
theorem C60_java_agrees (C : Common) (E : Env) (J : JEnv) (S : Schema) (hL : LibsAgree C E J S)
    (typ : String) (d : MsgDesc) (hS : S typ = .generated d) (hi : d.ignored = false)
    (fs : List (String × Val)) (os : List (String × String × Val))
    (hP : Portable C S (.msg typ fs os)) :
    Java.assertValid J S (.msg typ fs os) = .ok () ↔ Go.validate E S false (.msg typ fs os) = none := by
  have := Java.fuel_ok hL (Go.depth (.msg typ fs os)) (.msg typ fs os) (Nat.le_refl _) hP
  unfold Java.assertValid
  rw [this]
  simp [EmbeddedOk, hS, hi]

/-- C60: and then, exactly when `ValidateAll()` reports nothing. -/
theorem C60_java_agrees_all (C : Common) (E : Env) (J : JEnv) (S : Schema) (hL : LibsAgree C E J S)
    (typ : String) (d : MsgDesc) (hS : S typ = .generated d) (hi : d.ignored = false)
    (fs : List (String × Val)) (os : List (String × String × Val))
    (hP : Portable C S (.msg typ fs os)) :
    Java.assertValid J S (.msg typ fs os) = .ok () ↔ Go.validate E S true (.msg typ fs os) = none := by
  rw [C60_java_agrees C E J S hL typ d hS hi fs os hP, Go.validate_modes]

/-- The two languages agree on nothing but UUIDs. -/
def noCommon : Common := { pattern := fun _ => False, format := fun w => ∃ b, w = .uuid b }

theorem noCommon_agrees (E : Env) (J : JEnv) : TextLibs noCommon E J :=
  ⟨fun _ h => h.elim, fun w ⟨b, hw⟩ s _ => by subst hw; cases b <;> simp [FormatAgrees]⟩

/-- The fixtures' libraries agree on the recursive schema `Person`. -/
theorem fixtures_agree : LibsAgree noCommon Fixtures.env jenv Fixtures.schema where
  toTextLibs := noCommon_agrees _ _
  clock := by decide
  clock_valid := by decide
  other := by
    intro v _
    simp only [jenv, EmbeddedOk, true_iff]
    split
    · split <;> simp [Fixtures.env]
    · trivial

theorem part_scalar {w : Val} {s : Scalar} (h : Part w (.sc s)) : w = .sc s := by
  cases h; rfl

theorem part_ann {w : Val} (h : Part w Fixtures.ann) (hw : ∀ s, w ≠ .sc s) : w = Fixtures.ann := by
  cases h with
  | self => rfl
  | field hm hp =>
    simp only [List.mem_cons, List.not_mem_nil, or_false, Prod.mk.injEq] at hm
    rcases hm with ⟨-, rfl⟩ | ⟨-, rfl⟩ <;> exact absurd (part_scalar hp) (hw _)
  | member hm hp =>
    simp only [List.mem_cons, List.not_mem_nil, or_false, Prod.mk.injEq] at hm
    obtain ⟨-, -, rfl⟩ := hm
    exact absurd (part_scalar hp) (hw _)

/-- The valid person is portable, so Java accepts it because Go does. -/
theorem ann_portable : Portable noCommon Fixtures.schema Fixtures.ann := by
  intro typ fs os d hp hd _
  have := part_ann hp (by simp)
  simp only [Fixtures.ann, Val.msg.injEq] at this
  obtain ⟨rfl, rfl, rfl⟩ := this
  have hd' : d = Fixtures.person := by
    simpa [Fixtures.schema, eq_comm] using hd
  subst hd'
  refine ⟨?_, ?_⟩
  · intro f hf
    simp only [Fixtures.person, List.mem_cons, List.not_mem_nil, or_false] at hf
    rcases hf with rfl | rfl | rfl
    · refine ⟨⟨⟨by decide, ?_⟩, by simp [PortMessage, Fixtures.age, FieldRules.message, msgSkip]⟩, ?_⟩
      · refine ⟨fun b hb => ?_, by simp [Fixtures.age], by simp [Fixtures.age]⟩
        have : b = .int 0 := by simpa [Fixtures.age, eq_comm] using hb
        subst this
        exact .inl ⟨by simp [narrow], by decide, by decide⟩
      · exact .inl ⟨by simp [narrow], by decide, by decide⟩
    · refine ⟨⟨⟨by decide, by decide, by decide, ?_⟩, by simp [PortMessage, Fixtures.nick, FieldRules.message, msgSkip]⟩, ?_⟩
      · simp [PortString, Fixtures.nick]
      · exact ⟨[97, 110, 110], by unfold ScalarValue; decide, by decide⟩
    · trivial
  · intro o ho m u f hl hf
    simp only [Fixtures.person, List.mem_cons, List.not_mem_nil, or_false] at ho
    subst ho
    have : m = "Phone" ∧ u = .sc (.str (asc "555")) := by
      simpa [Fixtures.contact, eq_comm] using hl
    obtain ⟨rfl, rfl⟩ := this
    have : f = { name := "Phone", typ := .one .string, rules := .mk none (.string { minLen := some 2 }) } := by
      simpa [Fixtures.contact, eq_comm] using hf
    subst this
    refine ⟨⟨⟨by decide, by decide, by decide, ?_⟩, by simp [PortMessage, FieldRules.message, msgSkip]⟩, ?_⟩
    · simp [PortString]
    · exact ⟨[53, 53, 53], by unfold ScalarValue; decide, by decide⟩

example : Java.assertValid jenv Fixtures.schema Fixtures.ann = .ok () :=
  (C60_java_agrees noCommon Fixtures.env jenv Fixtures.schema fixtures_agree "Person" Fixtures.person
    rfl rfl _ _ ann_portable).2 (by rfl)

/-- **C60, exception** `skip` together with `required` on a message field, left unset: Go still asks
for the field, Java drops both rules. -/
theorem C60_skip_drops_required (E : Env) (J : JEnv) :
    let f : FieldDesc := { name := "X", typ := .one (.embed "N" none),
                           rules := .mk (some { skip := some true, required := some true }) .unset }
    Checked f ∧ ¬ Accepts E (Fixtures.only f) "M" f .null ∧
      JavaAccepts J (Fixtures.only f) "M" f .null := by
  intro f
  refine ⟨by unfold Checked; decide, ?_, ?_⟩
  · rw [accepts_iff (Fixtures.only_field f)]
    simp [FieldOk, f, ValueOk, FieldRules.type, FieldRules.message, msgRequired, msgSkip, optB,
      ElemT.isEmbed]
  · rw [javaAccepts_iff (Fixtures.only_field f) (only_notIgnored f)]
    rfl

/-! ### C61 -/

/-- **C61, negation** A NaN passes every range rule in Go, while Java sorts NaN above all numbers:
under `lt: 1` a NaN is accepted by Go and rejected by Java. -/
theorem C61_nan_differs (E : Env) (J : JEnv) :
    let f := Fixtures.fieldOf (.scalar .float) (.num .float { lt := some (.f32 0x3F800000#32) })
    Checked f ∧ Accepts E (Fixtures.only f) "M" f (.sc (.num (.f32 0x7FC00000#32))) ∧
      ¬ JavaAccepts J (Fixtures.only f) "M" f (.sc (.num (.f32 0x7FC00000#32))) := by
  intro f
  refine ⟨by unfold Checked; decide, ?_, ?_⟩
  · exact C11_nan_accepted E _ _ f (Fixtures.only_field f) .float none _ rfl rfl
      ⟨rfl, rfl, rfl, by simp⟩ _ (by decide)
  · rw [javaAccepts_scalar (Fixtures.only_field f) (only_notIgnored f) rfl rfl _
      (by simp [f, Fixtures.fieldOf, FieldRules.type])]
    intro h
    have e : Java.scalarTpl J (Java.fullyQualified "M" f.name) (.scalar .float) f.rules.type (.num (.f32 0x7FC00000#32)) =
        .error (.validation ".M.X" [.s "must be less than ", .item (.num (.float 0x3F800000#32))]) := by rfl
    rw [e] at h
    cases h

/-- **C61, negation** Negative zero equals zero in Go and not in Java: under `const: 0`, Go accepts
`-0.0` and Java rejects it. -/
theorem C61_negative_zero_differs (E : Env) (J : JEnv) :
    let f := Fixtures.fieldOf (.scalar .double) (.num .double { const := some (.f64 0#64) })
    Checked f ∧ Accepts E (Fixtures.only f) "M" f (.sc (.num (.f64 0x8000000000000000#64))) ∧
      ¬ JavaAccepts J (Fixtures.only f) "M" f (.sc (.num (.f64 0x8000000000000000#64))) := by
  intro f
  have hc : Checked f := by unfold Checked; decide
  refine ⟨hc, ?_, ?_⟩
  · rw [C12_num_const E _ _ f (Fixtures.only_field f) .double none _ rfl rfl hc (by simp) (.f64 0#64) rfl]
    exact ⟨0, by decide, by decide⟩
  · rw [javaAccepts_scalar (Fixtures.only_field f) (only_notIgnored f) rfl rfl _
      (by simp [f, Fixtures.fieldOf, FieldRules.type])]
    intro h
    have e : Java.scalarTpl J (Java.fullyQualified "M" f.name) (.scalar .double) f.rules.type (.num (.f64 0x8000000000000000#64)) =
        .error (.validation ".M.X" [.s "must equal ", .item (.num (.double 0#64))]) := by rfl
    rw [e] at h
    cases h

/-- **C61, partial** Missing: NaN and negative zero, as values or in rules. On all other floats and
doubles, infinities included, Java accepts exactly what Go accepts. -/
theorem C61_java_float_partial (E : Env) (J : JEnv) (S : Schema) (typ : String) (f : FieldDesc)
    (h : OnlyField S typ f) (hi : NotIgnored S typ) (k : NumKind) (m : Option MessageRules)
    (r : NumRules) (hT : f.typ = .one (.scalar k)) (hr : f.rules = .mk m (.num k r)) (hc : Checked f)
    (_ : k = .float ∨ k = .double) (hrules : ∀ b ∈ numbersOf r, Plain k b) (n : Num)
    (hn : Plain k n) :
    JavaAccepts J S typ f (.sc (.num n)) ↔ Accepts E S typ f (.sc (.num n)) :=
  java_num h hi hT hr hc (plainRules_of hrules) hn

/-- Infinity and the smallest positive double are covered. -/
example : Plain .double (.f64 0x7FF0000000000000#64) ∧ Plain .double (.f64 1#64) ∧
    ¬ Plain .double (.f64 0x8000000000000000#64) ∧ ¬ Plain .float (.f32 0x7FC00000#32) := by
  refine ⟨⟨rfl, by decide, by decide⟩, ⟨rfl, by decide, by decide⟩, ?_, ?_⟩
  · rintro ⟨-, -, h⟩; exact h rfl
  · rintro ⟨-, h, -⟩; exact h (by decide)

/-! ### C62 -/

/-- **C62, partial** Missing: rules naming numbers that the enum does not declare
(`C62_undeclared_const`). When all the numbers in the rules are declared, Java accepts exactly the
enum numbers that Go accepts, declared or not. -/
theorem C62_java_enum_partial (E : Env) (J : JEnv) (S : Schema) (typ : String) (f : FieldDesc)
    (h : OnlyField S typ f) (hi : NotIgnored S typ) (declared : List Int) (m : Option MessageRules)
    (r : EnumRules) (hT : f.typ = .one (.enum declared)) (hr : f.rules = .mk m (.enum r))
    (hc : Checked f)
    (hdecl : ∀ c, r.const = some c ∨ c ∈ r.ins ∨ c ∈ r.notIns → c ∈ declared) (i : Int) :
    JavaAccepts J S typ f (.sc (.enum i)) ↔ Accepts E S typ f (.sc (.enum i)) := by
  have hty : f.rules.type = .enum r := by rw [hr]; rfl
  have hch := checked_enum hc hty
  rw [javaAccepts_scalar h hi hT rfl _ (by rw [hty]; simp),
    accepts_scalar h hT rfl _ (by rw [hty]; trivial), hty]
  have hins : checkIns r.ins.length r.notIns.length = true := by
    simp only [checkEnum, Bool.and_eq_true] at hch
    simp [hch]
  exact Java.enumTpl_ok (Java.fullyQualified typ f.name) declared r i hins
    ⟨fun c hc => hdecl c (.inl hc), fun c hc => hdecl c (.inr (.inl hc)),
      fun c hc => hdecl c (.inr (.inr hc))⟩

/-- **C62, negation** A constant that the enum does not declare, which the generator accepts without
`defined_only`: Go accepts exactly that number, Java throws on every value. -/
theorem C62_undeclared_const (E : Env) (J : JEnv) (declared : List Int) (c : Int)
    (hcd : c ∉ declared) :
    let f := Fixtures.fieldOf (.enum declared) (.enum { const := some c })
    Accepts E (Fixtures.only f) "M" f (.sc (.enum c)) ∧
      ∀ i, ¬ JavaAccepts J (Fixtures.only f) "M" f (.sc (.enum i)) := by
  intro f
  refine ⟨?_, fun i => ?_⟩
  · rw [accepts_scalar (Fixtures.only_field f) rfl rfl _ (by simp [f, Fixtures.fieldOf, FieldRules.type])]
    simp [f, Fixtures.fieldOf, FieldRules.type, ScalarOk, EnumOk, ListOk]
  · rw [javaAccepts_scalar (Fixtures.only_field f) (only_notIgnored f) rfl rfl _
      (by simp [f, Fixtures.fieldOf, FieldRules.type])]
    simp [f, Fixtures.fieldOf, FieldRules.type, Java.scalarTpl, Java.enumTpl, Java.forNumber, hcd,
      Java.enumConstant, Java.enumEq]

/-- An enum with a declared constant. -/
example : let f := Fixtures.fieldOf (.enum [0, 1, 2]) (.enum { const := some 2 })
    Checked f ∧ (2 : Int) ∈ [0, 1, 2] := ⟨by unfold Checked; decide, by decide⟩

/-! ### C63 -/

/-- **C63, negation** The generator does not escape strings in rules: with `prefix: "C:\\temp"` the Go code accepts
`C:\temp` and the Java code, which looks for `C:`, a tab and `emp`, does not. -/
theorem C63_backslash_differs (E : Env) (J : JEnv) :
    let s : Bytes := [0x43, 0x3A, 0x5C, 0x74, 0x65, 0x6D, 0x70]
    let f := Fixtures.fieldOf .string (.string { pfx := some s })
    Checked f ∧ Accepts E (Fixtures.only f) "M" f (.sc (.str s)) ∧
      ¬ JavaAccepts J (Fixtures.only f) "M" f (.sc (.str s)) := by
  intro s f
  refine ⟨by unfold Checked; decide, ?_, ?_⟩
  · rw [accepts_scalar (Fixtures.only_field f) rfl rfl _ (by simp [f, Fixtures.fieldOf, FieldRules.type])]
    simp [f, Fixtures.fieldOf, FieldRules.type, ScalarOk, StringOk, ListOk, LenOk, WellKnownOk]
  · rw [javaAccepts_scalar (Fixtures.only_field f) (only_notIgnored f) rfl rfl _
      (by simp [f, Fixtures.fieldOf, FieldRules.type])]
    have hc : Java.startsWith (Java.jstr s) (Java.constStr s) = false := by decide
    simp [f, Fixtures.fieldOf, FieldRules.type, Java.scalarTpl, Java.stringTpl, optB, Java.strAffix, Java.strLen,
      Java.withOpt, Java.when, Java.check, hc]

/-- **C63, partial** Strings: const, in, not_in, all six length rules, prefix, suffix, contains, not_contains
and uuid mean the same in Java (which works on UTF-16) as in Go (which works on UTF-8 bytes), for
every text. Missing: rules with a quote, a backslash or an end of line in a string (`C63_backslash_differs`, C74).
Patterns and the other formats are left to libraries (C60). -/
theorem C63_java_string_partial (E : Env) (J : JEnv) (S : Schema) (typ : String) (f : FieldDesc)
    (h : OnlyField S typ f) (hi : NotIgnored S typ) (m : Option MessageRules) (r : StringRules)
    (hT : f.typ = .one .string) (hr : f.rules = .mk m (.string r)) (hc : Checked f)
    (hrules : PortString noCommon r) (s : Bytes) (hs : Utf8 s) :
    JavaAccepts J S typ f (.sc (.str s)) ↔ Accepts E S typ f (.sc (.str s)) := by
  have hty : f.rules.type = .string r := by rw [hr]; rfl
  rw [javaAccepts_scalar h hi hT rfl _ (by rw [hty]; simp),
    accepts_scalar h hT rfl _ (by rw [hty]; trivial), hty]
  have hch := checked_string hc hty
  have hch' : checkLen r.len r.minLen r.maxLen = true ∧ checkLen r.lenBytes r.minBytes r.maxBytes = true ∧
      checkIns r.ins.length r.notIns.length = true := by
    unfold checkString at hch
    split at hch
    · rename_i hh
      simp only [Bool.and_eq_true] at hh
      simp [hh]
    · simp at hch
  exact Java.stringTpl_ok (noCommon_agrees E J) (Java.fullyQualified typ f.name) r s hs hch'.1 hch'.2.1 hch'.2.2 hrules

/-- The hypotheses are met by a rule with text outside ASCII. -/
example : let r : StringRules := { pfx := some [0xC3, 0xA9], maxLen := some 5, ins := [[0xC3, 0xA9], [0xC3, 0xA9, 0x61]] }
    PortString noCommon r ∧ Utf8 [0xC3, 0xA9] ∧ Checked (Fixtures.fieldOf .string (.string r)) := by
  have h1 : Utf8 [0xC3, 0xA9] := ⟨[0xE9], by simp [ScalarValue], by decide⟩
  have h2 : Utf8 [0xC3, 0xA9, 0x61] := ⟨[0xE9, 0x61], by simp [ScalarValue], by decide⟩
  have p1 : PortText [0xC3, 0xA9] := ⟨h1, by unfold JavaPlain; decide⟩
  have p2 : PortText [0xC3, 0xA9, 0x61] := ⟨h2, by unfold JavaPlain; decide⟩
  refine ⟨⟨?_, ?_, ?_, ?_, ?_⟩, h1, by unfold Checked; decide⟩ <;> simp
  · exact p1
  · exact ⟨p1, p2⟩

/-- **C63** Bytes: const, in, not_in, the length rules, prefix, suffix, contains and ip mean the same
in Java as in Go, for every byte string (with an exact length or limits on it, not both: the
generator does not check that). -/
theorem C63_java_bytes (E : Env) (J : JEnv) (S : Schema) (typ : String) (f : FieldDesc)
    (h : OnlyField S typ f) (hi : NotIgnored S typ) (m : Option MessageRules) (r : BytesRules)
    (hT : f.typ = .one .bytes) (hr : f.rules = .mk m (.bytes r)) (hc : Checked f) (hrules : PortBytes r)
    (b : Bytes) :
    JavaAccepts J S typ f (.sc (.bytes b)) ↔ Accepts E S typ f (.sc (.bytes b)) := by
  have hty : f.rules.type = .bytes r := by rw [hr]; rfl
  rw [javaAccepts_scalar h hi hT rfl _ (by rw [hty]; simp),
    accepts_scalar h hT rfl _ (by rw [hty]; trivial), hty]
  exact Java.bytesTpl_ok E J (Java.fullyQualified typ f.name) r b (Go.checked_bytes hc hty) hrules

/-- C63, exception: `ipv4` on bytes. Go accepts the 16-byte IPv4-mapped form, Java does not; for
`ipv6` it is the other way round. -/
theorem C63_mapped_ip_differs (E : Env) (J : JEnv) :
    let b : Bytes := List.replicate 10 0 ++ [0xFF, 0xFF] ++ [127, 0, 0, 1]
    (let f := Fixtures.fieldOf .bytes (.bytes { wellKnown := some (.ipv4 true) })
     Accepts E (Fixtures.only f) "M" f (.sc (.bytes b)) ∧
       ¬ JavaAccepts J (Fixtures.only f) "M" f (.sc (.bytes b))) ∧
    (let f := Fixtures.fieldOf .bytes (.bytes { wellKnown := some (.ipv6 true) })
     ¬ Accepts E (Fixtures.only f) "M" f (.sc (.bytes b)) ∧
       JavaAccepts J (Fixtures.only f) "M" f (.sc (.bytes b))) := by
  intro b
  have hb : IPv4Bytes b := .inr ⟨[127, 0, 0, 1], rfl, rfl⟩
  refine ⟨?_, ?_⟩
  · intro f
    rw [accepts_scalar (Fixtures.only_field f) rfl rfl _ (by simp [f, Fixtures.fieldOf, FieldRules.type]),
      javaAccepts_scalar (Fixtures.only_field f) (only_notIgnored f) rfl rfl _
      (by simp [f, Fixtures.fieldOf, FieldRules.type])]
    refine ⟨?_, ?_⟩
    · simp [f, Fixtures.fieldOf, FieldRules.type, ScalarOk, BytesOk, ListOk, LenOk, hb]
    · simp [f, Fixtures.fieldOf, FieldRules.type, Java.scalarTpl, Java.bytesTpl, optB, optS, b,
        BytesRules.getIp, BytesRules.getIpv4, BytesRules.getIpv6]
  · intro f
    rw [accepts_scalar (Fixtures.only_field f) rfl rfl _ (by simp [f, Fixtures.fieldOf, FieldRules.type]),
      javaAccepts_scalar (Fixtures.only_field f) (only_notIgnored f) rfl rfl _
      (by simp [f, Fixtures.fieldOf, FieldRules.type])]
    refine ⟨?_, ?_⟩
    · simp [f, Fixtures.fieldOf, FieldRules.type, ScalarOk, BytesOk, ListOk, LenOk, hb]
    · simp [f, Fixtures.fieldOf, FieldRules.type, Java.scalarTpl, Java.bytesTpl, optB, optS, b,
        BytesRules.getIp, BytesRules.getIpv4, BytesRules.getIpv6]

end PGV.Props
