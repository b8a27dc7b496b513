import Verif.Lemmas.PyOne
import Verif.Lemmas.PyCache
import Verif.Props.Java
import Verif.Props.WellKnown

/-!
C48-C52, C65, C66: the Python validators and their agreement with Go.
-/

set_option linter.unusedSimpArgs false

namespace PGV.Props
open PGV PGV.Checker PGV.Py PGV.Py.Code PGV.Spec.Python
open PGV.Spec hiding Common FormatAgrees TextLibs LibsAgree PortString PortBytes PortEnum PortDuration
  PortType FitsScalar FitsVal FitsItem PortField Portable
open PGV.Go (Env accepts_iff checked_num checked_string checked_enum)

/-! ### Fixtures -/

/-- Python libraries in which nothing parses and no pattern matches, with the clock of
`Fixtures.env`. -/
def penv : PEnv where
  now := 1600000000 * scale
  quoted := fun _ => none
  listed := fun _ => false
  rawText := fun _ => false
  search := fun _ _ => none
  searchBytes := fun _ _ => none
  validateEmail := fun _ => false
  ipAddress := fun _ => false
  ipv4Address := fun _ => false
  ipv6Address := fun _ => false
  urlparse := fun _ => none
  int16 := fun _ => false
  other := fun _ => .ok ()
  order := fun l => l
  order_perm := fun l => List.Perm.refl l

/-- Nothing is assumed of the text libraries. -/
def noText : Common :=
  { pattern := fun _ => False, format := fun _ _ => False, google := fun _ => False, pair := fun _ => False }

theorem noText_agrees (E : Env) (P : PEnv) : TextLibs noText E P :=
  ⟨fun _ h => h.elim, fun _ _ h => h.elim⟩

/-- A scalar field whose code exists and whose rules and value are portable. -/
theorem py_scalar {E : Env} {P : PEnv} {S : Schema} {typ : String} {f : FieldDesc}
    (h : OnlyField S typ f) (hi : NotIgnored S typ) {e : ElemT} (hT : f.typ = .one e)
    (he : e.isEmbed = false) (v : Val) (hs : (scalarField P false f e false).isSome = true)
    (hp : PortOne noText S e f.rules v) :
    PyAccepts P S typ f v ↔ Accepts E S typ f v := by
  rw [pyAccepts_scalar h hi hT he, accepts_iff h,
    scalarField_ok (noText_agrees E P) (fun w => Go.validate E S false w = none) false f e v he hs hp]
  simp only [FieldOk, hT]

/-! ### C49 -/

variable {D M : Type}

/-- **C49, partial** If types with the same full name have the same rules, then in every session, with
any size of the cache and whatever was validated before, each call of `validate` returns or raises
exactly as if the validator were generated afresh for it. Missing: types of the same name with
different rules (in different descriptor pools), see `C49_same_name_differs`. -/
theorem C49_cache_transparent_partial (G : Generator D M) (hG : OnePool G) (cap n : Nat) (ms : List M) :
    (session G cap n .init ms).1 = ms.map (freshValidate G n) :=
  (session_good hG n ms .init (good_init G cap)).1

/-- C49: the cache never outgrows its size and holds one entry per name. -/
theorem C49_cache_bounded (G : Generator D M) (hG : OnePool G) (cap n : Nat) (ms : List M) :
    (session G cap n .init ms).2.cache.length ≤ cap ∧
      ((session G cap n .init ms).2.cache.map (·.1)).Nodup :=
  let h := (session_good hG n ms .init (good_init G cap)).2
  ⟨h.size, h.nodup⟩

/-- C49: with no more types than places in the cache, the validator of each type is generated at most
once, in every session. -/
theorem C49_generated_once (G : Generator D M) (cap n : Nat) (names : List String)
    (hn : names.length ≤ cap) (hall : ∀ d, G.name d ∈ names) (hc : ∀ d, (G.code d).isSome = true)
    (ms : List M) : ((session G cap n .init ms).2.printed.map G.name).Nodup :=
  (session_keeps (I := Kept G names) (fun _ d h => inner_kept hn hall hc h d) n ms .init
    (kept_init G names)).once

/-- Messages are numbers. Type `i / 10`, called "A" or "B"; "A" accepts, "B" validates the message
three below and fails if that succeeds. -/
def twoTypes : Generator Nat Nat where
  desc m := m / 10
  name d := if d = 0 then "A" else "B"
  renders _ := true
  code d := some fun m => if d = 0 then .done (.ok ()) else
    .call (m - 3) fun r => match r with | .ok _ => .done (.error (.failed "" [])) | .error _ => .done (.ok ())

/-- The partial theorem applies to nested calls and evictions: a cache with one place. -/
example : OnePool twoTypes ∧
    (session twoTypes 1 10 .init [5, 12, 5, 15]).1 = [.ok (), .error (.failed "" []), .ok (), .ok ()] ∧
    (session twoTypes 1 10 .init [5, 12, 5, 15]).2.printed = [0, 1, 0, 1, 0] := by
  refine ⟨?_, by rfl, by rfl⟩
  intro d d' h
  refine ⟨rfl, ?_⟩
  by_cases hd : d = 0 <;> by_cases hd' : d' = 0 <;> simp [twoTypes, hd, hd'] at h ⊢

/-- And `C49_generated_once` to a cache with two. -/
example : (session twoTypes 2 10 .init [5, 12, 5, 15]).2.printed = [0, 1] ∧
    (∀ d, twoTypes.name d ∈ ["A", "B"]) ∧ ["A", "B"].length ≤ 2 ∧
    ∀ d, (twoTypes.code d).isSome = true := by
  refine ⟨by rfl, fun d => ?_, by decide, fun d => rfl⟩
  by_cases hd : d = 0 <;> simp [twoTypes, hd]

/-- Two types in different pools that share the full name "A": one accepts everything, the other
nothing. -/
def twoPools : Generator Bool Bool where
  desc m := m
  name _ := "A"
  renders _ := true
  code d := some fun _ => .done (if d then .ok () else .error (.failed "" []))

/-- **C49, negation** The cache is keyed by the full name: of two types with the same name in
different pools, messages of the second are validated by the rules of the first. -/
theorem C49_same_name_differs (cap n : Nat) :
    freshValidate twoPools (n + 1) false = .error (.failed "" []) ∧
    (session twoPools (cap + 1) (n + 1) .init [true, false]).1 = [.ok (), .ok ()] := by
  constructor
  · rfl
  · rfl

/-! ### C69 -/

/-- **C69** After any session, the text kept for `print_validate` shows the validator of every type that
was validated and whose text could be made, whether or not Python accepted the text; it shows nothing
else than such texts; and it has only grown since any earlier moment. -/
theorem C69_print_validate (G : Generator D M) (cap n : Nat) (ms later : List M) :
    (∀ m ∈ ms, G.renders (G.desc m) = true →
      G.name (G.desc m) ∈ (session G cap (n + 1) .init ms).2.printed.map G.name) ∧
    (∀ d ∈ (session G cap (n + 1) .init ms).2.printed, G.renders d = true) ∧
    (session G cap (n + 1) .init ms).2.printed <+: (session G cap (n + 1) .init (ms ++ later)).2.printed := by
  have h := session_keeps (I := Shown G []) (fun st d hs => inner_shown (cap := cap) hs d) (n + 1) ms _
    (shown_init G)
  refine ⟨session_prints n ms .init [] (shown_init G), h.made, ?_⟩
  rw [session_append]
  exact (session_keeps (I := Shown G (session G cap (n + 1) .init ms).2.printed)
    (fun st d hs => inner_shown (cap := cap) hs d) (n + 1) later _
    ⟨h.cached, h.made, List.prefix_refl _⟩).all

/-- Two types, of which Python does not accept the text of the second: both are shown, the second once
for each attempt. -/
example : (session { twoTypes with code := fun d => if d = 0 then twoTypes.code d else none } 1 10 .init
    [5, 12, 5, 15]).2.printed = [0, 1, 1] := by rfl

/-! ### C50 -/

/-- The ways to limit a string to no characters or bytes. -/
def zeroStrings : List StringRules :=
  [{ len := some 0 }, { maxLen := some 0 }, { lenBytes := some 0 }, { maxBytes := some 0 }]

/-- **C50, negation** String limits of zero are ignored by Python: it accepts every string, where Go
accepts the empty string only. -/
theorem C50_string_zero_ignored (E : Env) (P : PEnv) (r : StringRules) (hr : r ∈ zeroStrings) :
    let f := Fixtures.fieldOf .string (.string r)
    Checked f ∧ (∀ s, PyAccepts P (Fixtures.only f) "M" f (.sc (.str s))) ∧
      ∀ s, Accepts E (Fixtures.only f) "M" f (.sc (.str s)) ↔ s = [] := by
  intro f
  simp only [zeroStrings, List.mem_cons, List.not_mem_nil, or_false] at hr
  rcases hr with rfl | rfl | rfl | rfl
  all_goals
    refine ⟨by unfold Checked; decide, fun s => ?_, fun s => ?_⟩
    · rw [pyAccepts_scalar (Fixtures.only_field f) (only_notIgnored f) (e := .string) rfl rfl]
      rfl
    · rw [accepts_string (Fixtures.only_field f) rfl rfl]
      rcases s with _ | ⟨b, s⟩
      · simp [StringOk, ListOk, LenOk, WellKnownOk, runeCount, runes_nil]
      · have : runes (b :: s) ≠ [] := by
          intro h
          have := congrArg List.length h
          rw [runes_cons] at this
          simp at this
        simp [StringOk, ListOk, LenOk, WellKnownOk, runeCount, this]

/-- **C50, negation** The same for bytes. -/
theorem C50_bytes_zero_ignored (E : Env) (P : PEnv) (r : BytesRules)
    (hr : r = { len := some 0 } ∨ r = { maxLen := some 0 }) :
    let f := Fixtures.fieldOf .bytes (.bytes r)
    Checked f ∧ (∀ s, PyAccepts P (Fixtures.only f) "M" f (.sc (.bytes s))) ∧
      ∀ s, Accepts E (Fixtures.only f) "M" f (.sc (.bytes s)) ↔ s = [] := by
  intro f
  rcases hr with rfl | rfl
  all_goals
    refine ⟨by unfold Checked; decide, fun s => ?_, fun s => ?_⟩
    · rw [pyAccepts_scalar (Fixtures.only_field f) (only_notIgnored f) (e := .bytes) rfl rfl]
      rfl
    · rw [accepts_bytes (Fixtures.only_field f) rfl rfl]
      simp [BytesOk, ListOk, LenOk]

/-- **C50, negation** `max_items: 0` and `max_pairs: 0` are ignored as well. -/
theorem C50_count_zero_ignored (E : Env) (P : PEnv) :
    (let f : FieldDesc := { name := "X", typ := .rep .string,
                            rules := .mk none (.repeated { maxItems := some 0 } .absent) }
     Checked f ∧ ∀ vs, PyAccepts P (Fixtures.only f) "M" f (.list vs) ∧
       (Accepts E (Fixtures.only f) "M" f (.list vs) ↔ vs = [])) ∧
    (let f : FieldDesc := { name := "X", typ := .map .string .string,
                            rules := .mk none (.map { maxPairs := some 0 } .absent .absent) }
     Checked f ∧ ∀ kvs, PyAccepts P (Fixtures.only f) "M" f (.map kvs) ∧
       (Accepts E (Fixtures.only f) "M" f (.map kvs) ↔ kvs = [])) := by
  have hu : FieldRules.absent.type = .unset := rfl
  refine ⟨?_, ?_⟩
  · intro f
    refine ⟨by unfold Checked; decide, fun vs => ⟨?_, ?_⟩⟩
    · rw [pyAccepts_iff (Fixtures.only_field f) (only_notIgnored f)]
      rfl
    · rw [accepts_iff (Fixtures.only_field f)]
      simp [FieldOk, f, FieldRules.type, RepeatedOk, CountOk, ValueOk, hu, ElemT.isEmbed]
  · intro f
    refine ⟨by unfold Checked; decide, fun vs => ⟨?_, ?_⟩⟩
    · rw [pyAccepts_iff (Fixtures.only_field f) (only_notIgnored f)]
      rfl
    · rw [accepts_iff (Fixtures.only_field f)]
      simp [FieldOk, f, FieldRules.type, MapOk, CountOk, ValueOk, hu, ElemT.isEmbed]
      rintro rfl k v hv
      simp at hv

/-- **C50, negation** `const: 0` on an enum is ignored by Python. -/
theorem C50_enum_const_zero_ignored (E : Env) (P : PEnv) (values : List Int) :
    let f := Fixtures.fieldOf (.enum values) (.enum { const := some 0 })
    ∀ i, PyAccepts P (Fixtures.only f) "M" f (.sc (.enum i)) ∧
      (Accepts E (Fixtures.only f) "M" f (.sc (.enum i)) ↔ i = 0) := by
  intro f i
  refine ⟨?_, ?_⟩
  · rw [pyAccepts_scalar (Fixtures.only_field f) (only_notIgnored f) (e := .enum values) rfl rfl]
    rfl
  · rw [accepts_scalar (Fixtures.only_field f) (e := .enum values) rfl rfl _ trivial]
    simp [ScalarOk, f, Fixtures.fieldOf, FieldRules.type, EnumOk, ListOk]

/-- **C50, partial** Length rules on strings whose limits are not zero: Python accepts exactly what
Go accepts. Missing: limits of zero, see above. -/
theorem C50_string_limits_partial (E : Env) (P : PEnv) (S : Schema) (typ : String) (f : FieldDesc)
    (h : OnlyField S typ f) (hi : NotIgnored S typ) (hT : f.typ = .one .string)
    (len minLen maxLen lenBytes minBytes maxBytes : Option Nat)
    (hr : f.rules = .mk none (.string { len, minLen, maxLen, lenBytes, minBytes, maxBytes }))
    (hc : Checked f)
    (hne : [len, minLen, maxLen, lenBytes, minBytes, maxBytes] ≠ [none, none, none, none, none, none])
    (h1 : len ≠ some 0) (h2 : maxLen ≠ some 0) (h3 : lenBytes ≠ some 0) (h4 : maxBytes ≠ some 0)
    (s : Bytes) (hs : Utf8 s) :
    PyAccepts P S typ f (.sc (.str s)) ↔ Accepts E S typ f (.sc (.str s)) := by
  have hty : f.rules.type = .string { len, minLen, maxLen, lenBytes, minBytes, maxBytes } := by
    rw [hr]; rfl
  obtain ⟨c1, c2⟩ := checkString_lens (checked_string hc hty)
  have hne' : ({ len, minLen, maxLen, lenBytes, minBytes, maxBytes } : StringRules) ≠ {} := by
    intro he
    simp only [StringRules.mk.injEq] at he
    apply hne
    simp [he]
  refine py_scalar h hi hT rfl _ ?_ ?_
  · simp only [scalarField, hr]
    rw [if_pos (by simp [hne'])]
    simp only [onScalar, Option.isSome_map, oneofText, strCode, optB, Bool.false_eq_true, if_false]
    simp [inCode, strLen, genPos, strPattern, StringRules.getRegex, knownRegex, strAffix, genText,
      strFormat, optS, raiseIf, stmt, StringRules.getEmail, StringRules.getHostname, StringRules.getAddress,
      StringRules.getIp, StringRules.getIpv4, StringRules.getIpv6, StringRules.getUri,
      StringRules.getUriRef, StringRules.getUuid, optB]
  · refine ⟨by rw [hty]; trivial, ?_, ?_, fun _ => by rw [hr]; rfl, fun _ => by rw [hr]; rfl⟩
    · rw [hty]
      exact ⟨c1, c2, rfl, h1, h2, h3, h4, by simp, by simp, by simp, by simp, by simp, rfl⟩
    · rw [hty]
      exact ⟨.str s, rfl, hs, by simp⟩

/-- A byte limit together with a length meets the hypotheses. -/
example : Checked (Fixtures.fieldOf .string (.string { minLen := some 0, maxLen := some 5, maxBytes := some 7 })) ∧
    Utf8 (asc "abc") :=
  ⟨by unfold Checked; decide, ⟨[0x61, 0x62, 0x63], by unfold ScalarValue; decide, by decide⟩⟩

/-! ### C51 -/

/-- **C51, partial** A numeric field of any kind, with rules the generator accepts that mention at
least one number, all of them finite, and without `ignore_empty: false`: Python accepts exactly the
values Go accepts, NaN and negative zero included. What is missing are the cases of the theorems
below. -/
theorem C51_python_numbers_partial (E : Env) (P : PEnv) (S : Schema) (typ : String) (f : FieldDesc)
    (h : OnlyField S typ f) (hi : NotIgnored S typ) (k : NumKind) (r : NumRules)
    (hT : f.typ = .one (.scalar k)) (hr : f.rules = .mk none (.num k r)) (hc : Checked f)
    (hf : ∀ b ∈ numbersOf r, Finite b) (hne : numbersOf r ≠ []) (hig : r.ignoreEmpty ≠ some false)
    (n : Num) :
    PyAccepts P S typ f (.sc (.num n)) ↔ Accepts E S typ f (.sc (.num n)) := by
  have hty : f.rules.type = .num k r := by rw [hr]; rfl
  refine py_scalar h hi hT rfl _ ?_ ?_
  · simp only [scalarField, hr]
    rw [if_pos (by simp [typeText_num hne, messageText])]
    simp only [onScalar, Option.isSome_map, numCode_some hne]
  · refine ⟨by rw [hty]; rfl, ?_, ?_, fun _ => by rw [hr]; rfl, fun _ => by rw [hr]; rfl⟩
    · rw [hty]
      exact ⟨checked_num hc hty, hig, hf⟩
    · rw [hty]
      exact ⟨.num n, rfl, trivial⟩

/-- An inverted range of doubles with `ignore_empty` meets the hypotheses. -/
example : let r : NumRules := { lt := some (.f64 0#64), gt := some (.f64 0x3FF0000000000000#64),
                                ignoreEmpty := some true }
    Checked (Fixtures.fieldOf (.scalar .double) (.num .double r)) ∧ (∀ b ∈ numbersOf r, Finite b) ∧
      numbersOf r ≠ [] ∧ r.ignoreEmpty ≠ some false := by
  refine ⟨by unfold Checked; decide +kernel, ?_, by simp [numbersOf], by decide⟩
  intro b hb
  simp [numbersOf] at hb
  rcases hb with rfl | rfl <;> simp [Finite]

/-- **C51, negation** `ignore_empty: false` means true in Python: under `gt: 5`, zero is accepted by
Python and rejected by Go. -/
theorem C51_ignore_empty_false (E : Env) (P : PEnv) :
    let f := Fixtures.fieldOf (.scalar .int32) (.num .int32 { gt := some (.int 5), ignoreEmpty := some false })
    Checked f ∧ PyAccepts P (Fixtures.only f) "M" f (.sc (.num (.int 0))) ∧
      ¬ Accepts E (Fixtures.only f) "M" f (.sc (.num (.int 0))) := by
  intro f
  refine ⟨by unfold Checked; decide, ?_, ?_⟩
  · rw [pyAccepts_scalar (Fixtures.only_field f) (only_notIgnored f) (e := .scalar .int32) rfl rfl]
    rfl
  · rw [accepts_scalar (Fixtures.only_field f) (e := .scalar .int32) rfl rfl _ trivial]
    simp [ScalarOk, f, Fixtures.fieldOf, FieldRules.type, NumOk, RangeOk, numUpper, numLower,
      Bound.AsLower, numVal]

/-- **C51, negation** An infinite bound crashes Python: under `lt: inf`, it raises NameError for every
value, zero for example, which the rule allows. (The Go code for it does not compile: C72.) -/
theorem C51_infinity_crashes (E : Env) (P : PEnv) :
    let f := Fixtures.fieldOf (.scalar .float) (.num .float { lt := some (.f32 0x7F800000#32) })
    Checked f ∧ Py.validate P (Fixtures.only f) (.msg "M" [("X", .sc (.num (.f32 0#32)))] []) = .error .crash ∧
      Accepts E (Fixtures.only f) "M" f (.sc (.num (.f32 0#32))) := by
  intro f
  refine ⟨by unfold Checked; decide, by rfl, ?_⟩
  rw [accepts_scalar (Fixtures.only_field f) (e := .scalar .float) rfl rfl _ trivial]
  refine .inr ⟨by simp, ?_, by simp [ListOk]⟩
  intro x hx
  have e : numVal (.f32 0#32) = some 0 := by decide
  rw [e] at hx
  cases hx
  have e : numUpper { lt := some (.f32 0x7F800000#32) } = some ⟨true, 8388608 * 2 ^ 254⟩ := by
    simp [numUpper, numVal, f32Val]
  show RangeOk (numUpper _) none 0
  rw [e]
  simp [RangeOk, Bound.AsUpper]

/-- **C51, negation** Empty numeric rules crash Python whatever the value; Go accepts. -/
theorem C51_empty_rules_crash (E : Env) (P : PEnv) (k : NumKind) (n : Num) :
    let f := Fixtures.fieldOf (.scalar k) (.num k {})
    Py.validate P (Fixtures.only f) (.msg "M" [("X", .sc (.num n))] []) = .error .crash ∧
      Accepts E (Fixtures.only f) "M" f (.sc (.num n)) := by
  intro f
  refine ⟨by rfl, ?_⟩
  rw [accepts_scalar (Fixtures.only_field f) (e := .scalar k) rfl rfl _ trivial]
  exact numOk_empty n

/-! ### C48 -/

/-- The two languages read the same clock, which shows the whole second `now`. -/
def SameSecond (E : Env) (P : PEnv) (now : PTime) : Prop :=
  WholeTime now ∧ E.now = instant now ∧ P.now = now.seconds * scale

/-- A window that the generator accepts is not empty. -/
theorem within_pos {r : TimestampRules} (hc : checkTimestamp r = true) {w : PDur}
    (hw : r.within = some w) : 0 < w.asDuration := by
  unfold checkTimestamp at hc
  simp only [Bool.and_eq_true] at hc
  have := hc
  simp [hw] at this
  grind

theorem window_alone (a b c : Int) : (a < b + c ∧ b - c < a) ↔
    (b * 1000000000 - c * 1000000000 < a * 1000000000 ∧
      a * 1000000000 < b * 1000000000 + c * 1000000000) := by omega

theorem window_gt (a b c : Int) : (b < a ∧ a < b + c) ↔
    (b * 1000000000 < a * 1000000000 ∧ a * 1000000000 < b * 1000000000 + c * 1000000000) := by omega

theorem window_lt (a b c : Int) : (a < b ∧ b - c < a) ↔
    (a * 1000000000 < b * 1000000000 ∧ b * 1000000000 - c * 1000000000 < a * 1000000000) := by omega

theorem window_ends (now w x : Int) (h1 : x ≠ now - w) (h2 : x ≠ now + w) :
    (now - w < x ↔ now - w ≤ x) ∧ (x < now + w ↔ x ≤ now + w) := by omega

theorem py_within {E : Env} {P : PEnv} {S : Schema} {typ : String} {f : FieldDesc}
    (h : OnlyField S typ f) (hi : NotIgnored S typ) {now : PTime} (hclock : SameSecond E P now)
    {n : String} {wkt : Option WKT} {m : Option MessageRules} {lt gt : Option Bool} {w : PDur}
    (hT : f.typ = .one (.embed n wkt))
    (hr : f.rules = .mk m (.timestamp { ltNow := lt, gtNow := gt, within := some w }))
    (hc : Checked f) (pw : WholeDur w) {t : PTime} (vt : WholeTime t) :
    0 < w.exact ∧ (lt = none ∨ gt = none) ∧
    (PyAccepts P S typ f (.ts t) ↔
      if lt.isSome then instant t < E.now ∧ E.now - w.exact < instant t
      else if gt.isSome then E.now < instant t ∧ instant t < E.now + w.exact
      else E.now - w.exact < instant t ∧ instant t < E.now + w.exact) ∧
    (Accepts E S typ f (.ts t) ↔
      if lt.isSome then instant t < E.now ∧ E.now - w.exact ≤ instant t
      else if gt.isSome then E.now < instant t ∧ instant t ≤ E.now + w.exact
      else E.now - w.exact < instant t ∧ instant t < E.now + w.exact) := by
  have hty : f.rules.type = .timestamp { ltNow := lt, gtNow := gt, within := some w } := by
    rw [hr]; rfl
  have hck := Go.checked_timestamp hc hty
  obtain ⟨hn, hE, hP⟩ := hclock
  have hwd := dur_secs pw
  have hns := time_secs hn
  have hts := time_secs vt
  have hn3 : now.seconds.natAbs < 2 ^ 52 := by
    have := hn.1
    simp only [PTime.valid, Bool.and_eq_true, decide_eq_true_eq] at this
    omega
  have hw3 : w.seconds.natAbs < 2 ^ 52 := by
    have h1 := pw.1.2
    have h2 := exact_whole pw
    unfold minInt64 maxInt64 at h1
    omega
  have hx : secsOf (.ts t) = t.seconds * scale := by
    rw [secsOf, hts.2, valueSecs_whole _ hts.1]
  have hadd : roundDouble (P.now + durLit w) = (now.seconds + w.seconds) * scale := by
    rw [hP, durLit_whole pw, ← Int.add_mul, roundDouble_exact]
    omega
  have hsub : roundDouble (P.now - durLit w) = (now.seconds - w.seconds) * scale := by
    rw [hP, durLit_whole pw, ← Int.sub_mul, roundDouble_exact]
    omega
  have hpos : 0 < w.exact := by
    have := within_pos hck rfl
    rwa [Java.portDur_asDuration pw.1] at this
  have hxor : lt = none ∨ gt = none := by
    cases hl : lt with
    | none => exact .inl rfl
    | some a =>
      cases hg : gt with
      | none => exact .inr rfl
      | some b => simp [checkTimestamp, hl, hg] at hck
  have ei := instant_whole vt
  have en := instant_whole hn
  have ew := exact_whole pw
  have en' : E.now = now.seconds * 1000000000 := hE.trans en
  refine ⟨hpos, hxor, ?_, ?_⟩
  · obtain ⟨rec, hrun⟩ := pyAccepts_message (P := P) h hi hT (by simp [hr]) (.ts t)
    rw [hrun]
    simp only [messageField, hr]
    rw [if_pos (by simp)]
    have hsome : (timestampCode P (pName f) .field { ltNow := lt, gtNow := gt, within := some w }).isSome = true := by
      cases lt <;> cases gt <;> rfl
    unfold timestampCode at hsome ⊢
    simp only [some_seq] at hsome
    simp only [run_seq, run_required, run_block hsome.2, run_onSecs_ts, hx]
    have hg : Place.field.guard (.ts t) = true := rfl
    have hh : Place.field.has (.ts t) = true := rfl
    simp only [hg, true_implies, hh, reduceCtorEq, false_implies, true_and]
    simp only [tsBody, run_seq, run_stmt, run_genOpt, reduceCtorEq, false_implies, implies_true, true_and,
      Option.isSome_none, Bool.or_false, Bool.false_eq_true, if_false, tsNow]
    rcases lt with _ | a <;> rcases gt with _ | b
    · simp only [run_raiseIf, hadd, hsub, Bool.or_eq_false_iff, decide_eq_false_iff_not, Int.not_le,
        ge_iff_le, scale_lt, Option.isSome_none, Bool.false_eq_true, if_false, ei, en', ew]
      exact window_alone _ _ _
    · simp only [run_raiseIf, hadd, hsub]
      simp only [hP, Bool.or_eq_false_iff, decide_eq_false_iff_not, Int.not_le, ge_iff_le, scale_lt,
        Option.isSome_none, Bool.false_eq_true, if_false, Option.isSome_some, if_true, ei, en', ew]
      exact window_gt _ _ _
    · simp only [run_raiseIf, hadd, hsub]
      simp only [hP, Bool.or_eq_false_iff, decide_eq_false_iff_not, Int.not_le, ge_iff_le, scale_lt,
        Option.isSome_none, Bool.false_eq_true, if_false, Option.isSome_some, if_true, ei, en', ew]
      exact window_lt _ _ _
    · simp at hxor
  · rw [accepts_iff h]
    simp only [FieldOk, hT, ValueOk, hty, TimestampOk, tsUpper, tsLower, Option.map_none, RangeOk, true_and,
      vt.1]
    have hcon : TsConstrained { ltNow := lt, gtNow := gt, within := some w } := by simp [TsConstrained]
    simp only [hcon, true_implies, reduceCtorEq, false_implies, implies_true, true_and, NowOk]
    rcases lt with _ | a <;> rcases gt with _ | b <;> simp <;> omega

/-- **C48, partial** `within` on its own, at whole seconds and with a clock at a whole second: Python
accepts exactly the instants Go accepts. Missing: fractions of a second, where Python computes with
doubles (see C67), and windows over 292 years. -/
theorem C48_python_alone_partial (E : Env) (P : PEnv) (S : Schema) (typ : String) (f : FieldDesc)
    (h : OnlyField S typ f) (hi : NotIgnored S typ) (now : PTime) (hclock : SameSecond E P now)
    (n : String) (wkt : Option WKT) (m : Option MessageRules) (w : PDur)
    (hT : f.typ = .one (.embed n wkt)) (hr : f.rules = .mk m (.timestamp { within := some w }))
    (hc : Checked f) (pw : WholeDur w) (t : PTime) (vt : WholeTime t) :
    PyAccepts P S typ f (.ts t) ↔ Accepts E S typ f (.ts t) := by
  obtain ⟨-, -, h1, h2⟩ := py_within h hi hclock hT hr hc pw vt
  rw [h1, h2]
  simp

/-- **C48, negation** `lt_now` with `within`: exactly at the far end of the window Go accepts and
Python rejects. -/
theorem C48_python_far_end_differs (E : Env) (P : PEnv) (S : Schema) (typ : String) (f : FieldDesc)
    (h : OnlyField S typ f) (hi : NotIgnored S typ) (now : PTime) (hclock : SameSecond E P now)
    (n : String) (wkt : Option WKT) (m : Option MessageRules) (w : PDur) (b : Bool)
    (hT : f.typ = .one (.embed n wkt)) 
    (hr : f.rules = .mk m (.timestamp { ltNow := some b, within := some w }))
    (hc : Checked f) (pw : WholeDur w) (t : PTime) (vt : WholeTime t)
    (ht : instant t = E.now - w.exact) :
    Accepts E S typ f (.ts t) ∧ ¬ PyAccepts P S typ f (.ts t) := by
  obtain ⟨h0, -, h1, h2⟩ := py_within h hi hclock hT hr hc pw vt
  rw [h1, h2, ht]
  simp
  omega

/-- **C48, partial** Everywhere else, `within` combined with `lt_now` or `gt_now` means the same in
Python and Go, at whole seconds. -/
theorem C48_python_combined_partial (E : Env) (P : PEnv) (S : Schema) (typ : String) (f : FieldDesc)
    (h : OnlyField S typ f) (hi : NotIgnored S typ) (now : PTime) (hclock : SameSecond E P now)
    (n : String) (wkt : Option WKT) (m : Option MessageRules) (w : PDur) (lt gt : Option Bool)
    (hT : f.typ = .one (.embed n wkt))
    (hr : f.rules = .mk m (.timestamp { ltNow := lt, gtNow := gt, within := some w }))
    (hc : Checked f) (pw : WholeDur w) (t : PTime) (vt : WholeTime t)
    (ht : instant t ≠ E.now - w.exact ∧ instant t ≠ E.now + w.exact) :
    PyAccepts P S typ f (.ts t) ↔ Accepts E S typ f (.ts t) := by
  obtain ⟨h0, hx, h1, h2⟩ := py_within h hi hclock hT hr hc pw vt
  rw [h1, h2]
  obtain ⟨ha, hb⟩ := window_ends _ _ _ ht.1 ht.2
  rcases lt with _ | a <;> rcases gt with _ | b <;> simp [ha, hb]

/-- A window of an hour, and the instant at its far end. -/
example : let f := Fixtures.fieldOf (.embed "T" none) (.timestamp { ltNow := some true, within := some ⟨3600, 0⟩ })
    SameSecond Fixtures.env penv ⟨1600000000, 0⟩ ∧ Checked f ∧ WholeDur ⟨3600, 0⟩ ∧
      WholeTime ⟨1599996400, 0⟩ ∧ instant ⟨1599996400, 0⟩ = Fixtures.env.now - (⟨3600, 0⟩ : PDur).exact := by
  refine ⟨⟨⟨by decide, rfl⟩, by decide, rfl⟩, by unfold Checked; decide,
    ⟨⟨by decide, by decide, by decide⟩, rfl⟩, ⟨by decide, rfl⟩, by decide⟩

/-! ### C52 -/

/-- **C52** Go and Python accept the same ASCII strings as hostnames (C++: `C52_cpp_agrees`). -/
theorem C52_python_agrees (E : Env) (P : PEnv) (S : Schema) (typ : String) (f : FieldDesc)
    (h : OnlyField S typ f) (hi : NotIgnored S typ) (hT : f.typ = .one .string)
    (hr : f.rules = .mk none (.string { wellKnown := some (.hostname true) })) (s : Bytes)
    (hs : ∀ b ∈ s, b < 0x80) :
    PyAccepts P S typ f (.sc (.str s)) ↔ Accepts E S typ f (.sc (.str s)) := by
  rw [py_hostname h hi hT hr, hostName_iff, accepts_string h hT hr, ← Go.hostname_ascii (E := E) hs]
  simp [StringOk, ListOk, LenOk, WellKnownOk]

/-- C52: Python accepts exactly the hostnames, whatever the bytes of the string. -/
theorem C52_python_hostname (P : PEnv) (S : Schema) (typ : String) (f : FieldDesc)
    (h : OnlyField S typ f) (hi : NotIgnored S typ) (hT : f.typ = .one .string)
    (hr : f.rules = .mk none (.string { wellKnown := some (.hostname true) })) (s : Bytes) :
    PyAccepts P S typ f (.sc (.str s)) ↔ Hostname s := by
  rw [py_hostname h hi hT hr, hostName_iff]

/-- The theorems apply to a one-field type, a hostname and a string that is none. -/
example : let f := Fixtures.fieldOf .string (.string { wellKnown := some (.hostname true) })
    OnlyField (Fixtures.only f) "M" f ∧ NotIgnored (Fixtures.only f) "M" ∧
    PyAccepts penv (Fixtures.only f) "M" f (.sc (.str (asc "Ex-1.org."))) ∧
    ¬ PyAccepts penv (Fixtures.only f) "M" f (.sc (.str (asc "a..b"))) := by
  intro f
  refine ⟨Fixtures.only_field _, only_notIgnored _, ?_, ?_⟩
  · rw [py_hostname (Fixtures.only_field f) (only_notIgnored f) rfl rfl]
    decide +kernel
  · rw [py_hostname (Fixtures.only_field f) (only_notIgnored f) rfl rfl]
    decide +kernel

/-! ### C65 -/

/-- **C65, partial** Whole messages, of any type and nesting: if the libraries agree, the text of the
validators parses, and rules and values are in the common part of the languages (`Portable`), then
Python accepts the message exactly when Go's `Validate()` does. Missing: what `Portable` excludes; the
theorems below show that the languages do differ there. -/
theorem C65_python_agrees_partial (C : Common) (E : Env) (P : PEnv) (S : Schema) (hL : LibsAgree C E P S)
    (typ : String) (d : MsgDesc) (hS : S typ = .generated d) (hi : d.ignored = false)
    (fs : List (String × Val)) (os : List (String × String × Val))
    (hP : Portable C P S (.msg typ fs os)) :
    Py.validate P S (.msg typ fs os) = .ok () ↔ Go.validate E S false (.msg typ fs os) = none := by
  have := Py.fuel_ok hL (Go.depth (.msg typ fs os)) (.msg typ fs os) (Nat.le_refl _) hP
  unfold Py.validate
  rw [this]
  simp [EmbeddedOk, hS, hi]

theorem pyFixtures_agree : LibsAgree noText Fixtures.env penv Fixtures.schema where
  toTextLibs := noText_agrees _ _
  google := by intro n h; cases h
  pair := by intro n k v h; cases h
  clock := by
    show 1600000000 * scale * 1000000000 = 1600000000000000000 * scale
    omega
  other := by
    intro v _
    simp only [penv, EmbeddedOk, true_iff]
    split
    · split <;> simp [Fixtures.env]
    · trivial

/-- The valid person is portable. -/
theorem py_ann_portable : Portable noText penv Fixtures.schema Fixtures.ann := by
  intro typ fs os d hp hd
  have := part_ann hp (by simp)
  simp only [Fixtures.ann, Val.msg.injEq] at this
  obtain ⟨rfl, rfl, rfl⟩ := this
  have hd' : d = Fixtures.person := by
    simpa [Fixtures.schema, eq_comm] using hd
  subst hd'
  refine ⟨fun rec => by rfl, fun _ _ => ⟨?_, ?_⟩⟩
  · intro f hf
    simp only [Fixtures.person, List.mem_cons, List.not_mem_nil, or_false] at hf
    rcases hf with rfl | rfl | rfl
    · refine ⟨rfl, ⟨by decide, by decide, ?_⟩, ⟨_, rfl, trivial⟩, fun _ => rfl, fun _ => rfl⟩
      intro b hb
      simp [numbersOf, Fixtures.age, FieldRules.type] at hb
      subst hb
      trivial
    · refine ⟨trivial, ⟨by decide, by decide, by decide, by decide, by decide, by decide, by decide, ?_,
        by decide, by simp [Fixtures.nick], by simp [Fixtures.nick], by simp [Fixtures.nick], rfl⟩,
        ⟨_, rfl, ?_, by simp [Fixtures.nick]⟩, fun _ => rfl, fun _ => rfl⟩
      · simp [Fixtures.nick]
      · exact ⟨[97, 110, 110], by unfold ScalarValue; decide, by decide⟩
    · refine ⟨rfl, [], rfl, ?_, fun _ _ h => h⟩
      intro v hv
      cases hv
  · intro o ho
    simp only [Fixtures.person, List.mem_cons, List.not_mem_nil, or_false] at ho
    subst ho
    refine ⟨by decide, ?_⟩
    intro m u hl
    have : m = "Phone" ∧ u = .sc (.str (asc "555")) := by
      simpa [Fixtures.contact, eq_comm] using hl
    obtain ⟨rfl, rfl⟩ := this
    refine ⟨{ name := "Phone", typ := .one .string, rules := .mk none (.string { minLen := some 2 }) },
      by simp [Fixtures.contact], rfl, ?_⟩
    refine ⟨trivial, ⟨by decide, by decide, by decide, by decide, by decide, by decide, by decide, by simp,
      by decide, by simp, by simp, by simp, rfl⟩, ⟨_, rfl, ?_, by simp⟩, fun _ => rfl, fun _ => rfl⟩
    exact ⟨[53, 53, 53], by unfold ScalarValue; decide, by decide⟩

example : Py.validate penv Fixtures.schema Fixtures.ann = .ok () :=
  (C65_python_agrees_partial noText Fixtures.env penv Fixtures.schema pyFixtures_agree "Person"
    Fixtures.person rfl rfl _ _ py_ann_portable).2 (by rfl)

/-- **C65, exception** `not_contains: ""` has no effect in Python; in Go it rejects every string. -/
theorem C65_not_contains_empty (E : Env) (P : PEnv) :
    let f := Fixtures.fieldOf .string (.string { notContains := some [] })
    Checked f ∧ ∀ s, PyAccepts P (Fixtures.only f) "M" f (.sc (.str s)) ∧
      ¬ Accepts E (Fixtures.only f) "M" f (.sc (.str s)) := by
  intro f
  refine ⟨by unfold Checked; decide, fun s => ⟨?_, ?_⟩⟩
  · rw [pyAccepts_scalar (Fixtures.only_field f) (only_notIgnored f) (e := .string) rfl rfl]
    rfl
  · rw [accepts_string (Fixtures.only_field f) rfl rfl]
    simp [StringOk]

/-- **C65, exception** Rules on list items of type bytes have no effect in Python: under `min_len: 5`
it accepts a list with an empty item, which Go rejects. -/
theorem C65_bytes_items_ignored (E : Env) (P : PEnv) :
    let f : FieldDesc := { name := "X", typ := .rep .bytes,
                           rules := .mk none (.repeated {} (.mk none (.bytes { minLen := some 5 }))) }
    Checked f ∧ PyAccepts P (Fixtures.only f) "M" f (.list [.sc (.bytes [])]) ∧
      ¬ Accepts E (Fixtures.only f) "M" f (.list [.sc (.bytes [])]) := by
  intro f
  refine ⟨by unfold Checked; decide, ?_, ?_⟩
  · rw [pyAccepts_iff (Fixtures.only_field f) (only_notIgnored f)]
    rfl
  · rw [accepts_iff (Fixtures.only_field f)]
    simp [FieldOk, f, FieldRules.type, RepeatedOk, CountOk, ValueOk, ElemT.isEmbed, ScalarOk, BytesOk,
      LenOk]

/-- **C65, exception** `required` on the items of a list of durations rejects every list with an item
in Python; Go accepts them. -/
theorem C65_required_items_fail (E : Env) (P : PEnv) (d : PDur) :
    let f : FieldDesc := { name := "X", typ := .rep (.embed "google.protobuf.Duration" none),
                           rules := .mk none (.repeated {} (.mk (some { skip := some true }) (.duration { required := some true }))) }
    ¬ PyAccepts P (Fixtures.only f) "M" f (.list [.dur d]) ∧
      Accepts E (Fixtures.only f) "M" f (.list [.dur d]) := by
  intro f
  refine ⟨?_, ?_⟩
  · rw [pyAccepts_iff (Fixtures.only_field f) (only_notIgnored f)]
    intro h
    have e : ∀ rec, (fieldCode P rec false f).run (.list [.dur d]) =
        .error (.failed "item" [.s "is required."]) := fun _ => rfl
    rw [e] at h
    cases h
  · rw [accepts_iff (Fixtures.only_field f)]
    simp [FieldOk, f, FieldRules.type, FieldRules.message, RepeatedOk, CountOk, ValueOk, ElemT.isEmbed,
      DurationOk, durUpper, durLower, DurConstrained]

/-- **C65, exception** `not_in` together with `lt` on a duration makes Python text that does not parse:
every call raises. Go accepts for example zero seconds. -/
theorem C65_duration_not_in_lt_crashes (E : Env) (P : PEnv) :
    let f := Fixtures.fieldOf (.embed "google.protobuf.Duration" none)
      (.duration { notIns := [⟨1, 0⟩], lt := some ⟨2, 0⟩ })
    Checked f ∧ (∀ v, ¬ PyAccepts P (Fixtures.only f) "M" f v) ∧
      Accepts E (Fixtures.only f) "M" f (.dur ⟨0, 0⟩) := by
  intro f
  refine ⟨by unfold Checked; decide, fun v => ?_, ?_⟩
  · rw [pyAccepts_iff (Fixtures.only_field f) (only_notIgnored f)]
    intro h
    have e : ∀ rec, fieldCode P rec false f = none := fun _ => rfl
    rw [e] at h
    cases h
  · rw [accepts_iff (Fixtures.only_field f)]
    refine fun _ => ⟨by decide, by simp, ?_, ?_⟩
    · simp [durUpper, durLower, DurRangeOk, Bound.AsUpper]
      decide
    · simp [ListOk]
      decide

/-- Messages of type "M" have a map from strings to messages of type "N", whose age must be
positive. -/
def mapSchema (f : FieldDesc) : Schema := fun t =>
  if t = "M" then .generated { name := "M", fields := [f], oneofs := [] }
  else if t = "N" then .generated { name := "N", fields := [Fixtures.age], oneofs := [] }
  else .foreign

/-- **C65, exception** When the keys of a map have rules, Python does not validate its message
values; Go does. -/
theorem C65_map_values_unvalidated (E : Env) (P : PEnv) :
    let f : FieldDesc := { name := "X", typ := .map .string (.embed "N" none),
                           rules := .mk none (.map {} (.mk none (.string { minLen := some 1 })) .absent) }
    let v : Val := .map [(.str (asc "k"), .msg "N" [("Age", .sc (.num (.int 0)))] [])]
    Checked f ∧ PyAccepts P (mapSchema f) "M" f v ∧ ¬ Accepts E (mapSchema f) "M" f v := by
  intro f v
  have ho : OnlyField (mapSchema f) "M" f := ⟨_, rfl, rfl, rfl, rfl⟩
  have hi : NotIgnored (mapSchema f) "M" := by
    intro d h
    cases h
    rfl
  refine ⟨by unfold Checked; decide, ?_, ?_⟩
  · rw [pyAccepts_iff ho hi]
    have hperm : P.order [(.str (asc "k"), .msg "N" [("Age", .sc (.num (.int 0)))] [])] =
        [(.str (asc "k"), .msg "N" [("Age", .sc (.num (.int 0)))] [])] :=
      List.perm_singleton.1 (P.order_perm _)
    show Code.run (some [_]) _ = _
    simp only [run, runAll_one, entriesOf, v, hperm]
    rfl
  · intro h
    have e := (accepts_iff (E := E) ho v).1 h
    simp [FieldOk, f, v, FieldRules.type, FieldRules.message, MapOk, ValueOk, ElemT.isEmbed, EmbeddedOk,
      msgSkip, optB, mapSchema] at e
    have hage := e.2.2
    have hn : OnlyField (mapSchema f) "N" Fixtures.age := ⟨_, rfl, rfl, rfl, rfl⟩
    have := (accepts_scalar (E := E) hn (e := .scalar .int32) rfl rfl (.num (.int 0)) trivial).1 hage
    simp [ScalarOk, Fixtures.age, FieldRules.type, NumOk, RangeOk, numUpper, numLower,
      Bound.AsLower, numVal] at this

/-! ### C66 -/

/-- What Python accepts under a header `well_known_regex`: what Go accepts, and, because Python's `$`
also matches before a newline at the end, such a string followed by a newline. -/
theorem C66_python_headers (E : Env) (hE : RegexpAgrees E) (P : PEnv) (S S' : Schema) (typ : String)
    (compiles : Bytes → Bool) (f f' : FieldDesc) (h : OnlyField S typ f) (h' : OnlyField S' typ f')
    (hi : NotIgnored S typ) (k : KnownRegex) (hk : k = .headerName ∨ k = .headerValue) (strict : Option Bool)
    (hT : f.typ = .one .string) (hr : f.rules = .mk none (.string (headerRules k strict)))
    (hf : checkField compiles f = some f') (s : Bytes) (hs : Utf8 s) :
    PyAccepts P S typ f (.sc (.str s)) ↔
      Accepts E S' typ f' (.sc (.str s)) ∨
      ∃ t, Utf8 t ∧ s = t ++ [0x0A] ∧ Accepts E S' typ f' (.sc (.str t)) := by
  obtain ⟨p, e, body, hp, he, hkr, hb⟩ := header_test strict hk
  have hku : k ≠ .unknown := by rcases hk with rfl | rfl <;> simp
  rw [py_header h hi hT hr hkr, anchored_iff hs, hb]
  have hA : ∀ t, Accepts E S' typ f' (.sc (.str t)) ↔ Re.Matches e (runes t) := fun t =>
    accepts_header hE h' hT hr hf hku hp he t
  simp only [hA, hb, pstr]

/-- **C66, partial** On strings that do not end in a newline, Python's `well_known_regex` accepts
exactly what Go's accepts. Missing: strings that do, see `C66_newline_accepted`. -/
theorem C66_no_newline_partial (E : Env) (hE : RegexpAgrees E) (P : PEnv) (S S' : Schema) (typ : String)
    (compiles : Bytes → Bool) (f f' : FieldDesc) (h : OnlyField S typ f) (h' : OnlyField S' typ f')
    (hi : NotIgnored S typ) (k : KnownRegex) (hk : k = .headerName ∨ k = .headerValue) (strict : Option Bool)
    (hT : f.typ = .one .string) (hr : f.rules = .mk none (.string (headerRules k strict)))
    (hf : checkField compiles f = some f') (s : Bytes) (hs : Utf8 s) (hnl : s.getLast? ≠ some 0x0A) :
    PyAccepts P S typ f (.sc (.str s)) ↔ Accepts E S' typ f' (.sc (.str s)) := by
  rw [C66_python_headers E hE P S S' typ compiles f f' h h' hi k hk strict hT hr hf s hs]
  refine ⟨fun hh => hh.elim id ?_, .inl⟩
  rintro ⟨t, -, rfl, -⟩
  simp at hnl

/-- **C66, negation** A header value followed by a newline is accepted by Python and rejected by Go,
under `strict` or not. (The newline is what makes header injection possible.) -/
theorem C66_newline_accepted (E : Env) (hE : RegexpAgrees E) (P : PEnv) (S S' : Schema) (typ : String)
    (compiles : Bytes → Bool) (f f' : FieldDesc) (h : OnlyField S typ f) (h' : OnlyField S' typ f')
    (hi : NotIgnored S typ) (strict : Option Bool)
    (hT : f.typ = .one .string) (hr : f.rules = .mk none (.string (headerRules .headerValue strict)))
    (hf : checkField compiles f = some f') :
    PyAccepts P S typ f (.sc (.str (asc "a\n"))) ∧ ¬ Accepts E S' typ f' (.sc (.str (asc "a\n"))) := by
  have hs : Utf8 (asc "a\n") := ⟨[0x61, 0x0A], by unfold ScalarValue; decide, by decide⟩
  have ha : Utf8 (asc "a") := ⟨[0x61], by unfold ScalarValue; decide, by decide⟩
  rw [C66_python_headers E hE P S S' typ compiles f f' h h' hi .headerValue (.inr rfl) strict hT hr hf _ hs]
  by_cases hst : strict = some false
  · subst hst
    have hg := C33_nonstrict E hE S' typ compiles f f' h' .headerValue (.inr rfl) hT hr hf
    simp only [hg]
    exact ⟨.inr ⟨asc "a", ha, by decide, by unfold HeaderString; decide⟩, by unfold HeaderString; decide⟩
  · have hg := C33_value E hE S' typ compiles f f' h' strict hT hr hf hst
    simp only [hg]
    exact ⟨.inr ⟨asc "a", ha, by decide, by unfold HeaderValue; decide⟩, by unfold HeaderValue; decide⟩

/-- The theorems about headers apply. -/
example : ∃ f', checkField (fun _ => true) (Fixtures.fieldOf .string (.string (headerRules .headerValue none))) =
    some f' ∧ OnlyField (Fixtures.only f') "M" f' :=
  ⟨_, rfl, Fixtures.only_field _⟩

/-- **C66, partial** Python accepts every UUID that Go accepts. Missing: the converse, see
`C66_uuid_forms`. -/
theorem C66_uuid_partial (E : Env) (P : PEnv) (S : Schema) (typ : String) (f : FieldDesc)
    (h : OnlyField S typ f) (hi : NotIgnored S typ) (hT : f.typ = .one .string)
    (hr : f.rules = .mk none (.string { wellKnown := some (.uuid true) })) (s : Bytes)
    (hs : Accepts E S typ f (.sc (.str s))) : PyAccepts P S typ f (.sc (.str s)) := by
  rw [py_uuid h hi hT hr]
  exact uuidOk_of P s ((C16_uuid E S typ f h none hT hr s).1 hs)

/-- **C66, negation** Python also accepts UUIDs without hyphens, in braces or as URNs; Go rejects
them. -/
theorem C66_uuid_forms (E : Env) (P : PEnv) :
    let f := Fixtures.fieldOf .string (.string { wellKnown := some (.uuid true) })
    ∀ s ∈ [asc "00112233445566778899aabbccddeeff", asc "{00112233-4455-6677-8899-aabbccddeeff}",
        asc "urn:uuid:00112233-4455-6677-8899-aabbccddeeff"],
      PyAccepts P (Fixtures.only f) "M" f (.sc (.str s)) ∧ ¬ Accepts E (Fixtures.only f) "M" f (.sc (.str s)) := by
  intro f s hs
  rw [py_uuid (Fixtures.only_field f) (only_notIgnored f) rfl rfl,
    C16_uuid E _ _ f (Fixtures.only_field f) none rfl rfl, ← validateUuid_iff]
  simp only [List.mem_cons, List.not_mem_nil, or_false] at hs
  rcases hs with rfl | rfl | rfl
  all_goals
    constructor
    · unfold uuidOk
      rw [Bool.and_eq_true, Bool.or_eq_true]
      exact ⟨by decide +kernel, .inl (by decide +kernel)⟩
    · decide +kernel

/-! ### C67 -/

/-- **C67, partial** Duration rules, with values and durations below 292 years: once its text parses,
Python accepts exactly what Go accepts, for durations that are not within a rounding error of one in
the rules (`ClearDur`): the durations are whole seconds or further apart than one part in 2^51. Missing:
durations so close to a bound, see below. -/
theorem C67_durations_partial (E : Env) (P : PEnv) (S : Schema) (typ : String) (f : FieldDesc)
    (h : OnlyField S typ f) (hi : NotIgnored S typ) (n : String) (wkt : Option WKT)
    (m : Option MessageRules) (r : DurationRules) (hT : f.typ = .one (.embed n wkt))
    (hr : f.rules = .mk m (.duration r)) (hne : r ≠ {}) (hs : (durationCode (pName f) .field r).isSome = true)
    (hp : PortDuration r) (d : PDur) (hd : ClearDur r d) :
    PyAccepts P S typ f (.dur d) ↔ Accepts E S typ f (.dur d) := by
  have hty : f.rules.type = .duration r := by rw [hr]; rfl
  obtain ⟨rec, hrun⟩ := pyAccepts_message (P := P) h hi hT (by simp [hr]) (.dur d)
  rw [hrun, accepts_iff h]
  simp only [messageField, hr, FieldOk, hT, ValueOk, FieldRules.type]
  rw [if_pos (by simpa using hne)]
  exact durationCode_some .field hs (fun h => by cases h) hp d hd

/-- The same for timestamps (`ClearTime`), with a clock that shows a whole number of nanoseconds
exactly. -/
theorem C67_timestamps_partial (E : Env) (P : PEnv) (hclock : P.now * 1000000000 = E.now * 2 ^ 1074)
    (S : Schema) (typ : String) (f : FieldDesc)
    (h : OnlyField S typ f) (hi : NotIgnored S typ) (n : String) (wkt : Option WKT)
    (m : Option MessageRules) (r : TimestampRules) (hT : f.typ = .one (.embed n wkt))
    (hr : f.rules = .mk m (.timestamp r)) (hne : r ≠ {})
    (hs : (timestampCode P (pName f) .field r).isSome = true) (hp : PortTimestamp r) (t : PTime)
    (ht : ClearTime r t) :
    PyAccepts P S typ f (.ts t) ↔ Accepts E S typ f (.ts t) := by
  have hty : f.rules.type = .timestamp r := by rw [hr]; rfl
  obtain ⟨rec, hrun⟩ := pyAccepts_message (P := P) h hi hT (by simp [hr]) (.ts t)
  rw [hrun, accepts_iff h]
  simp only [messageField, hr, FieldOk, hT, ValueOk, FieldRules.type]
  rw [if_pos (by simpa using hne)]
  exact timestampCode_some hclock .field hs (fun h => by cases h) hp t ht

/-- Ranges of seconds and minutes meet the hypotheses, for whole seconds and for fractions. -/
example : let r : DurationRules := { gte := some ⟨5, 0⟩, lt := some ⟨60, 0⟩ }
    (durationCode "p.x" .field r).isSome = true ∧ PortDuration r ∧ ClearDur r ⟨59, 0⟩ ∧
      ClearDur r ⟨59, 999999999⟩ := by
  have p5 : PortDur ⟨5, 0⟩ := ⟨by decide, by decide, by decide⟩
  have p60 : PortDur ⟨60, 0⟩ := ⟨by decide, by decide, by decide⟩
  refine ⟨by decide +kernel, ⟨by decide, ?_, by simp, by simp, ?_⟩, ⟨⟨by decide, by decide, by decide⟩, ?_⟩,
    ⟨⟨by decide, by decide, by decide⟩, ?_⟩⟩
  · intro d hd
    simp at hd
    rcases hd with rfl | rfl
    · exact p60
    · exact p5
  · intro u l hu hl
    simp at hu hl
    subst hu hl
    exact .inl ⟨rfl, rfl⟩
  · intro b hb
    simp at hb
    rcases hb with rfl | rfl <;> exact .inl ⟨rfl, rfl⟩
  · intro b hb
    simp at hb
    rcases hb with rfl | rfl <;> exact .inr ⟨6, by decide, by decide, by decide, by decide⟩

/-- Timestamps until 2038 may be as close as a microsecond. -/
example (s n s' n' : Int) (h1 : s.natAbs < 2 ^ 31) (h2 : s'.natAbs < 2 ^ 31)
    (h : 1000 ≤ ((s * 1000000000 + n) - (s' * 1000000000 + n')).natAbs) : Comparable s n s' n' :=
  .inr ⟨31, by decide, h1, h2, by omega⟩

/-- **C67, negation** Under `const: 3ns`, Python rejects a duration of 3ns; Go accepts it. -/
theorem C67_nanoseconds_const (E : Env) (P : PEnv) :
    let f := Fixtures.fieldOf (.embed "google.protobuf.Duration" none) (.duration { const := some ⟨0, 3⟩ })
    Checked f ∧ ¬ PyAccepts P (Fixtures.only f) "M" f (.dur ⟨0, 3⟩) ∧
      Accepts E (Fixtures.only f) "M" f (.dur ⟨0, 3⟩) := by
  intro f
  refine ⟨by unfold Checked; decide, ?_, ?_⟩
  · obtain ⟨rec, hrun⟩ := pyAccepts_message (P := P) (Fixtures.only_field f) (only_notIgnored f)
      (n := "google.protobuf.Duration") (w := none) rfl (by simp [f, Fixtures.fieldOf]) (.dur ⟨0, 3⟩)
    rw [hrun]
    simp only [f, Fixtures.fieldOf, messageField]
    rw [if_pos (by decide)]
    have e : secsOf (.dur ⟨0, 3⟩) ≠ durLit ⟨0, 3⟩ := by decide +kernel
    unfold durationCode
    rw [run_seq, run_block (by rfl), run_onSecs_dur]
    intro hh
    have := hh.2 rfl
    simp only [durBody, run_seq, run_genOpt, run_raiseIf, Option.some.injEq, forall_eq', bne_eq_false_iff_eq]
      at this
    exact e this.2.1
  · rw [accepts_iff (Fixtures.only_field f)]
    refine fun _ => ⟨by decide, ?_, by simp [durUpper, durLower, DurRangeOk], by simp [ListOk]⟩
    intro k hk
    cases hk
    decide

/-- **C67, negation** Present-day timestamps are compared to about 240ns: under `lt: t`, Python rejects
the instant before `t`, and under `gt: t` the instant after; Go accepts them. -/
theorem C67_nanoseconds_timestamp (E : Env) (P : PEnv) :
    let t : PTime := ⟨1700000000, 100⟩
    (let f := Fixtures.fieldOf (.embed "google.protobuf.Timestamp" none) (.timestamp { lt := some t })
     Checked f ∧ ¬ PyAccepts P (Fixtures.only f) "M" f (.ts ⟨1700000000, 99⟩) ∧
      Accepts E (Fixtures.only f) "M" f (.ts ⟨1700000000, 99⟩)) ∧
    (let f := Fixtures.fieldOf (.embed "google.protobuf.Timestamp" none) (.timestamp { gt := some t })
     Checked f ∧ ¬ PyAccepts P (Fixtures.only f) "M" f (.ts ⟨1700000000, 101⟩) ∧
      Accepts E (Fixtures.only f) "M" f (.ts ⟨1700000000, 101⟩)) := by
  intro t
  have e1 : secsOf (.ts ⟨1700000000, 99⟩) = tsLit t := by decide +kernel
  have e2 : secsOf (.ts ⟨1700000000, 101⟩) = tsLit t := by decide +kernel
  refine ⟨?_, ?_⟩
  · intro f
    refine ⟨by unfold Checked; decide, ?_, ?_⟩
    · obtain ⟨rec, hrun⟩ := pyAccepts_message (P := P) (Fixtures.only_field f) (only_notIgnored f)
        (n := "google.protobuf.Timestamp") (w := none) rfl (by simp [f, Fixtures.fieldOf]) (.ts ⟨1700000000, 99⟩)
      rw [hrun]
      simp only [f, Fixtures.fieldOf, messageField]
      rw [if_pos (by decide)]
      unfold timestampCode
      rw [run_seq, run_block (by rfl), run_onSecs_ts, e1]
      intro hh
      have := hh.2 rfl
      simp [tsBody, timeRange] at this
    · rw [accepts_iff (Fixtures.only_field f)]
      refine fun _ => ⟨by decide, by simp, ?_, by simp [tsUpper]⟩
      simp [tsUpper, tsLower, RangeOk, Bound.AsUpper, t]
      decide
  · intro f
    refine ⟨by unfold Checked; decide, ?_, ?_⟩
    · obtain ⟨rec, hrun⟩ := pyAccepts_message (P := P) (Fixtures.only_field f) (only_notIgnored f)
        (n := "google.protobuf.Timestamp") (w := none) rfl (by simp [f, Fixtures.fieldOf]) (.ts ⟨1700000000, 101⟩)
      rw [hrun]
      simp only [f, Fixtures.fieldOf, messageField]
      rw [if_pos (by decide)]
      unfold timestampCode
      rw [run_seq, run_block (by rfl), run_onSecs_ts, e2]
      intro hh
      have := hh.2 rfl
      simp [tsBody, timeRange] at this
    · rw [accepts_iff (Fixtures.only_field f)]
      refine fun _ => ⟨by decide, by simp, ?_, by simp [tsLower]⟩
      simp [tsUpper, tsLower, RangeOk, Bound.AsLower, t]
      decide

end PGV.Props
