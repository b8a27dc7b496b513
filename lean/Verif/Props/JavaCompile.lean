import Verif.Lemmas.JavaStatic
import Verif.Props.GoCompile

/-!
C76: the generated Java code compiles.
-/

set_option linter.unusedSimpArgs false

namespace PGV.Props
open PGV PGV.Spec
open PGV.Go (allFields)

theorem javaConstants_congr {P Q : Bytes → Prop} {t : TypeRules}
    (h : ∀ p, (∀ r, t = .string r → r.pattern = some p → (P p ↔ Q p)) ∧
      ∀ r, t = .bytes r → r.pattern = some p → (P p ↔ Q p)) : JavaConstants P t ↔ JavaConstants Q t := by
  cases t with
  | string r =>
    have : (∀ p, r.pattern = some p → P p) ↔ ∀ p, r.pattern = some p → Q p :=
      forall_congr' fun p => forall_congr' fun hp => (h p).1 r rfl hp
    simp only [JavaConstants, this]
  | bytes r =>
    have : (∀ p, r.pattern = some p → P p) ↔ ∀ p, r.pattern = some p → Q p :=
      forall_congr' fun p => forall_congr' fun hp => (h p).2 r rfl hp
    simp only [JavaConstants, this]
  | _ => rfl

theorem patternText_iff {isPrint : Nat → Bool} (hp : ∀ c, c < 0x80 → (isPrint c = true ↔ 0x20 ≤ c ∧ c < 0x7F))
    {p : Bytes} (hu : Utf8 p) : Java.PatternText isPrint p ↔ ReadablePattern isPrint p := by
  unfold Java.PatternText ReadablePattern
  rw [Option.ne_none_iff_exists']
  constructor
  · rintro ⟨v, hv⟩
    obtain ⟨cs, hs, rfl⟩ := hu
    exact ⟨cs, hs, rfl, ((C74_pattern_partial isPrint hp cs hs v).1 hv).1⟩
  · rintro ⟨cs, hs, rfl, hj⟩
    exact ⟨_, (C74_pattern_partial isPrint hp cs hs _).2 ⟨hj, rfl⟩⟩

theorem writable_iff {isPrint : Nat → Bool} (hp : ∀ c, c < 0x80 → (isPrint c = true ↔ 0x20 ≤ c ∧ c < 0x7F))
    {f : FieldDesc} (hr : ∀ t r, RuleAt f t r → ProtoRanges r.type) :
    JavaWritable (Java.PatternText isPrint) f ↔ JavaWritable (ReadablePattern isPrint) f := by
  have h : ∀ t r, RuleAt f t r →
      (JavaConstants (Java.PatternText isPrint) r.type ↔ JavaConstants (ReadablePattern isPrint) r.type) := by
    intro t r hat
    have := hr t r hat
    refine javaConstants_congr fun p => ⟨?_, ?_⟩
    · intro r' hr' hpat
      rw [hr'] at this
      exact patternText_iff hp (this p hpat)
    · intro r' hr' hpat
      rw [hr'] at this
      exact patternText_iff hp (this p hpat)
  constructor
  · intro hw; exact ⟨fun t r hat => (h t r hat).1 (hw.constants t r hat), hw.mapEnums⟩
  · intro hw; exact ⟨fun t r hat => (h t r hat).2 (hw.constants t r hat), hw.mapEnums⟩

theorem body_all {isPrint : Nat → Bool} {G : Java.CName → Option Java.JT} {d : MsgDesc} (hdis : d.disabled = false) :
    (Java.classCode isPrint d).body.all (Java.Stmt.ok G) = true ↔
      ∀ f, FieldOf d f → (Java.fieldCode isPrint f).body.all (Java.Stmt.ok G) = true := by
  simp only [Java.classCode, hdis, Bool.false_eq_true, if_false, List.all_append, Bool.and_eq_true, List.all_flatMap,
    List.all_eq_true, FieldOf]
  constructor
  · rintro ⟨h1, h2⟩ f (hf | ⟨o, ho, hf⟩)
    · exact h1 f hf
    · exact (h2 o ho).1 f hf
  · intro h
    refine ⟨fun f hf => h f (.inl hf), fun o ho => ⟨fun f hf => h f (.inr ⟨o, ho, hf⟩), ?_⟩⟩
    cases o.required <;> simp [Java.onlyIf, Java.Stmt.ok]

/-- **C76, partial** The validator class generated for a message whose rules fit their fields (`JavaTyped`) compiles
if, and only if, the rules of each field can be written in Java (`JavaWritable`): no constant is declared twice, each
one that is used is declared, each literal is one, and the arguments of each call have the types of its parameters.
Missing: accepted messages whose rules cannot be written in Java, see `C76_unsigned` and the theorems after it; rules on
types they are not for (`C76_wrong_type`). (`isPrint` is `strconv.IsPrint`, of which only ASCII matters. The message is
as the checks leave it, with the patterns of `well_known_regex` written in.) -/
theorem C76_compiles_iff_partial (isPrint : Nat → Bool)
    (hp : ∀ c, c < 0x80 → (isPrint c = true ↔ 0x20 ≤ c ∧ c < 0x7F))
    (d : MsgDesc) (hig : d.ignored = false) (hdis : d.disabled = false) (ht : JavaTyped d) :
    Java.msgCompiles isPrint d = true ↔ ∀ f, FieldOf d f → JavaWritable (ReadablePattern isPrint) f := by
  have hdist : ∀ f ∈ allFields d, Java.Distinct f.name ["", "Key", "Value"] (Java.fieldCode isPrint f).decls := by
    intro f hf
    have hf := mem_allFields.1 hf
    exact Java.fieldCode_distinct isPrint (ht.suits f hf _ _ .top) (ht.elems f hf)
  have hnames : ((allFields d).map (·.name)).Nodup := by
    have := ht.names
    rwa [allFields, List.map_append, List.map_flatMap]
  have hnodup := Java.nodup_flatMap (isPrint := isPrint) _ hnames hdist
  have hG : ∀ f, FieldOf d f → ∀ x ∈ (Java.fieldCode isPrint f).decls,
      Java.scope (Java.classCode isPrint d).decls x.name = some x.type := by
    intro f hf x hx
    refine Java.scope_mem hnodup ?_
    exact List.mem_flatMap.2 ⟨f, mem_allFields.2 hf, hx⟩
  have hgood : ∀ f, FieldOf d f → (Java.Good (Java.scope (Java.classCode isPrint d).decls) (Java.fieldCode isPrint f) ↔
      JavaWritable (ReadablePattern isPrint) f) := by
    intro f hf
    rw [← writable_iff hp (ht.ranges f hf)]
    exact Java.fieldCode_good (ht.suits f hf) (ht.ranges f hf) (ht.elems f hf) (ht.scalarKeys f hf) (hG f hf)
  unfold Java.msgCompiles Java.Code.compiles
  rw [hig, Bool.false_or, Bool.and_eq_true, Bool.and_eq_true, body_all hdis]
  simp only [Java.classCode, List.all_flatMap, List.all_eq_true, decide_eq_true_eq]
  constructor
  · rintro ⟨⟨-, h1⟩, h2⟩ f hf
    exact (hgood f hf).1 ⟨by rw [List.all_eq_true]; exact h1 f (mem_allFields.2 hf), by
      rw [List.all_eq_true]; exact h2 f hf⟩
  · intro h
    refine ⟨⟨decide_eq_true hnodup, fun f hf => ?_⟩, fun f hf => ?_⟩
    · have := ((hgood f (mem_allFields.1 hf)).2 (h f (mem_allFields.1 hf))).1
      rwa [List.all_eq_true] at this
    · have := ((hgood f hf).2 (h f hf)).2
      rwa [List.all_eq_true] at this

/-! ### Accepted rules whose code does not compile -/

/-- The message passes the checks unchanged, Java generation succeeds, and the class does not compile, whatever
characters count as printable. -/
def BreaksJava (d : MsgDesc) : Prop :=
  Checker.checkMsg (fun _ => true) d = some d ∧ Java.genFails d = false ∧ ∀ isPrint, Java.msgCompiles isPrint d = false

/-- **C76** (negation) An unsigned bound above the largest `int`. -/
theorem C76_unsigned :
    BreaksJava (withField (.one (.scalar .uint32)) (.num .uint32 { lt := some (.int 3000000000) })) :=
  ⟨rfl, rfl, fun _ => by rfl⟩

/-- **C76** (negation) An infinite bound. -/
theorem C76_infinite :
    BreaksJava (withField (.one (.scalar .double)) (.num .double { lte := some (.f64 0x7FF0000000000000#64) })) :=
  ⟨rfl, rfl, fun _ => by rfl⟩

/-- **C76** (negation) A maximum length of 2^31. -/
theorem C76_long_length : BreaksJava (withField (.one .string) (.string { maxLen := some 2147483648 })) :=
  ⟨rfl, rfl, fun _ => by rfl⟩

/-- **C76** (negation) A timestamp after January 2038. -/
theorem C76_year_2038 :
    BreaksJava (withField (.one (.embed "google.protobuf.Timestamp" (some .timestamp)))
      (.timestamp { lt := some ⟨2147483648, 0⟩ })) :=
  ⟨rfl, rfl, fun _ => by rfl⟩

/-- **C76** (negation) A constant with a quote in it. -/
theorem C76_quote :
    BreaksJava (withField (.one .string) (.string { const := some [0x61, 0x22, 0x62] })) :=
  ⟨rfl, rfl, fun _ => by rfl⟩

/-- **C76** (negation) Enum values of a map compared with a constant: the generator takes their type to be `Object`. -/
theorem C76_map_enum :
    BreaksJava (withField (.map .string (.enum [0, 1])) (.map {} .absent (.mk none (.enum { notIns := [0] })))) :=
  ⟨rfl, rfl, fun _ => by rfl⟩

/-- **C76** (negation) Duration rules on a string field. -/
theorem C76_wrong_type : BreaksJava (withField (.one .string) (.duration { gt := some ⟨1, 0⟩ })) :=
  ⟨rfl, rfl, fun _ => by rfl⟩

/-- **C76** (negation) The constants are also written for disabled messages, whose rules nobody checks. -/
theorem C76_disabled : BreaksJava { withField (.one (.scalar .uint32)) (.num .uint32 { lt := some (.int 3000000000) })
    with disabled := true } :=
  ⟨rfl, rfl, fun _ => by rfl⟩

/-- A message with a pattern, a range of durations, a map, a list and a oneof. -/
def javaRoute : MsgDesc :=
  { name := "Route", fields := [headerField, timeoutField, weightsField, idsField],
    oneofs := [{ name := "Kind", required := true, fields := [oneInt "Count"] }] }

theorem utf8_of_ascii {p : Bytes} (h : ∀ c ∈ p, c.toNat < 0x80) : Utf8 p := by
  refine ⟨p.map (·.toNat), ?_, ?_⟩
  · intro c hc
    obtain ⟨b, hb, rfl⟩ := List.mem_map.1 hc
    have := h b hb
    unfold ScalarValue
    omega
  · induction p with
    | nil => rfl
    | cons b p ih =>
      rw [List.map_cons, List.flatMap_cons, ← ih fun c hc => h c (by simp [hc])]
      have := h b (by simp)
      have h0 : ¬ (55296 ≤ b.toNat ∧ b.toNat < 57344 ∨ 1114112 ≤ b.toNat) := by omega
      simp only [encodeRune, h0, if_false, this, if_true, UInt8.ofNat_toNat, List.cons_append, List.nil_append]

theorem javaRoute_fields {P : FieldDesc → Prop} (h1 : P headerField) (h2 : P timeoutField) (h3 : P weightsField)
    (h4 : P idsField) (h5 : P (oneInt "Count")) : ∀ f, FieldOf javaRoute f → P f := by
  intro f hf
  simp only [FieldOf, javaRoute, List.mem_cons, List.not_mem_nil, or_false, exists_eq_left] at hf
  rcases hf with (rfl | rfl | rfl | rfl) | rfl <;> assumption

theorem ruleAt_one {f : FieldDesc} {e : ElemT} (hf : f.typ = .one e) {t r} (h : RuleAt f t r) :
    t = .one e ∧ r = f.rules := by
  cases h with
  | top => exact ⟨hf, rfl⟩
  | item h => have := (ruleAt_top h (by simp)).1; rw [hf] at this; cases this
  | key h => have := (ruleAt_top h (by simp)).1; rw [hf] at this; cases this
  | value h => have := (ruleAt_top h (by simp)).1; rw [hf] at this; cases this

theorem javaRoute_typed : JavaTyped javaRoute := by
  have hfit : ∀ f, FieldOf javaRoute f → ∀ t r, RuleAt f t r → Suits t r.type ∧ ProtoRanges r.type := by
    refine javaRoute_fields ?_ ?_ ?_ ?_ ?_
    · intro t r hr
      obtain ⟨rfl, rfl⟩ := ruleAt_one rfl hr
      refine ⟨(by simp [Suits, headerField, timeoutField, weightsField, idsField, oneInt, FieldRules.type]), ?_⟩
      intro p hp
      cases hp
      exact utf8_of_ascii (by decide)
    · intro t r hr
      obtain ⟨rfl, rfl⟩ := ruleAt_one rfl hr
      refine ⟨(by simp [Suits, headerField, timeoutField, weightsField, idsField, oneInt, FieldRules.type]), ?_⟩
      simp only [timeoutField, FieldRules.type, ProtoRanges, DurationIn, DurBound, List.not_mem_nil, or_false, JavaInt]
      simp
      rintro x (rfl | rfl) <;> simp
    · intro t r hr
      cases hr with
      | top => exact ⟨(by simp [Suits, headerField, timeoutField, weightsField, idsField, oneInt, FieldRules.type]), trivial⟩
      | item h => exact absurd (ruleAt_top h (by simp)).1 (by simp [weightsField])
      | key h =>
        obtain ⟨a, b⟩ := ruleAt_top h (by simp)
        cases a; cases b
        exact ⟨by simp [Suits, FieldRules.type], by simp [FieldRules.type, ProtoRanges]⟩
      | value h =>
        obtain ⟨a, b⟩ := ruleAt_top h (by simp)
        cases a; cases b
        exact ⟨by simp [Suits, oneInt, FieldRules.type], by simp [FieldRules.type, ProtoRanges, NumberIn, NumKind.inRange]⟩
    · intro t r hr
      cases hr with
      | top => exact ⟨(by simp [Suits, headerField, timeoutField, weightsField, idsField, oneInt, FieldRules.type]), trivial⟩
      | item h =>
        obtain ⟨a, b⟩ := ruleAt_top h (by simp)
        cases a; cases b
        exact ⟨by simp [Suits, FieldRules.type], by simp [FieldRules.type, ProtoRanges]⟩
      | key h => exact absurd (ruleAt_top h (by simp)).1 (by simp [idsField])
      | value h => exact absurd (ruleAt_top h (by simp)).1 (by simp [idsField])
    · intro t r hr
      obtain ⟨rfl, rfl⟩ := ruleAt_one rfl hr
      exact ⟨by simp [Suits, oneInt, FieldRules.type], by simp [oneInt, FieldRules.type, ProtoRanges, NumberIn, NumKind.inRange]⟩
  refine ⟨fun f hf t r h => (hfit f hf t r h).1, fun f hf t r h => (hfit f hf t r h).2, ?_, ?_, by decide⟩
  · refine javaRoute_fields ?_ ?_ ?_ ?_ ?_
    all_goals simp [WrappedElems, headerField, timeoutField, weightsField, idsField, oneInt, ElemT.isEmbed]
  · refine javaRoute_fields ?_ ?_ ?_ ?_ ?_
    all_goals simp [headerField, timeoutField, weightsField, idsField, oneInt, ElemT.isEmbed]

/-- `javaRoute` meets the hypotheses of C76, is what the checks make of a message they accept, and compiles. -/
example : JavaTyped javaRoute ∧ (∃ d, Checker.checkMsg (fun _ => true) d = some javaRoute) ∧
    Java.genFails javaRoute = false ∧ Java.msgCompiles (fun c => decide (0x20 ≤ c ∧ c < 0x7F)) javaRoute = true ∧
    ∀ f, FieldOf javaRoute f → JavaWritable (ReadablePattern fun c => decide (0x20 ≤ c ∧ c < 0x7F)) f := by
  have hc : Java.msgCompiles (fun c => decide (0x20 ≤ c ∧ c < 0x7F)) javaRoute = true := by decide +kernel
  refine ⟨javaRoute_typed, ?_, rfl, hc, ?_⟩
  · exact ⟨{ javaRoute with fields :=
      [{ headerField with rules := .mk none (.string { maxLen := some 40, wellKnown := some (.regex .headerName) }) },
        timeoutField, weightsField, idsField] }, rfl⟩
  exact (C76_compiles_iff_partial _ (by intro c _; simp) javaRoute rfl rfl javaRoute_typed).1 hc

end PGV.Props
