import Verif.Spec.Simple
import Verif.Lemmas.Local
import Verif.Lemmas.PyMsg
import Verif.Lemmas.CppStatic

/-!
Simple rules on well-typed messages are in the common part of each pair of languages.
-/

set_option linter.unusedSimpArgs false

namespace PGV.Simple
open PGV PGV.Spec PGV.Spec.Simple
open PGV.Go (Env allFields)

/-! ### Words -/

theorem word_byte {s : Bytes} (h : Word s) {b : UInt8} (hb : b ∈ s) :
    0x20 ≤ b.toNat ∧ b.toNat < 0x7F ∧ b.toNat ≠ 0x22 ∧ b.toNat ≠ 0x27 ∧ b.toNat ≠ 0x5C := by
  have := h.2 b hb
  simp only [UInt8.le_iff_toNat_le, ← UInt8.toNat_inj] at this
  simp at this
  omega

theorem word_utf8 {s : Bytes} (h : Word s) : Utf8 s :=
  Cpp.utf8_ascii fun b hb => by have := word_byte h hb; omega

theorem word_java {s : Bytes} (h : Word s) : PortText s := by
  refine ⟨word_utf8 h, fun b hb => ?_⟩
  have := word_byte h hb
  simp only [ne_eq, ← UInt8.toNat_inj]
  simp
  omega

theorem word_cpp {s : Bytes} (h : Word s) : Spec.Cpp.CString s := by
  refine ⟨⟨word_utf8 h, ?_⟩, ?_⟩
  · rintro a c d t rfl hc
    have := word_byte h (b := c) (by simp)
    unfold Spec.Cpp.HexEscaped at hc
    omega
  · intro h0
    have := word_byte h h0
    simp at this

theorem word_python {s : Bytes} (h : Word s) : Python.SafeText s := by
  refine ⟨word_utf8 h, ?_⟩
  rw [runes_ascii s fun b hb => by
    have := word_byte h hb
    rw [UInt8.lt_iff_toNat_lt]
    simp
    omega]
  intro c hc
  obtain ⟨b, hb, rfl⟩ := List.mem_map.1 hc
  have := word_byte h hb
  simp
  omega

/-! ### Numbers -/

theorem plain_of_int {k : NumKind} (hk : signed k) {i : Int} (h : IntOf k i) : Plain k (.int i) := by
  unfold Plain
  unfold IntOf at h
  simp only [signed, List.mem_cons, List.not_mem_nil, or_false] at hk
  rcases hk with rfl | rfl | rfl | rfl | rfl | rfl <;>
    simp [narrow, wide, kindRange] at h ⊢ <;> omega

theorem const_of_int {k : NumKind} (hk : signed k) {i : Int} (h : IntOf k i) (hi : i ≠ -9223372036854775808) :
    Spec.Cpp.ConstOk k (.int i) ∧ ∀ Q, Spec.Cpp.LimitOk Q k (.int i) := by
  have h1 : Spec.Cpp.NumOf k (.int i) := by
    refine ⟨?_, ?_, h⟩ <;> rintro rfl <;> simp [signed] at hk
  have h2 : i.natAbs < 9223372036854775808 := by
    unfold IntOf at h
    simp only [signed, List.mem_cons, List.not_mem_nil, or_false] at hk
    rcases hk with rfl | rfl | rfl | rfl | rfl | rfl <;> simp [kindRange] at h <;> omega
  exact ⟨⟨h1, h2⟩, fun Q => ⟨h1, h2⟩⟩

theorem mem_numbers {r : NumRules} {b : Num} :
    b ∈ numbersOf r ↔ (r.const = some b ∨ r.lt = some b ∨ r.lte = some b ∨ r.gt = some b ∨ r.gte = some b) ∨
      b ∈ r.ins ∨ b ∈ r.notIns := by
  unfold numbersOf
  simp only [List.mem_append, Option.mem_toList]
  grind

/-- A typed number of a signed kind is an integer of it. -/
theorem typed_int {k : NumKind} (hk : signed k) {n : Num} (h : Spec.Cpp.NumOf k n) : ∃ i, n = .int i ∧ IntOf k i := by
  cases n with
  | int i => exact ⟨i, rfl, h.2.2⟩
  | f32 b => cases h; simp [signed] at hk
  | f64 b => cases h; simp [signed] at hk

/-! ### Java -/

/-- Nothing that needs a library. -/
def javaCommon : Spec.Common := { pattern := fun _ => False, format := fun _ => False }

theorem java_type {e : ElemT} {t : TypeRules} (h : SimpleType e t) : Spec.PortType javaCommon e t := by
  cases h with
  | num h =>
    have hb : ∀ b ∈ numbersOf _, Plain _ b := fun b hb => by
      obtain ⟨i, rfl, hi, _⟩ := h.numbers b hb
      exact plain_of_int h.kind hi
    exact ⟨h.checked, fun b hc => hb b (mem_numbers.2 (.inl hc)), fun b hc => hb b (mem_numbers.2 (.inr (.inl hc))),
      fun b hc => hb b (mem_numbers.2 (.inr (.inr hc)))⟩
  | bool => trivial
  | string h =>
    refine ⟨h.len, h.lenBytes, h.ins, ⟨fun s hs => word_java (h.words s ?_), fun s hs => word_java (h.words s ?_),
      fun s hs => word_java (h.words s ?_), fun p hp => ?_, fun w hw => ?_⟩⟩
    · grind
    · grind
    · grind
    · rw [h.no_pattern] at hp; cases hp
    · rw [h.no_format] at hw; cases hw
  | enum h => exact ⟨h.checked, h.declared⟩

theorem java_elem {P : Py.PEnv} {e : ElemT} {rules : FieldRules} (h : SimpleElem P e rules) :
    Spec.PortElem javaCommon e rules ∧ NoWrapper e rules := by
  cases h with
  | free => exact ⟨⟨trivial, fun h => by simp [msgSkip, FieldRules.message] at h⟩, fun _ => id⟩
  | ruled h =>
    refine ⟨⟨java_type h, fun h => by simp [msgSkip, FieldRules.message] at h⟩, fun he => ?_⟩
    cases h <;> cases he

theorem java_fits {P : Py.PEnv} {e : ElemT} {rules : FieldRules} {v : Val} (h : SimpleElem P e rules) (hv : HasType e v) :
    Spec.FitsVal rules.type v := by
  cases h with
  | free => cases hv <;> trivial
  | ruled h =>
    cases h with
    | num h =>
      cases hv with
      | num hn =>
        obtain ⟨i, rfl, hi⟩ := typed_int h.kind hn
        exact plain_of_int h.kind hi
    | bool => cases hv; trivial
    | string => cases hv with | string hs => exact hs
    | enum => cases hv; trivial

theorem java_field {P : Py.PEnv} {f : FieldDesc} {v : Val} (h : SimpleField P f.typ f.rules) (hv : HasFieldType f.typ v) :
    Spec.PortField javaCommon f v := by
  obtain ⟨name, typ, rules⟩ := f
  dsimp only at h hv
  cases h with
  | one he => cases hv with | one hv => exact ⟨(java_elem he).1, java_fits he hv⟩
  | required => cases hv with | one hv => exact ⟨⟨trivial, fun h => by simp [msgSkip, FieldRules.message, optB] at h⟩, by cases hv <;> trivial⟩
  | list => cases hv; trivial
  | listRules he _ hm _ hu =>
    cases hv with
    | list hv =>
      refine ⟨hm, (java_elem he).1, (java_elem he).2, fun v hm => java_fits he (hv v hm), fun hq v hm => ?_⟩
      have hc := hu hq
      have ht := hv v hm
      cases hc with
      | num hk =>
        cases ht with
        | num hn =>
          obtain ⟨i, rfl, hi⟩ := typed_int hk hn
          exact plain_of_int hk hi
      | bool => cases ht; trivial
      | string => cases ht with | string hs => exact hs
  | map => cases hv; trivial
  | mapRules hk hke _ hw _ hm hn _ _ =>
    cases hv with
    | map hv =>
      refine ⟨hm, by simp [hn], (java_elem hk).1.1, (java_elem hw).1, (java_elem hw).2, fun kv hkv => ⟨?_, java_fits hw (hv kv hkv).2⟩⟩
      have := java_fits hk (hv kv hkv).1
      cases hk with
      | free => trivial
      | ruled hk => cases hk <;> exact this

/-! ### C++ -/

section
variable {E : Env} {Q : PGV.Cpp.CEnv}

theorem cpp_type {e : ElemT} {t : TypeRules} (h : SimpleType e t) : Spec.Cpp.PortType Q t := by
  cases h with
  | num h =>
    have hb : ∀ b ∈ numbersOf _, Spec.Cpp.ConstOk _ b ∧ Spec.Cpp.LimitOk Q _ b := fun b hb => by
      obtain ⟨i, rfl, hi, hn⟩ := h.numbers b hb
      exact ⟨(const_of_int h.kind hi hn).1, (const_of_int h.kind hi hn).2 Q⟩
    refine ⟨fun b hc => (hb b (mem_numbers.2 ?_)).1, fun b hc => (hb b (mem_numbers.2 ?_)).2,
      fun b hc => (hb b (mem_numbers.2 ?_)).1, fun b hc => (hb b (mem_numbers.2 ?_)).1⟩ <;> grind
  | bool => trivial
  | string h =>
    refine ⟨fun s hs => word_cpp (h.words s ?_), fun s hs => word_cpp (h.words s ?_), fun s hs => word_cpp (h.words s ?_),
      fun p hp => ?_⟩
    · grind
    · grind
    · grind
    · rw [h.no_pattern] at hp; cases hp
  | enum h => trivial

theorem cpp_elem {P : Py.PEnv} {e : ElemT} {rules : FieldRules} (h : SimpleElem P e rules) : Spec.Cpp.PortType Q rules.type := by
  cases h with
  | free => trivial
  | ruled h => exact cpp_type h

theorem cpp_fits {P : Py.PEnv} {e : ElemT} {rules : FieldRules} {v : Val} (h : SimpleElem P e rules) (hv : HasType e v) :
    Spec.Cpp.FitsVal E Q rules.type v := by
  cases h with
  | free => cases hv <;> trivial
  | ruled h =>
    cases h with
    | num h =>
      cases hv with
      | num hn =>
        obtain ⟨i, rfl, hi⟩ := typed_int h.kind hn
        exact ⟨hn, fun _ h => by simp [numVal] at h⟩
    | bool => cases hv; trivial
    | string h =>
      cases hv with
      | string hs =>
        refine ⟨hs, fun p hp => ?_, fun w hw => ?_⟩
        · rw [h.no_pattern] at hp; cases hp
        · rw [h.no_format] at hw; cases hw
    | enum => cases hv; trivial

theorem cpp_field {P : Py.PEnv} {f : FieldDesc} {v : Val} (h : SimpleField P f.typ f.rules) (hv : HasFieldType f.typ v) :
    Spec.Cpp.PortField E Q f v := by
  obtain ⟨name, typ, rules⟩ := f
  dsimp only at h hv
  cases h with
  | one he => cases hv with | one hv => exact ⟨cpp_elem he, cpp_fits he hv⟩
  | required => cases hv with | one hv => exact ⟨trivial, by cases hv <;> trivial⟩
  | list => cases hv; trivial
  | listRules he _ hm _ hu =>
    cases hv with
    | list hv =>
      refine ⟨cpp_elem he, fun v hm => cpp_fits he (hv v hm), fun hq v hm => ?_⟩
      have hc := hu hq
      have ht := hv v hm
      cases hc with
      | num hk => cases ht with | num hn => exact hn
      | bool => cases ht; trivial
      | string => cases ht; trivial
  | map => cases hv; trivial
  | mapRules hk hke _ hw _ hm hn _ _ =>
    cases hv with
    | map hv =>
      refine ⟨by simp [hn], cpp_elem hk, cpp_elem hw, fun kv hkv => ⟨?_, cpp_fits hw (hv kv hkv).2⟩⟩
      have := cpp_fits (E := E) (Q := Q) hk (hv kv hkv).1
      cases hk with
      | free => trivial
      | ruled hk => cases hk <;> exact this

end

/-! ### Python -/

/-- Nothing that needs a library; the descriptors as they are. -/
def pyCommon (P : Py.PEnv) : Python.Common :=
  { pattern := fun _ => False, format := fun _ _ => False, google := fun n => P.google n = true, pair := LikeEntry P }

section
variable {P : Py.PEnv} {S : Schema}

theorem py_type {e : ElemT} {t : TypeRules} (h : SimpleType e t) :
    Python.KindOf e t ∧ Python.PortType (pyCommon P) t ∧ Python.NoRequired t ∧ (∀ r, t ≠ .bytes r) ∧ t ≠ .unset ∧
      e.isEmbed = false := by
  cases h with
  | num h =>
    refine ⟨rfl, ⟨h.checked, by simp [h.no_ignore], fun b hb => ?_⟩, trivial, by simp, by simp, rfl⟩
    obtain ⟨i, rfl, _⟩ := h.numbers b hb
    trivial
  | bool => exact ⟨trivial, trivial, trivial, by simp, by simp, rfl⟩
  | string h =>
    refine ⟨trivial, ⟨h.len, h.lenBytes, h.ins, h.not_zero.1, h.not_zero.2.1, h.not_zero.2.2.1, h.not_zero.2.2.2,
      fun s hs => word_python (h.words s ?_), fun he => ?_, fun s hs => word_utf8 (h.words s ?_),
      fun s hs => word_utf8 (h.words s ?_), fun p hp => ?_, ?_⟩, trivial, by simp, by simp, rfl⟩
    · grind
    · exact (h.words [] (by grind)).1 rfl
    · grind
    · grind
    · rw [h.no_pattern] at hp; cases hp
    · unfold StringRules.getRegex
      rw [h.no_format]
  | enum h =>
    have := h.checked
    unfold Checker.checkEnum at this
    simp only [Bool.and_eq_true] at this
    exact ⟨trivial, ⟨this.1, h.not_zero⟩, trivial, by simp, by simp, rfl⟩

theorem py_fits {e : ElemT} {rules : FieldRules} {v : Val} (h : SimpleElem P e rules) (hv : HasType e v) :
    Python.FitsVal (pyCommon P) S e rules.type v := by
  cases h with
  | free ho =>
    rintro (⟨n, w, rfl⟩ | ⟨n, w, rfl, hg⟩)
    · cases ho.1
    · have := ho.2
      rw [show P.google n = true from hg] at this
      cases this
  | ruled h =>
    cases h with
    | num h => cases hv with | num => exact ⟨_, rfl, trivial⟩
    | bool => cases hv with | bool => exact ⟨_, rfl, trivial⟩
    | string h =>
      cases hv with
      | string hs =>
        refine ⟨_, rfl, hs, fun w hw => ?_⟩
        rw [h.no_format] at hw
        cases hw
    | enum => cases hv with | enum => exact ⟨_, rfl, trivial⟩

theorem py_item {e : ElemT} {rules : FieldRules} {v : Val} (h : SimpleElem P e rules) (hv : HasType e v) :
    Python.PortItem (pyCommon P) S e rules v := by
  refine ⟨?_, ?_, py_fits h hv, ?_, ?_, (java_elem h).2, .inl ?_⟩ <;> cases h with
  | free => first | trivial | (cases e <;> trivial) | (intro r hr; cases hr)
  | ruled h =>
    obtain ⟨h1, h2, h3, h4, _⟩ := py_type (P := P) h
    first | exact h1 | exact h2 | exact h3 | exact h4 | rfl

theorem py_field {f : FieldDesc} {v : Val} (h : SimpleField P f.typ f.rules) (hv : HasFieldType f.typ v) :
    Python.PortField (pyCommon P) S f v := by
  obtain ⟨name, typ, rules⟩ := f
  dsimp only at h hv
  cases h with
  | one he =>
    cases hv with
    | one hv =>
      obtain ⟨h1, h2, h3, _, _, _, h4⟩ := py_item (S := S) he hv
      refine ⟨h1, h2, h3, fun _ => ?_, fun _ => ?_⟩ <;> cases he <;> rfl
  | required ho =>
    cases hv with
    | one hv => exact ⟨trivial, trivial, py_fits (rules := .absent) (.free ho) hv, fun h => by simp [ElemT.isEmbed] at h, fun h => h.elim⟩
  | list ho hl =>
    cases hv with
    | list hv =>
      refine ⟨rfl, _, rfl, fun v hm => py_fits (.free ho) (hv v hm), fun n e => hl n none e⟩
  | listRules he _ hm _ hu =>
    cases hv with
    | list hv =>
      refine ⟨rfl, _, rfl, hm, fun v hm => py_item he (hv v hm), fun hq v hm => ?_⟩
      have hc := hu hq
      have ht := hv v hm
      cases hc with
      | num hk => cases ht; trivial
      | bool => cases ht; trivial
      | string => cases ht with | string hs => exact hs
  | map => cases hv; exact ⟨rfl, _, rfl, trivial⟩
  | mapRules hk hke hne hw _ hm hn _ he =>
    cases hv with
    | map hv =>
      refine ⟨rfl, _, rfl, hm, by simp [hn], fun kv hkv => ⟨?_, py_item hw (hv kv hkv).2⟩, fun h _ => .inl (he h)⟩
      have ht := (hv kv hkv).1
      cases hk with
      | free => exact ⟨by cases ‹ElemT› <;> trivial, trivial, rfl, .inl rfl, by simp [FieldRules.type], by simp [FieldRules.type], by simp [FieldRules.type]⟩
      | ruled hk =>
        refine ⟨(py_type (P := P) hk).1, (py_type hk).2.1, rfl, .inr ?_, ?_, (py_type (P := P) hk).2.2.2.1, ?_⟩
        · have := py_fits (S := S) (P := P) (.ruled hk) ht
          unfold Python.FitsVal at this
          cases hk <;> simpa [FieldRules.type, ElemT.isEmbed] using this
        · intro r hr
          cases hk with
          | num h => cases hr; have := h.kind; simp [signed] at this
          | _ => cases hr
        · intro r hr
          cases hk with
          | enum h => exact hne _ rfl
          | _ => cases hr

end

end PGV.Simple
