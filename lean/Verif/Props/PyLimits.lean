import Verif.Props.Python

/-!
C50 and C66: exactly what Python accepts under limits on lengths and counts, under constants of enums, and under
`uuid` for texts made of digits and hyphens.
-/

set_option linter.unusedSimpArgs false

namespace PGV.Props
open PGV PGV.Checker PGV.Py PGV.Py.Code PGV.Spec.Python
open PGV.Spec hiding Common FormatAgrees TextLibs LibsAgree PortString PortBytes PortEnum PortDuration
  PortType FitsScalar FitsVal FitsItem PortField Portable
open PGV.Go (Env accepts_iff)

/-- A limit that is set to something other than zero says this of a size. -/
def IfPositive (limit : Option Nat) (holds : Nat → Prop) : Prop := ∀ n, limit = some n → n ≠ 0 → holds n

theorem genPos_ok {α : Type} {nm : String} {why : Nat → Text} (o : Option Nat) (t : Nat → α → Bool) (x : α) (ok : Nat → Prop)
    (h : ∀ n, t n x = false ↔ ok n) :
    (genPos o (fun n => raiseIf nm (why n) (t n))).run x = .ok () ↔ IfPositive o ok := by
  unfold genPos IfPositive
  rw [run_gen, run_raiseIf]
  cases o with
  | none => simp [optN]
  | some n =>
    have hn := h n
    rcases Nat.eq_zero_or_pos n with rfl | hp
    · simp [optN]
    · have hne : n ≠ 0 := by omega
      cases ht : t n x <;> simp_all [optN]

/-- **C50** Exactly what Python accepts under limits on the length of a string: what every limit other than zero allows. -/
theorem C50_string_exact (P : PEnv) (S : Schema) (typ : String) (f : FieldDesc)
    (h : OnlyField S typ f) (hi : NotIgnored S typ) (hT : f.typ = .one .string)
    (len minLen maxLen lenBytes minBytes maxBytes : Option Nat)
    (hr : f.rules = .mk none (.string { len, minLen, maxLen, lenBytes, minBytes, maxBytes }))
    (hne : [len, minLen, maxLen, lenBytes, minBytes, maxBytes] ≠ [none, none, none, none, none, none])
    (s : Bytes) (hs : Utf8 s) :
    PyAccepts P S typ f (.sc (.str s)) ↔
      IfPositive len (runeCount s = ·) ∧ IfPositive minLen (· ≤ runeCount s) ∧ IfPositive maxLen (runeCount s ≤ ·) ∧
      IfPositive lenBytes (s.length = ·) ∧ IfPositive minBytes (· ≤ s.length) ∧ IfPositive maxBytes (s.length ≤ ·) := by
  have hne' : ({ len, minLen, maxLen, lenBytes, minBytes, maxBytes } : StringRules) ≠ {} := by
    intro he
    simp only [StringRules.mk.injEq] at he
    apply hne
    simp [he]
  rw [pyAccepts_scalar h hi hT rfl]
  unfold scalarField
  simp only [hr]
  rw [if_pos (by simp [hne']), run_onStr]
  simp only [oneofText, strCode, optB, inCode, strAffix, genText,
    optS, strFormat, StringRules.getEmail, StringRules.getHostname, StringRules.getAddress,
    StringRules.getIp, StringRules.getIpv4, StringRules.getIpv6, StringRules.getUri,
    StringRules.getUriRef, StringRules.getUuid, strPattern, StringRules.getRegex, knownRegex, Bool.false_eq_true,
    if_false, Option.getD_none, run_seq, strLen, run_genOpt, run_gen, run_nothing, List.isEmpty_nil]
  rw [genPos_ok _ _ _ (runeCount s = ·) (fun n => by simp [pstr, runeCount]),
    genPos_ok _ _ _ (· ≤ runeCount s) (fun n => by rw [decide_eq_false_iff_not]; exact Nat.not_lt),
    genPos_ok _ _ _ (runeCount s ≤ ·) (fun n => by simp [pstr, runeCount]),
    genPos_ok _ _ _ (s.length = ·) (fun n => by simp [byteLen_pstr hs]),
    genPos_ok _ _ _ (· ≤ s.length) (fun n => by simp [byteLen_pstr hs]),
    genPos_ok _ _ _ (s.length ≤ ·) (fun n => by simp [byteLen_pstr hs])]
  simp

/-- **C50** The same for bytes. -/
theorem C50_bytes_exact (P : PEnv) (S : Schema) (typ : String) (f : FieldDesc)
    (h : OnlyField S typ f) (hi : NotIgnored S typ) (hT : f.typ = .one .bytes) (len minLen maxLen : Option Nat)
    (hr : f.rules = .mk none (.bytes { len, minLen, maxLen })) (hne : [len, minLen, maxLen] ≠ [none, none, none])
    (s : Bytes) :
    PyAccepts P S typ f (.sc (.bytes s)) ↔
      IfPositive len (s.length = ·) ∧ IfPositive minLen (· ≤ s.length) ∧ IfPositive maxLen (s.length ≤ ·) := by
  have hne' : ({ len, minLen, maxLen } : BytesRules) ≠ {} := by
    intro he
    simp only [BytesRules.mk.injEq] at he
    apply hne
    simp [he]
  rw [pyAccepts_scalar h hi hT rfl]
  unfold scalarField
  simp only [hr]
  rw [if_pos (by simp [typeText, messageText, hne']), run_onBytes]
  simp only [bytesCode, optB, inCode, optS, BytesRules.getIp, BytesRules.getIpv4, BytesRules.getIpv6,
    Bool.false_eq_true, if_false, Option.getD_none, run_seq, run_genOpt, run_gen, run_nothing, List.isEmpty_nil]
  rw [genPos_ok _ _ _ (s.length = ·) (fun n => by simp),
    genPos_ok _ _ _ (· ≤ s.length) (fun n => by simp),
    genPos_ok _ _ _ (s.length ≤ ·) (fun n => by simp)]
  simp

/-- **C50** The same for the number of items of a list of scalars and of entries of a map of scalars. -/
theorem C50_counts_exact (P : PEnv) (S : Schema) (typ : String) (f : FieldDesc)
    (h : OnlyField S typ f) (hi : NotIgnored S typ) (least most : Option Nat)
    (hne : [least, most] ≠ [none, none]) :
    (∀ e : ElemT, e.isEmbed = false → f.typ = .rep e →
      f.rules = .mk none (.repeated { minItems := least, maxItems := most } .absent) → ∀ vs,
      (PyAccepts P S typ f (.list vs) ↔ IfPositive least (· ≤ vs.length) ∧ IfPositive most (vs.length ≤ ·))) ∧
    (∀ k e : ElemT, e.isEmbed = false → f.typ = .map k e →
      f.rules = .mk none (.map { minPairs := least, maxPairs := most } .absent .absent) → ∀ kvs,
      (PyAccepts P S typ f (.map kvs) ↔ IfPositive least (· ≤ kvs.length) ∧ IfPositive most (kvs.length ≤ ·))) := by
  refine ⟨?_, ?_⟩
  · intro e he hT hr vs
    have hne' : ({ minItems := least, maxItems := most } : RepeatedRules) ≠ {} := by
      intro hx
      simp only [RepeatedRules.mk.injEq] at hx
      apply hne
      simp [hx]
    have hrun := pyAccepts_iff (P := P) h hi (.list vs)
    rw [hrun]
    have hcode : ∀ rec, fieldCode P rec false f = scalarField P false f e true := by
      intro rec
      cases e with
      | embed n w => cases he
      | _ => simp only [fieldCode, hT]
    rw [hcode]
    unfold scalarField
    simp only [hr]
    rw [if_pos (by simp [typeText, messageText, hne'])]
    simp only [if_true, run_on, itemsOf, repeatedCode, ignoreBlock, optB, Bool.false_eq_true, if_false, Option.getD_none, run_seq,
      run_gen, he, rulesText]
    rw [genPos_ok _ _ _ (· ≤ vs.length) (fun n => by simp), genPos_ok _ _ _ (vs.length ≤ ·) (fun n => by simp)]
    simp
  · intro k e he hT hr kvs
    have hne' : ({ minPairs := least, maxPairs := most } : MapRules) ≠ {} := by
      intro hx
      simp only [MapRules.mk.injEq] at hx
      apply hne
      simp [hx]
    rw [pyAccepts_iff (P := P) h hi (.map kvs)]
    simp only [fieldCode, hT, Py.mapField, hr]
    rw [if_neg (by simp [messageText])]
    rw [if_pos (by simp [typeText, hne'])]
    simp only [run_on, entriesOf, mapCode, ignoreBlock, optB, Bool.false_eq_true, if_false, Option.getD_none, run_seq,
      run_gen, he, rulesText, Bool.or_self]
    rw [genPos_ok _ _ _ (· ≤ kvs.length) (fun n => by simp), genPos_ok _ _ _ (kvs.length ≤ ·) (fun n => by simp)]
    simp

/-- **C50** Exactly what Python accepts under the rules of an enum: the lists and `defined_only` mean what they say, a
constant does unless it is zero. -/
theorem C50_enum_exact (P : PEnv) (S : Schema) (typ : String) (f : FieldDesc)
    (h : OnlyField S typ f) (hi : NotIgnored S typ) (values : List Int) (hT : f.typ = .one (.enum values))
    (r : EnumRules) (hr : f.rules = .mk none (.enum r)) (hne : r ≠ {}) (i : Int) :
    PyAccepts P S typ f (.sc (.enum i)) ↔
      (∀ c, r.const = some c → c ≠ 0 → i = c) ∧ (r.ins ≠ [] → i ∈ r.ins) ∧ i ∉ r.notIns ∧
      (r.definedOnly = some true → i ∈ values) := by
  rw [pyAccepts_scalar h hi hT rfl]
  unfold scalarField
  simp only [hr]
  rw [if_pos (by simp [typeText, messageText, hne]), run_onEnum]
  simp only [enumCode, inCode, if_true, run_seq, run_gen, run_raiseIf, enumValues]
  obtain ⟨const, dO, ins, nins⟩ := r
  cases const <;> cases ins <;> cases nins <;> rcases dO with _ | _ | _ <;> simp [optB] <;> grind

/-- **C50, partial** Python agrees with Go on limits and constants that are not zero: lengths of bytes, numbers of items and of
entries, and enums. Missing: zeros, see the theorems above. -/
theorem C50_counts_partial (E : Env) (P : PEnv) (S : Schema) (typ : String) (f : FieldDesc)
    (h : OnlyField S typ f) (hi : NotIgnored S typ) (least most : Option Nat)
    (hne : [least, most] ≠ [none, none]) (hz : most ≠ some 0) :
    (∀ e : ElemT, e.isEmbed = false → f.typ = .rep e →
      f.rules = .mk none (.repeated { minItems := least, maxItems := most } .absent) → ∀ vs,
      (PyAccepts P S typ f (.list vs) ↔ Accepts E S typ f (.list vs))) ∧
    (∀ k e : ElemT, e.isEmbed = false → f.typ = .map k e →
      f.rules = .mk none (.map { minPairs := least, maxPairs := most } .absent .absent) → ∀ kvs,
      (PyAccepts P S typ f (.map kvs) ↔ Accepts E S typ f (.map kvs))) := by
  have hu : FieldRules.absent.type = .unset := rfl
  obtain ⟨h1, h2⟩ := C50_counts_exact P S typ f h hi least most hne
  refine ⟨fun e he hT hr vs => ?_, fun k e he hT hr kvs => ?_⟩
  · rw [h1 e he hT hr vs, accepts_iff h]
    simp [FieldOk, hT, hr, FieldRules.type, RepeatedOk, CountOk, ValueOk, hu, he, IfPositive]
    grind
  · rw [h2 k e he hT hr kvs, accepts_iff h]
    simp [FieldOk, hT, hr, FieldRules.type, MapOk, CountOk, ValueOk, hu, he, IfPositive]
    have hk : ∀ a, ScalarOk E k .unset a := fun a => by cases a <;> exact trivial
    grind

/-- Limits of which some are zero meet the hypotheses: Python takes `{ min_items: 2, max_items: 0 }` for `min_items: 2`. -/
example : IfPositive (some 2) (· ≤ 3) ∧ IfPositive (some 0) (3 ≤ ·) ∧ ¬ IfPositive (some 2) (· ≤ 1) :=
  ⟨fun n h _ => by cases h; decide, fun n h h0 => by cases h; exact absurd rfl h0, fun h => absurd (h 2 rfl (by decide)) (by decide)⟩

/-- A field with such rules, alone in its message. -/
example : OnlyField (Fixtures.only (Fixtures.fieldOf (.enum [0, 1]) (.enum { const := some 0, notIns := [1] }))) "M"
      (Fixtures.fieldOf (.enum [0, 1]) (.enum { const := some 0, notIns := [1] })) ∧
    NotIgnored (Fixtures.only (Fixtures.fieldOf (.enum [0, 1]) (.enum { const := some 0, notIns := [1] }))) "M" :=
  ⟨Fixtures.only_field _, only_notIgnored _⟩

/-! ### C66 -/

/-- A hexadecimal digit or a hyphen. -/
def DigitOrHyphen (b : UInt8) : Prop := HexDigit b ∨ b = 0x2D

/-- **C66** Of the texts made of hexadecimal digits and hyphens, Python accepts exactly those with 32 digits, wherever the
hyphens are and however many; Go asks for groups of 8, 4, 4, 4 and 12. -/
theorem C66_uuid_digits (P : PEnv) (S : Schema) (typ : String) (f : FieldDesc)
    (h : OnlyField S typ f) (hi : NotIgnored S typ) (hT : f.typ = .one .string)
    (hr : f.rules = .mk none (.string { wellKnown := some (.uuid true) })) (s : Bytes)
    (hs : ∀ b ∈ s, DigitOrHyphen b) :
    PyAccepts P S typ f (.sc (.str s)) ↔ (s.filter (· ≠ 0x2D)).length = 32 := by
  rw [py_uuid h hi hT hr]
  have hfin : ∀ n : Fin 256, (((0x30 : UInt8) ≤ UInt8.ofNat n ∧ UInt8.ofNat n ≤ 0x39) ∨
      (0x41 ≤ UInt8.ofNat n ∧ UInt8.ofNat n ≤ 0x46) ∨
      (0x61 ≤ UInt8.ofNat n ∧ UInt8.ofNat n ≤ 0x66)) → isHex (UInt8.ofNat n).toNat = true := by
    decide +kernel
  have hx : ∀ b, HexDigit b → isHex b.toNat = true := by
    intro b hb
    have h := hfin ⟨b.toNat, b.toNat_lt⟩
    simp only [UInt8.ofNat_toNat] at h
    exact h hb
  have hrange : ∀ c, isHex c = true → c < 0x80 ∧ c ≠ 0x2D ∧ c ≠ 0x75 ∧ c ≠ 0x7B ∧ c ≠ 0x7D := by
    intro c hc
    simp [isHex] at hc
    omega
  have ha : ∀ b ∈ s, b.toNat < 0x80 := by
    intro b hb
    rcases hs b hb with h | rfl
    · exact (hrange _ (hx b h)).1
    · decide
  have hp : pstr s = s.map UInt8.toNat := by
    rw [pstr, runes_ascii s (by first | exact ha | exact fun b hb => UInt8.lt_iff_toNat_lt.2 (ha b hb))]
  have hall : ∀ c ∈ pstr s, c = 0x2D ∨ isHex c = true := by
    rw [hp]
    intro c hc
    obtain ⟨b, hb, rfl⟩ := List.mem_map.1 hc
    rcases hs b hb with h | rfl
    · exact .inr (hx b h)
    · exact .inl rfl
  have hu : 0x75 ∉ pstr s := fun hm => by
    rcases hall _ hm with h | h
    · omega
    · exact (hrange _ h).2.2.1 rfl
  have hbr : ∀ c ∈ pstr s, c ≠ 0x7B ∧ c ≠ 0x7D := by
    intro c hc
    rcases hall c hc with h | h
    · omega
    · exact (hrange c h).2.2.2
  have hhex : ∀ c ∈ (pstr s).filter (· != 0x2D), isHex c = true := by
    intro c hc
    simp only [List.mem_filter, bne_iff_ne, ne_eq] at hc
    exact (hall c hc.1).resolve_left hc.2
  have hlen : ((pstr s).filter (· != 0x2D)).length = (s.filter (· ≠ 0x2D)).length := by
    rw [hp, List.filter_map, List.length_map]
    congr 2
    funext b
    have : (b.toNat = 0x2D) ↔ b = 0x2D := ⟨fun h => UInt8.toNat_inj.1 h, fun h => by rw [h]; rfl⟩
    by_cases hb : b = 0x2D <;> simp [hb, this]
  unfold uuidOk remove
  rw [show chars "urn:" = 0x75 :: [0x72, 0x6E, 0x3A] by decide,
    show chars "uuid:" = 0x75 :: [0x75, 0x69, 0x64, 0x3A] by decide, show chars "-" = [0x2D] by decide]
  rw [removeFuel_absent _ _ _ _ hu, removeFuel_absent _ _ _ _ hu, stripBraces_absent _ hbr, removeFuel_one _ _ _
    (by omega)]
  simp only [Bool.and_eq_true, beq_iff_eq, Bool.or_eq_true, List.all_eq_true, hlen]
  exact ⟨fun h => h.1, fun h => ⟨h, .inl hhex⟩⟩

/-- 32 digits after a hundred hyphens meet the hypotheses and are accepted; 31 digits are not. -/
example : (∀ b ∈ List.replicate 100 0x2D ++ List.replicate 32 (0x61 : UInt8), DigitOrHyphen b) ∧
    ((List.replicate 100 0x2D ++ List.replicate 32 (0x61 : UInt8)).filter (· ≠ 0x2D)).length = 32 ∧
    ((List.replicate 31 (0x61 : UInt8)).filter (· ≠ 0x2D)).length ≠ 32 := by
  refine ⟨fun b hb => ?_, by decide, by decide⟩
  simp only [List.mem_append, List.mem_replicate] at hb
  rcases hb with ⟨-, rfl⟩ | ⟨-, rfl⟩
  · exact .inr rfl
  · exact .inl (by unfold HexDigit; decide)

end PGV.Props
