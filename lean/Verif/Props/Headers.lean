import Verif.Props.Checker

/-!
C33: `well_known_regex`.
-/

set_option linter.unusedSimpArgs false

namespace PGV.Props
open PGV PGV.Go PGV.Spec PGV.Checker

/-- Go's regexp package gives patterns of the fragment their meaning. -/
def RegexpAgrees (E : Env) : Prop :=
  ∀ p e s, parsePattern p = some e → E.matchRe p s = matchFull e s

/-- String rules with a well-known regex and nothing else. -/
def headerRules (k : KnownRegex) (strict : Option Bool) : StringRules :=
  { wellKnown := some (.regex k), strict := strict }

theorem checkString_some {c : Bytes → Bool} {r r' : StringRules} (h : checkString c r = some r') :
    checkWellKnownRegex r = some r' := by
  unfold checkString at h
  cases hw : checkWellKnownRegex r with
  | none => simp [hw] at h
  | some x =>
    simp only [hw, Option.ite_none_right_eq_some, Option.some.injEq] at h
    exact congrArg some h.2.2

/-- The field after the generator has checked it. -/
theorem checked_header {c : Bytes → Bool} {f f' : FieldDesc} {k : KnownRegex} {strict : Option Bool}
    (hT : f.typ = .one .string) (hr : f.rules = .mk none (.string (headerRules k strict)))
    (hf : checkField c f = some f') (hk : k ≠ .unknown) :
    f'.typ = .one .string ∧ f'.rules = .mk none (.string { headerRules k strict with
      pattern := if (k = .headerName ∨ k = .headerValue) ∧ strict = some false then some headerString
        else regexMap k }) := by
  have hm : mustType (.field (.one .string)) .string (some .stringValue) = true := by decide
  have hg : (headerRules k strict).getRegex = k := rfl
  have hwk : checkWellKnownRegex (headerRules k strict) = some { headerRules k strict with
      pattern := if (k = .headerName ∨ k = .headerValue) ∧ strict = some false then some headerString
        else regexMap k } := by
    unfold checkWellKnownRegex
    rw [hg]
    cases k with
    | unknown => exact absurd rfl hk
    | _ => cases strict with
      | none => simp [headerRules]
      | some b => cases b <;> simp [headerRules]
  unfold checkField at hf
  simp only [hr, FieldRules.message, Option.isSome_none, Bool.false_and, Bool.false_eq_true, if_false,
    checkFieldRules, checkTypeRules, hT, hm, if_true] at hf
  have hcs : checkString c (headerRules k strict) = none ∨
      checkString c (headerRules k strict) = some { headerRules k strict with
        pattern := if (k = .headerName ∨ k = .headerValue) ∧ strict = some false then some headerString
          else regexMap k } := by
    cases hx : checkString c (headerRules k strict) with
    | none => exact .inl rfl
    | some x => rw [checkString_some hx] at hwk; exact .inr hwk
  rcases hcs with h | h
  · simp [h] at hf
  · rw [h] at hf
    simp only [Option.map_some, Option.some.injEq] at hf
    subst hf
    exact ⟨rfl, rfl⟩

/-- Acceptance of a string by the checked field is the pattern matching. -/
theorem accepts_header {E : Env} (hE : RegexpAgrees E) {S : Schema} {typ : String} {c : Bytes → Bool}
    {f f' : FieldDesc} (h : OnlyField S typ f') {k : KnownRegex} {strict : Option Bool}
    (hT : f.typ = .one .string) (hr : f.rules = .mk none (.string (headerRules k strict)))
    (hf : checkField c f = some f') (hk : k ≠ .unknown) {p : Bytes} {e : Re}
    (hp : (if (k = .headerName ∨ k = .headerValue) ∧ strict = some false then some headerString
        else regexMap k) = some p) (he : parsePattern p = some e) (s : Bytes) :
    Accepts E S typ f' (.sc (.str s)) ↔ Re.Matches e (runes s) := by
  obtain ⟨h1, h2⟩ := checked_header hT hr hf hk
  rw [accepts_string h h1 h2]
  rw [← Re.accepts_iff]
  show _ ↔ matchFull e s = true
  rw [← hE p e s he]
  simp [StringOk, headerRules, ListOk, LenOk, WellKnownOk, hp]

instance (b : UInt8) : Decidable (TokenByte b) := by unfold TokenByte; infer_instance

theorem name_byte : ∀ n : Fin 256, n.val ≠ 0x2C →
    (nameClass.has n.val = true ↔ TokenByte (UInt8.ofNat n.val)) := by decide +kernel

theorem name_byte' (b : UInt8) (h : b ≠ 0x2C) : nameClass.has b.toNat = true ↔ TokenByte b := by
  have := name_byte ⟨b.toNat, b.toNat_lt⟩ (fun hh => h (by
    have : b.toNat = (0x2C : UInt8).toNat := hh
    exact UInt8.toNat_inj.1 this))
  simpa using this

theorem nameClass_ascii (r : Nat) (h : nameClass.has r = true) : r < 0x80 := by
  simp only [nameClass, CClass.has, Bool.false_bne, List.any_eq_true, Bool.and_eq_true,
    decide_eq_true_eq] at h
  obtain ⟨p, hp, hlo, hhi⟩ := h
  simp at hp
  rcases hp with rfl | rfl | rfl | rfl | rfl | rfl | rfl | rfl | rfl | rfl | rfl | rfl | rfl | rfl |
    rfl | rfl <;> simp at hhi <;> omega

theorem token_ascii (b : UInt8) (h : TokenByte b) : b < 0x80 := by
  have : ∀ n : Fin 256, TokenByte (UInt8.ofNat n.val) → UInt8.ofNat n.val < 0x80 := by decide +kernel
  have := this ⟨b.toNat, b.toNat_lt⟩
  simp only [UInt8.ofNat_toNat] at this
  exact this h

/-- What the header name pattern matches. -/
theorem name_matches (s : Bytes) :
    Re.Matches (.seq [.opt (.chr 0x3A), .plus (.cls nameClass)]) (runes s) ↔
      ∃ tok : Bytes, tok ≠ [] ∧ (∀ b ∈ tok, nameClass.has b.toNat = true) ∧ (s = tok ∨ s = 0x3A :: tok) := by
  rw [matches_two]
  simp only [Re.opt, Re.matches_alt, Re.matches_eps, Re.matches_chr, Re.matches_plus_cls]
  constructor
  · rintro ⟨s1, s2, hs, h1, h2, h3⟩
    have hasc : ∀ r ∈ runes s, r < 0x80 := by
      rw [hs]
      intro r hr
      rcases List.mem_append.1 hr with hr | hr
      · rcases h1 with rfl | rfl
        · simp at hr
        · simp at hr; omega
      · exact nameClass_ascii r (h3 r hr)
    have hb := ascii_of_runes hasc
    rw [runes_ascii s hb] at hs
    rcases h1 with rfl | rfl
    · simp only [List.nil_append] at hs
      subst hs
      exact ⟨s, by simpa using h2, fun b hb => h3 _ (List.mem_map_of_mem hb), .inl rfl⟩
    · cases s with
      | nil => simp at hs
      | cons b t =>
        simp only [List.map_cons, List.cons_append, List.nil_append, List.cons.injEq] at hs
        obtain ⟨hb0, rfl⟩ := hs
        refine ⟨t, by simpa using h2, fun b hb => h3 _ (List.mem_map_of_mem hb), .inr ?_⟩
        rw [show b = 0x3A from UInt8.toNat_inj.1 hb0]
  · rintro ⟨tok, hne, htok, hs⟩
    have hta : ∀ b ∈ tok, b < 0x80 := fun b hb => by
      rw [UInt8.lt_iff_toNat]; exact nameClass_ascii _ (htok b hb)
    have h3 : ∀ r ∈ tok.map UInt8.toNat, nameClass.has r = true := by
      intro r hr
      obtain ⟨b, hb, rfl⟩ := List.mem_map.1 hr
      exact htok b hb
    rcases hs with rfl | rfl
    · exact ⟨[], runes s, rfl, .inl rfl, by rw [runes_ascii _ hta]; simpa using hne,
        by rw [runes_ascii _ hta]; exact h3⟩
    · refine ⟨[0x3A], runes tok, ?_, .inr rfl, by rw [runes_ascii _ hta]; simpa using hne,
        by rw [runes_ascii _ hta]; exact h3⟩
      rw [runes_cons_ascii tok (by decide)]
      rfl

/-- **C33, partial** A string field with `well_known_regex: HTTP_HEADER_NAME`, as the generator emits
it, accepts exactly the header names, among the strings without a comma. Missing: commas, see
`C33_comma_accepted`. -/
theorem C33_name_partial (E : Env) (hE : RegexpAgrees E) (S : Schema) (typ : String)
    (compiles : Bytes → Bool) (f f' : FieldDesc) (h : OnlyField S typ f') (strict : Option Bool)
    (hT : f.typ = .one .string) (hr : f.rules = .mk none (.string (headerRules .headerName strict)))
    (hf : checkField compiles f = some f') (hs : strict ≠ some false) (s : Bytes)
    (hc : (0x2C : UInt8) ∉ s) :
    Accepts E S typ f' (.sc (.str s)) ↔ HeaderName s := by
  rw [accepts_header hE h hT hr hf (by simp) (p := httpHeaderName) (by simp [hs, regexMap]) name_pattern,
    name_matches]
  unfold HeaderName
  refine exists_congr fun tok => and_congr_right fun _ => ?_
  constructor
  · rintro ⟨h1, h2⟩
    refine ⟨fun b hb => (name_byte' b ?_).1 (h1 b hb), h2⟩
    rintro rfl
    rcases h2 with rfl | rfl
    · exact hc hb
    · exact hc (List.mem_cons_of_mem _ hb)
  · rintro ⟨h1, h2⟩
    refine ⟨fun b hb => (name_byte' b ?_).2 (h1 b hb), h2⟩
    rintro rfl
    exact absurd (h1 _ hb) (by decide)

/-- **C33, negation** The range `+-.` in the class of header names contains the comma, which is not
a token character: a comma alone is accepted as a header name. -/
theorem C33_comma_accepted (E : Env) (hE : RegexpAgrees E) (S : Schema) (typ : String)
    (compiles : Bytes → Bool) (f f' : FieldDesc) (h : OnlyField S typ f')
    (hT : f.typ = .one .string) (hr : f.rules = .mk none (.string (headerRules .headerName none)))
    (hf : checkField compiles f = some f') :
    Accepts E S typ f' (.sc (.str [0x2C])) ∧ ¬ HeaderName [0x2C] := by
  constructor
  · rw [accepts_header hE h hT hr hf (by simp) (p := httpHeaderName) (by simp [regexMap]) name_pattern,
      name_matches]
    exact ⟨[0x2C], by simp, by decide, .inl rfl⟩
  · rintro ⟨tok, hne, htok, rfl | h⟩
    · exact absurd (htok 0x2C (by simp)) (by decide)
    · simp only [List.cons.injEq] at h
      exact absurd h.1 (by decide)

/-- **C33** With `well_known_regex: HTTP_HEADER_VALUE` exactly the header values are accepted. -/
theorem C33_value (E : Env) (hE : RegexpAgrees E) (S : Schema) (typ : String)
    (compiles : Bytes → Bool) (f f' : FieldDesc) (h : OnlyField S typ f') (strict : Option Bool)
    (hT : f.typ = .one .string) (hr : f.rules = .mk none (.string (headerRules .headerValue strict)))
    (hf : checkField compiles f = some f') (hs : strict ≠ some false) (s : Bytes) :
    Accepts E S typ f' (.sc (.str s)) ↔ HeaderValue s := by
  rw [accepts_header hE h hT hr hf (by simp) (p := httpHeaderValue) (by simp [hs, regexMap]) value_pattern,
    matches_one, Re.matches_star_cls]
  rw [runes_all_iff' (p := fun r => CClass.has ⟨true, [(0, 8), (0x0A, 0x1F), (0x7F, 0x7F)]⟩ r = true)
    (fun r hr => by simp [CClass.has]; omega)]
  refine forall_congr' fun b => imp_congr_right fun _ => ?_
  have : ∀ n : Fin 256, CClass.has ⟨true, [(0, 8), (0x0A, 0x1F), (0x7F, 0x7F)]⟩ n.val = true ↔
      (0x20 ≤ UInt8.ofNat n.val ∧ UInt8.ofNat n.val ≠ 0x7F) ∨ UInt8.ofNat n.val = 0x09 := by
    decide +kernel
  simpa using this ⟨b.toNat, b.toNat_lt⟩

/-- **C33** With `strict: false`, for header names and values alike, exactly the strings without NUL,
CR and LF are accepted. -/
theorem C33_nonstrict (E : Env) (hE : RegexpAgrees E) (S : Schema) (typ : String)
    (compiles : Bytes → Bool) (f f' : FieldDesc) (h : OnlyField S typ f') (k : KnownRegex)
    (hk : k = .headerName ∨ k = .headerValue)
    (hT : f.typ = .one .string) (hr : f.rules = .mk none (.string (headerRules k (some false))))
    (hf : checkField compiles f = some f') (s : Bytes) :
    Accepts E S typ f' (.sc (.str s)) ↔ HeaderString s := by
  rw [accepts_header hE h hT hr hf (by rcases hk with rfl | rfl <;> simp) (p := headerString)
    (by simp [hk]) string_pattern, matches_one, Re.matches_star_cls]
  rw [runes_all_iff' (p := fun r => CClass.has ⟨true, [(0, 0), (0x0A, 0x0A), (0x0D, 0x0D)]⟩ r = true)
    (fun r hr => by simp [CClass.has]; omega)]
  refine forall_congr' fun b => imp_congr_right fun _ => ?_
  have : ∀ n : Fin 256, CClass.has ⟨true, [(0, 0), (0x0A, 0x0A), (0x0D, 0x0D)]⟩ n.val = true ↔
      UInt8.ofNat n.val ≠ 0x00 ∧ UInt8.ofNat n.val ≠ 0x0D ∧ UInt8.ofNat n.val ≠ 0x0A := by
    decide +kernel
  simpa using this ⟨b.toNat, b.toNat_lt⟩

/-- **C33, partial** Checking string rules without `well_known_regex` leaves them as they are, so
checking them again is harmless. -/
theorem C33_twice_partial (compiles : Bytes → Bool) (r r' : StringRules)
    (hw : ∀ k, r.wellKnown ≠ some (.regex k)) (h : checkString compiles r = some r') :
    checkString compiles r' = some r' := by
  have hwk : checkWellKnownRegex r = some r := by
    unfold checkWellKnownRegex
    have : r.getRegex = .unknown := by
      unfold StringRules.getRegex
      split
      · rename_i k hk; exact absurd hk (hw k)
      · rfl
    rw [this]
  have : r' = r := by
    have := checkString_some h
    rw [hwk] at this
    exact (Option.some.inj this).symm
  rw [this] at h ⊢
  exact h

/-- **C33, negation** With a header `well_known_regex`, checking the same rules a second time fails:
the first check has written the pattern into them. -/
theorem C33_twice_fails (compiles : Bytes → Bool) (f f' : FieldDesc) (k : KnownRegex)
    (strict : Option Bool) (hk : k = .headerName ∨ k = .headerValue) (hT : f.typ = .one .string)
    (hr : f.rules = .mk none (.string (headerRules k strict)))
    (hf : checkField compiles f = some f') : checkField compiles f' = none := by
  obtain ⟨h1, h2⟩ := checked_header hT hr hf (by rcases hk with rfl | rfl <;> simp)
  have : ∃ p, (if (k = .headerName ∨ k = .headerValue) ∧ strict = some false then some headerString
        else regexMap k) = some p := by
    rcases hk with rfl | rfl <;> (split <;> exact ⟨_, rfl⟩)
  obtain ⟨p, hp⟩ := this
  rw [hp] at h2
  have hwk : checkWellKnownRegex { headerRules k strict with pattern := some p } = none := by
    rcases hk with rfl | rfl <;> simp [checkWellKnownRegex, StringRules.getRegex, headerRules]
  have hcs : checkString compiles { headerRules k strict with pattern := some p } = none := by
    cases hx : checkString compiles { headerRules k strict with pattern := some p } with
    | none => rfl
    | some x => rw [checkString_some hx] at hwk; cases hwk
  unfold checkField
  simp only [h2, FieldRules.message, Option.isSome_none, Bool.false_and, Bool.false_eq_true, if_false,
    checkFieldRules, checkTypeRules, hcs]
  split <;> rfl

/-- A regular expression engine for the fragment. -/
def reEnv : Env := { Fixtures.env with
  matchRe := fun p s => match parsePattern p with | some e => matchFull e s | none => false }

/-- C33's hypotheses are met, and both sides of its equivalences occur. -/
example : RegexpAgrees reEnv ∧
    (checkField (fun p => (parsePattern p).isSome)
      (Fixtures.fieldOf .string (.string (headerRules .headerName none)))).isSome = true ∧
    HeaderName (asc ":path") ∧ ¬ HeaderName (asc ":") ∧ HeaderValue (asc "a b") ∧ ¬ HeaderValue [0x0A] := by
  refine ⟨fun p e s h => by simp [reEnv, h], by decide +kernel,
    ⟨asc "path", by decide, by decide, .inr rfl⟩, ?_, by unfold HeaderValue; decide, by unfold HeaderValue; decide⟩
  rintro ⟨tok, hne, htok, h | h⟩
  · exact absurd (htok 0x3A (by rw [← h]; decide)) (by decide)
  · have : tok = [] := by
      have : asc ":" = [0x3A] := by decide
      rw [this] at h
      simpa using h.symm
    exact hne this

end PGV.Props
