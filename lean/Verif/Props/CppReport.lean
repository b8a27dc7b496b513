import Verif.Lemmas.CppReport
import Verif.Props.Reasons
import Verif.Props.Cpp

/-!
C85: what a C++ validator reports is something that Go's `ValidateAll()` reports.
-/

set_option linter.unusedSimpArgs false

namespace PGV.Props
open PGV PGV.Cpp PGV.Spec.Cpp
open PGV.Spec hiding Accepts FormatAgrees TextLibs LibsAgree PortString PortBytes PortEnum PortAny
  PortDuration PortType PortElem FitsScalar FitsVal FitsItem PortField Portable Outside
open PGV.Go (Env Err)

/-- **C85, partial** Whole messages, of any type and nesting, with rules and values in the common part of
the languages (`Portable`): the violation that a C++ validator returns is one of those that Go's
`ValidateAll()` returns for the message. Missing: what `Portable` excludes; see `C85_false_reason`. -/
theorem C85_reported_by_go_partial (E : Env) (P : CEnv) (S : Schema) (hL : LibsAgree E P S) (typ : String)
    (d : MsgDesc) (hS : S typ = .generated d) (hi : d.ignored = false)
    (fs : List (String × Val)) (os : List (String × String × Val))
    (hP : Portable E P S (.msg typ fs os)) (e : CErr)
    (he : checkMessage P S (.msg typ fs os) = .error (.invalid e)) :
    ∃ y z, Go.validate E S true (.msg typ fs os) = some y ∧ Reported z y ∧ SameReport E P e z := by
  rcases fuel_finds hL (Go.depth (.msg typ fs os)) (.msg typ fs os) (Nat.le_refl _) hP e he with
    ⟨-, h⟩ | ⟨h, -⟩
  · exact h
  · simp [Go.methods, hS, hi] at h

/-- The wording does not matter to the requirement that a Go text states. -/
theorem reading_wording (E : Env) (et : ElemT) (r : List Go.Piece) (w : Val) (h : ¬ Reading E et r w) (u : Val) :
    Reading E et (wording r) u ↔ Reading E et r u := by
  unfold wording
  split
  · exact absurd (by simp [Reading, sizeReading]) h
  · exact absurd (by simp [Reading, rangeReading]) h
  · refine absurd ?_ h
    simp only [Reading, sizeReading, Spec.size]
    intro k hk
    split at hk <;> simp_all
  · refine absurd ?_ h
    simp only [Reading, sizeReading, Spec.size]
    intro k hk
    split at hk <;> simp_all
  · exact absurd (by simp [Reading, bareReading]) h
  · exact absurd (by simp [Reading, bareReading]) h
  · exact absurd (by simp [Reading, bareReading]) h
  · exact absurd (by simp [Reading, bareReading]) h
  · simp [Reading, valueReading]
  · exact Iff.rfl

/-- **C85, partial** The reasons in C++ violations are true, under the same hypotheses: every violation
is a required oneof that is not set, an embedded message that failed validation, or a broken rule on (an
item, key or value of) a field. In the last case the reason, read as a requirement, does not hold of the
value that is blamed, and holds of every value of the same kind that satisfies the rules, except for
those that `ignore_empty` exempts. (No field has the name of a oneof.) -/
theorem C85_reasons_partial (E : Env) (P : CEnv) (S : Schema) (hL : LibsAgree E P S) (typ : String)
    (d : MsgDesc) (hS : S typ = .generated d) (hi : d.ignored = false) (hd : d.disabled = false)
    (fs : List (String × Val)) (os : List (String × String × Val))
    (hP : Portable E P S (.msg typ fs os))
    (hN : ∀ o ∈ d.oneofs, ∀ f, f ∈ d.fields ∨ (∃ p ∈ d.oneofs, f ∈ p.fields) → f.name ≠ o.name) (e : CErr)
    (he : checkMessage P S (.msg typ fs os) = .error (.invalid e)) :
    (∃ o ∈ d.oneofs, o.required = true ∧ os.lookup o.name = none ∧ e = .oneof o.name) ∨
    (∃ f v i rules w y e', Active d fs os f v ∧ HeldBy f v i rules w ∧
      rules.type = .unset ∧ msgSkip rules.message = false ∧
      (Go.validate E S true w = some y ∨ E.legacy w = some y) ∧
      e = .viol d.name f.name i false [.s "embedded message failed validation"] (some e')) ∨
    (∃ f v i et t ok w reason cause, Active d fs os f v ∧
      Target E S (fun w => Go.validate E S false w = none) f v i et t ok w ∧
      e = .viol d.name f.name i false reason cause ∧
      ¬ Reading E et (wording reason) w ∧
      ∀ u, Alike w u → ok u → Exempt t u ∨ Reading E et (wording reason) u) := by
  obtain ⟨y, z, hy, hz, hs⟩ := C85_reported_by_go_partial E P S hL typ d hS hi fs os hP e he
  have hblame : (∃ n i k r c, e = .viol d.name n i k r c ∧ ∀ o ∈ d.oneofs, n ≠ o.name) ∨
      ∃ o ∈ d.oneofs, o.required = true ∧ os.lookup o.name = none ∧ e = .oneof o.name := by
    rcases C55_blames_first_partial E P S hL typ d hS hi hd fs os hP e he with
      ⟨pre, f, post, hf, -, -, i, r, c, h⟩ | ⟨-, pre, o, post, ho, -, -, ⟨h1, h2, h3⟩ |
        ⟨m, u, f, i, r, c, hl, hf, hm, h⟩⟩
    · exact .inl ⟨_, i, false, r, c, h, fun o ho => hN o ho f (.inl (by rw [hf]; simp))⟩
    · exact .inr ⟨o, by rw [ho]; simp, h2, h1, h3⟩
    · exact .inl ⟨_, i, false, r, c, h, fun o' ho' => hN o' ho' f (.inr ⟨o, by rw [ho]; simp, hf⟩)⟩
  rcases C82_reasons E S true typ fs os d y z hS hy hz with ⟨o, ho, h1, h2, rfl⟩ |
    ⟨f, v, i, rules, w, y', hA, hH, h1, h2, h3, rfl⟩ | ⟨f, v, i, et, t, ok, w, reason, cause, hA, hT, rfl, h1, h2⟩
  · rcases hblame with ⟨n, i, k, r, c, rfl, hn⟩ | h
    · have hname := hn o ho
      generalize ht : ([.s "value is required"] : List Go.Piece) = text at hs
      generalize hf : (⟨o.name, none⟩ : Go.FieldRef) = ref at hs
      cases hs <;> cases hf <;> exact absurd rfl hname
    · exact .inl h
  · rcases hblame with ⟨n, i', k, r, c, rfl, hn⟩ | h
    case inr => exact .inl h
    generalize ht : ([.s "embedded message failed validation"] : List Go.Piece) = text at hs
    cases hs with
    | rule hw hn hc hc' => exact absurd ht.symm hn
    | embedded => exact .inr (.inl ⟨f, v, i, rules, w, y', _, hA, hH, h1, h2, h3, rfl⟩)
    | elsewhere => exact .inr (.inl ⟨f, v, i, rules, w, y', _, hA, hH, h1, h2, h3, rfl⟩)
  · rcases hblame with ⟨n, i', k', r', c', rfl, hn⟩ | h
    case inr => exact .inl h
    cases hs with
    | rule hw hn hc hc' =>
      refine .inr (.inr ⟨f, v, i, et, t, ok, w, r', c', hA, hT, rfl, ?_, fun u hu hok => ?_⟩)
      · rw [hw, reading_wording E et _ w h1]
        exact h1
      · rcases h2 u hu hok with h | h
        · exact .inl h
        · refine .inr ?_
          rw [hw, reading_wording E et _ w h1]
          exact h
    | embedded => exact absurd (by simp [Reading, bareReading]) h1
    | elsewhere => exact absurd (by simp [Reading, bareReading]) h1

/-- The theorems apply to a person with a nickname that is too long, and no field of the type has the
name of a oneof. -/
example : Portable Fixtures.env cenv Fixtures.schema (someone 30 (asc "bobby") (asc "555")) ∧
    (∃ e, checkMessage cenv Fixtures.schema (someone 30 (asc "bobby") (asc "555")) = .error (.invalid e)) ∧
    ∀ o ∈ Fixtures.person.oneofs, ∀ f, f ∈ Fixtures.person.fields ∨
      (∃ p ∈ Fixtures.person.oneofs, f ∈ p.fields) → f.name ≠ o.name := by
  refine ⟨someone_portable 30 _ _ (by decide) (by decide)
      (utf8_asc3 [98, 111, 98, 98, 121] (by decide) _ (by decide +kernel))
      (utf8_asc3 [53, 53, 53] (by decide) _ (by decide +kernel)), ⟨_, by rfl⟩, ?_⟩
  have h : ∀ o ∈ Fixtures.person.oneofs, (∀ f ∈ Fixtures.person.fields, f.name ≠ o.name) ∧
      ∀ p ∈ Fixtures.person.oneofs, ∀ f ∈ p.fields, f.name ≠ o.name := by decide
  rintro o ho f (hf | ⟨p, hp, hf⟩)
  · exact (h o ho).1 f hf
  · exact (h o ho).2 p hp f hf

/-- **C85, exception** Where C++ misreads a rule its reason can be false: of the number 1e-7 it reports
that the value must equal 1e-7, under `const: 1e-7` on a `float` field. -/
theorem C85_false_reason (E : Env) (P : CEnv) :
    let f := Fixtures.fieldOf (.scalar .float) (.num .float { const := some (.f32 0x33D6BF95#32) })
    let v : Val := .sc (.num (.f32 0x33D6BF95#32))
    ∃ reason, checkMessage P (Fixtures.only f) (.msg "M" [(f.name, v)] []) =
        .error (.invalid (.viol "M" "X" none false reason none)) ∧
      wording reason = [.s "value must equal ", .num (.f32 0x33D6BF95#32)] ∧
      Reading E (.scalar .float) (wording reason) v ∧ Spec.Accepts E (Fixtures.only f) "M" f v := by
  intro f v
  have hne : CNum.eq (cnum .float (.f32 0x33D6BF95#32))
      (.flt ((val32 0x33D6BF95#32).map fun x => readFloat (millionths x) 1000000)) = false := by
    decide +kernel
  refine ⟨[.s "value must equal ", .num (.f32 0x33D6BF95#32)], ?_, rfl, ?_, (C55_float_const E P).2.2.2.1⟩
  · refine (cpp_num P .float { const := some (.f32 0x33D6BF95#32) } (.f32 0x33D6BF95#32)).trans ?_
    simp only [numTpl, constLit, hne, withOpt, optB, when, seq, fail, failIdx]
    rfl
  · have : wording [.s "value must equal ", .num (.f32 0x33D6BF95#32)] =
        [.s "value must equal ", .num (.f32 0x33D6BF95#32)] := rfl
    rw [this]
    simp only [Reading, valueReading]
    exact ⟨_, rfl, rfl⟩

/-- **C85, exception** C++ and Go's `Validate()` can stop at different violations of one message: of
`bytes` that have neither the length nor the value required, C++ reports the value and Go the length. -/
theorem C85_other_first (E : Env) (P : CEnv) :
    let f := Fixtures.fieldOf .bytes (.bytes { len := some 2, const := some [0x61, 0x62] })
    let v : Val := .msg "M" [(f.name, .sc (.bytes [0x61]))] []
    checkMessage P (Fixtures.only f) v =
        .error (.invalid (.viol "M" "X" none false [.s "value must equal ", .bytes [0x61, 0x62]] none)) ∧
      Go.validate E (Fixtures.only f) false v =
        some (.viol "M" ⟨"X", none⟩ [.s "value length must be ", .nat 2, .s " bytes"] none false) := by
  intro f v
  refine ⟨?_, ?_⟩
  · refine (cpp_bytes P { len := some 2, const := some [0x61, 0x62] } [0x61]).trans ?_
    rfl
  · rw [Go.validate_eq]
    rfl

end PGV.Props
