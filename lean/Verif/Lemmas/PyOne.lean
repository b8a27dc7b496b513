import Verif.Lemmas.PyHost
import Verif.Lemmas.Single
import Verif.Props.Headers

/-!
Python's `validate` on messages with one field, and the well-known regular expressions.
-/

set_option linter.unusedSimpArgs false
set_option autoImplicit false

namespace PGV.Py
open PGV PGV.Spec.Python PGV.Checker Code
open PGV.Spec hiding Common FormatAgrees TextLibs LibsAgree PortString PortBytes PortEnum PortDuration
  PortType FitsScalar FitsVal FitsItem PortField Portable
open PGV.Go (Env)

variable {nm : String} {why : Text}

/-- A one-field message is accepted exactly when the code of the field accepts its value. -/
theorem pyAccepts_iff {P : PEnv} {S : Schema} {typ : String} {f : FieldDesc} (h : OnlyField S typ f)
    (hi : NotIgnored S typ) (v : Val) :
    PyAccepts P S typ f v ↔
      (fieldCode P (validateFuel P S (max (Go.depthFields [(f.name, v)]) (Go.depthOneofs []))) false f).run v
        = .ok () := by
  obtain ⟨d, hS, hd, hf, ho⟩ := h
  unfold PyAccepts validate
  rw [Go.depth, validateFuel]
  simp [validateStep, hS, msgCode, hd, hi d hS, hf, ho, seqAll, Go.getField_single]

/-- A one-field message with a scalar value. -/
theorem pyAccepts_scalar {P : PEnv} {S : Schema} {typ : String} {f : FieldDesc}
    (h : OnlyField S typ f) (hi : NotIgnored S typ) {e : ElemT} (hT : f.typ = .one e)
    (he : e.isEmbed = false) (v : Val) :
    PyAccepts P S typ f v ↔ (scalarField P false f e false).run v = .ok () := by
  rw [pyAccepts_iff h hi]
  cases e with
  | embed n w => cases he
  | _ => simp only [fieldCode, hT]

/-- A one-field message with a Duration, Timestamp, Any or wrapper. -/
theorem pyAccepts_message {P : PEnv} {S : Schema} {typ : String} {f : FieldDesc}
    (h : OnlyField S typ f) (hi : NotIgnored S typ) {n : String} {w : Option WKT}
    (hT : f.typ = .one (.embed n w)) (hr : f.rules ≠ .absent) (v : Val) :
    ∃ rec, PyAccepts P S typ f v ↔ (messageField P rec f w).run v = .ok () := by
  have e := pyAccepts_iff (P := P) h hi v
  have hu : unruled f = false := by
    unfold unruled
    split
    · exact absurd ‹_› hr
    · rfl
  simp only [fieldCode, hT, hu, Bool.false_and, Bool.false_eq_true, if_false] at e
  exact ⟨_, e⟩

/-! ### Numbers -/

theorem numRange_some (r : NumRules) : (numRange nm r).isSome = true := by
  unfold numRange
  split <;> (try split) <;> rfl

theorem numRange_nonempty {r : NumRules}
    (h : r.lt.isSome || r.lte.isSome || r.gt.isSome || r.gte.isSome) : numRange nm r ≠ some [] := by
  unfold numRange
  split <;> (try split) <;> simp_all [numTest, stmt]

theorem seq_nonempty {α : Type} {a b : Code α} (h : (a ;; b) = some []) : a = some [] ∧ b = some [] := by
  cases a <;> cases b <;> simp_all [seq]

/-- Numeric rules with a constant have code. -/
theorem numCode_some {r : NumRules} (h : numbersOf r ≠ []) : (numCode nm r).isSome = true := by
  have hb : (genOpt r.const (fun c => numTest nm [c] [.s "not equal to ", .item (.num c)] fun x => !x.eq c) ;; numIn nm r ;; numRange nm r).isSome =
      true := by
    simp [numIn, numRange_some, numTest, stmt]
  unfold numCode
  simp only
  split
  · cases hc : (genOpt r.const (fun c => numTest nm [c] [.s "not equal to ", .item (.num c)] fun x => !x.eq c) ;; numIn nm r ;; numRange nm r) with
    | none => rw [hc] at hb; cases hb
    | some l =>
      cases l with
      | cons s l => rfl
      | nil =>
        exfalso
        obtain ⟨h1, h2⟩ := seq_nonempty hc
        obtain ⟨h2, h3⟩ := seq_nonempty h2
        obtain ⟨h4, h5⟩ := seq_nonempty (show (gen (!r.ins.isEmpty)
          (numTest nm r.ins [.s "not in ", .items (r.ins.map .num)] fun x => !r.ins.any fun k => x.eq k) ;;
          gen (!r.notIns.isEmpty)
          (numTest nm r.notIns [.s "in ", .items (r.notIns.map .num)] fun x => r.notIns.any fun k => x.eq k)) = some [] from h2)
        apply h
        have e1 : r.const = none := by
          cases hx : r.const with
          | none => rfl
          | some c => rw [hx] at h1; simp [genOpt, numTest, stmt] at h1
        have e2 : r.ins = [] := by
          cases hx : r.ins with
          | nil => rfl
          | cons c l => rw [hx] at h4; simp [gen, numTest, stmt] at h4
        have e3 : r.notIns = [] := by
          cases hx : r.notIns with
          | nil => rfl
          | cons c l => rw [hx] at h5; simp [gen, numTest, stmt] at h5
        have e4 : ¬ (r.lt.isSome || r.lte.isSome || r.gt.isSome || r.gte.isSome) :=
          fun hh => numRange_nonempty hh h3
        simp only [Bool.or_eq_true, not_or, Bool.not_eq_true, Option.isSome_eq_false_iff,
          Option.isNone_iff_eq_none] at e4
        simp [numbersOf, e1, e2, e3, e4]
  · exact hb

theorem typeText_num {k : NumKind} {r : NumRules} (h : numbersOf r ≠ []) : typeText (.num k r) = true := by
  unfold typeText
  simp only [bne_iff_ne]
  rintro rfl
  exact h rfl

/-! ### Well-known regular expressions -/

theorem name_char (r : Nat) : headerNameChar r = nameClass.has r := by
  by_cases h : r < 128
  · have : ∀ n : Fin 128, headerNameChar n.val = nameClass.has n.val := by decide +kernel
    exact this ⟨r, h⟩
  · have e1 : headerNameChar r = false := by
      simp only [headerNameChar, List.contains_eq_mem, Bool.or_eq_false_iff, Bool.and_eq_false_iff,
        decide_eq_false_iff_not, List.mem_cons, List.not_mem_nil, or_false]
      omega
    rw [e1]
    simp [nameClass, CClass.has]
    omega

theorem name_body (t : PStr) : headerNameBody t = true ↔
    Re.Matches (.seq [.opt (.chr 0x3A), .plus (.cls nameClass)]) t := by
  have plus : ∀ u : PStr, (!u.isEmpty && u.all headerNameChar) = true ↔
      u ≠ [] ∧ ∀ r ∈ u, nameClass.has r = true := by
    intro u
    simp [List.all_eq_true, name_char]
  rw [matches_two]
  simp only [Re.opt, Re.matches_alt, Re.matches_eps, Re.matches_chr, Re.matches_plus_cls]
  unfold headerNameBody
  split
  · rename_i t
    rw [plus]
    constructor
    · rintro ⟨h1, h2⟩
      exact ⟨[0x3A], t, rfl, .inr rfl, h1, h2⟩
    · rintro ⟨s1, s2, hs, rfl | rfl, h1, h2⟩
      · simp only [List.nil_append] at hs
        subst hs
        exact absurd (h2 0x3A (by simp)) (by decide)
      · simp only [List.cons_append, List.nil_append, List.cons.injEq, true_and] at hs
        subst hs
        exact ⟨h1, h2⟩
  · rename_i hne
    rw [plus]
    constructor
    · rintro ⟨h1, h2⟩
      exact ⟨[], t, rfl, .inl rfl, h1, h2⟩
    · rintro ⟨s1, s2, hs, rfl | rfl, h1, h2⟩
      · simp only [List.nil_append] at hs
        subst hs
        exact ⟨h1, h2⟩
      · exact absurd hs (hne s2)

theorem value_body (t : PStr) : t.all headerValueChar = true ↔
    Re.Matches (.seq [.star (.cls ⟨true, [(0, 8), (0x0A, 0x1F), (0x7F, 0x7F)]⟩)]) t := by
  rw [matches_one, Re.matches_star_cls, List.all_eq_true]
  refine forall_congr' fun r => imp_congr_right fun _ => ?_
  simp only [headerValueChar, CClass.has, List.any_cons, List.any_nil, Bool.or_false, Bool.true_bne,
    Bool.not_eq_true', Bool.or_eq_false_iff, Bool.and_eq_false_iff, decide_eq_false_iff_not,
    beq_eq_false_iff_ne]
  omega

theorem string_body (t : PStr) : t.all headerStringChar = true ↔
    Re.Matches (.seq [.star (.cls ⟨true, [(0, 0), (0x0A, 0x0A), (0x0D, 0x0D)]⟩)]) t := by
  rw [matches_one, Re.matches_star_cls, List.all_eq_true]
  refine forall_congr' fun r => imp_congr_right fun _ => ?_
  simp only [headerStringChar, CClass.has, List.any_cons, List.any_nil, Bool.or_false, Bool.true_bne,
    Bool.not_eq_true', Bool.or_eq_false_iff, Bool.and_eq_false_iff, decide_eq_false_iff_not,
    Bool.and_eq_true, bne_iff_ne]
  omega

/-- The expressions of Go and the tests of Python: the same bodies. -/
theorem header_test {k : KnownRegex} (strict : Option Bool) (hk : k = .headerName ∨ k = .headerValue) :
    ∃ p e body, (if (k = .headerName ∨ k = .headerValue) ∧ strict = some false then some headerString
        else regexMap k) = some p ∧ parsePattern p = some e ∧
      knownRegex k strict = some (some (anchored body)) ∧ ∀ t, body t = true ↔ Re.Matches e t := by
  rcases hk with rfl | rfl
  · by_cases hs : strict = some false
    · exact ⟨_, _, (·.all headerStringChar), by simp [hs], string_pattern, by simp [knownRegex, hs], string_body⟩
    · refine ⟨_, _, headerNameBody, by simp [hs, regexMap], name_pattern, ?_, name_body⟩
      rcases strict with _ | _ | _ <;> simp_all [knownRegex]
  · by_cases hs : strict = some false
    · exact ⟨_, _, (·.all headerStringChar), by simp [hs], string_pattern, by simp [knownRegex, hs], string_body⟩
    · refine ⟨_, _, (·.all headerValueChar), by simp [hs, regexMap], value_pattern, ?_, value_body⟩
      rcases strict with _ | _ | _ <;> simp_all [knownRegex]

/-- Python's `$` on a string. -/
theorem anchored_iff {body : PStr → Bool} {s : Bytes} (hs : Utf8 s) :
    anchored body (pstr s) = true ↔
      body (pstr s) = true ∨ ∃ t, Utf8 t ∧ s = t ++ [0x0A] ∧ body (pstr t) = true := by
  unfold anchored
  rw [Bool.or_eq_true, Bool.and_eq_true, beq_iff_eq]
  refine or_congr Iff.rfl ?_
  constructor
  · rintro ⟨h1, h2⟩
    obtain ⟨cs, hc, rfl⟩ := hs
    rw [pstr_encode hc] at h1 h2
    obtain ⟨ds, rfl⟩ := List.getLast?_eq_some_iff.1 h1
    have hd : ∀ c ∈ ds, ScalarValue c := fun c h => hc c (by simp [h])
    refine ⟨ds.flatMap encodeRune, ⟨ds, hd, rfl⟩, ?_, ?_⟩
    · rw [List.flatMap_append]
      rfl
    · rw [pstr_encode hd]
      simpa using h2
  · rintro ⟨t, ⟨ds, hd, rfl⟩, rfl, h⟩
    have hc : ∀ c ∈ ds ++ [0x0A], ScalarValue c := by
      intro c h
      rcases List.mem_append.1 h with h | h
      · exact hd c h
      · simp only [List.mem_cons, List.not_mem_nil, or_false] at h
        subst h
        unfold ScalarValue
        omega
    have e : ds.flatMap encodeRune ++ [0x0A] = (ds ++ [0x0A]).flatMap encodeRune := by
      rw [List.flatMap_append]
      rfl
    rw [e, pstr_encode hc]
    rw [pstr_encode hd] at h
    simp [h]

/-- A string field with `well_known_regex` only. -/
theorem py_header {P : PEnv} {S : Schema} {typ : String} {f : FieldDesc} (h : OnlyField S typ f)
    (hi : NotIgnored S typ) {k : KnownRegex} {strict : Option Bool} (hT : f.typ = .one .string)
    (hr : f.rules = .mk none (.string (Props.headerRules k strict))) {test : PStr → Bool}
    (hk : knownRegex k strict = some (some test)) (s : Bytes) :
    PyAccepts P S typ f (.sc (.str s)) ↔ test (pstr s) = true := by
  rw [pyAccepts_scalar h hi hT rfl]
  unfold scalarField
  simp only [hr]
  rw [if_pos (by simp [typeText, Props.headerRules, messageText])]
  rw [run_onStr]
  simp only [oneofText, strCode, Props.headerRules, optB, Bool.false_eq_true, if_false, run_seq, run_genOpt,
    reduceCtorEq, false_implies, implies_true, true_and, inCode, strLen, genPos, optN, strAffix, genText,
    optS, strFormat, StringRules.getEmail, StringRules.getHostname, StringRules.getAddress,
    StringRules.getIp, StringRules.getIpv4, StringRules.getIpv6, StringRules.getUri,
    StringRules.getUriRef, StringRules.getUuid, run_gen, List.isEmpty_nil, List.map_nil, Bool.not_true,
    bne_self_eq_false, and_true, Option.getD_none]
  unfold strPattern
  simp [StringRules.getRegex, hk]

/-! ### UUIDs -/

theorem py_uuid {P : PEnv} {S : Schema} {typ : String} {f : FieldDesc} (h : OnlyField S typ f)
    (hi : NotIgnored S typ) (hT : f.typ = .one .string)
    (hr : f.rules = .mk none (.string { wellKnown := some (.uuid true) })) (s : Bytes) :
    PyAccepts P S typ f (.sc (.str s)) ↔ uuidOk P (pstr s) = true := by
  rw [pyAccepts_scalar h hi hT rfl]
  unfold scalarField
  simp only [hr]
  rw [if_pos (by simp [typeText, messageText])]
  rw [run_onStr]
  simp [oneofText, strCode, optB, inCode, strLen, genPos, optN, strAffix, genText,
    optS, strFormat, StringRules.getEmail, StringRules.getHostname, StringRules.getAddress,
    StringRules.getIp, StringRules.getIpv4, StringRules.getIpv6, StringRules.getUri,
    StringRules.getUriRef, StringRules.getUuid, strPattern, StringRules.getRegex, knownRegex]

theorem py_hostname {P : PEnv} {S : Schema} {typ : String} {f : FieldDesc} (h : OnlyField S typ f)
    (hi : NotIgnored S typ) (hT : f.typ = .one .string)
    (hr : f.rules = .mk none (.string { wellKnown := some (.hostname true) })) (s : Bytes) :
    PyAccepts P S typ f (.sc (.str s)) ↔ validateHostName (pstr s) = true := by
  rw [pyAccepts_scalar h hi hT rfl]
  unfold scalarField
  simp only [hr]
  rw [if_pos (by simp [typeText, messageText])]
  rw [run_onStr]
  simp [oneofText, strCode, optB, inCode, strLen, genPos, optN, strAffix, genText,
    optS, strFormat, StringRules.getEmail, StringRules.getHostname, StringRules.getAddress,
    StringRules.getIp, StringRules.getIpv4, StringRules.getIpv6, StringRules.getUri,
    StringRules.getUriRef, StringRules.getUuid, strPattern, StringRules.getRegex, knownRegex]

end PGV.Py
