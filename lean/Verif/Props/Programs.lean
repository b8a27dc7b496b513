import Verif.Spec.Programs
import Verif.Lemmas.Wire
import Verif.Props.Harness
import Verif.Props.Cpp
import Verif.Props.CppErrorText
import Verif.Props.PyReason
import Verif.Props.JavaReason

/-!
C93: what the test programs report, and what the executor counts.
-/

set_option linter.unusedSimpArgs false
set_option autoImplicit false

namespace PGV.Props
open PGV PGV.Spec PGV.Spec.Tests PGV.Harness

/-! ### The wire format -/

/-- **C93** The executor reads the answer that a program writes, if the reasons in it are UTF-8 (and in memory). -/
theorem C93_answers_arrive (r : TestResult) (h : ∀ b ∈ r.reasons, b.length < 2 ^ 63 ∧ Utf8 b) :
    decodeResult (encodeResult r) = some r :=
  decode_encode_result r h

/-- **C93** It takes no answer with a reason that is not. -/
theorem C93_bad_reason (r : TestResult) (hl : ∀ b ∈ r.reasons, b.length < 2 ^ 63) (h : ∃ b ∈ r.reasons, ¬ Utf8 b) :
    decodeResult (encodeResult r) = none :=
  decode_bad_result r hl h

theorem utf8_nil : Utf8 [] := ⟨[], by simp, rfl⟩

theorem utf8_letters (n : Nat) : Utf8 (List.replicate n 0x61) := by
  refine ⟨List.replicate n 0x61, ?_, ?_⟩
  · intro c hc
    rw [(List.mem_replicate.1 hc).2]
    simp [ScalarValue]
  · have : encodeRune 0x61 = [0x61] := by decide
    induction n with
    | zero => rfl
    | succ n ih => rw [List.replicate_succ, List.replicate_succ, List.flatMap_cons, ← ih, this]; rfl

/-- An answer with a reason of 200 letters. -/
example : encodeResult { reasons := [List.replicate 200 0x61], allowFailure := true } =
      [0x1A, 0xC8, 0x01] ++ List.replicate 200 0x61 ++ [0x20, 0x01] ∧
    ∀ b ∈ [List.replicate 200 (0x61 : UInt8)], b.length < 2 ^ 63 ∧ Utf8 b := by
  refine ⟨by decide +kernel, ?_⟩
  intro b hb
  have : b = List.replicate 200 0x61 := by simpa using hb
  subst this
  exact ⟨by rw [List.length_replicate]; decide, utf8_letters 200⟩

theorem answer_ok (r : TestResult) (h : ∀ b ∈ r.reasons, b.length < 2 ^ 63 ∧ Utf8 b) :
    answer (.exit (encodeResult r)) =
      .result r.valid r.error r.allowFailure r.checkMultipleErrors r.reasons.length := by
  simp only [answer, C93_answers_arrive r h]

theorem judge_plain (n k : Nat) (valid : Bool) :
    CountedRight (valid = true) n (judge n (.result valid false false false k)) := by
  unfold CountedRight judge asSuccess asFailure
  cases valid <;> by_cases h : n = 0 <;> simp [h]

theorem counted_congr {p q : Prop} {n : Nat} {r : Result} (h : CountedRight p n r) (e : p ↔ q) :
    CountedRight q n r := by
  have : p = q := propext e
  exact this ▸ h

/-! ### Go -/

theorem utf8_text (t : Go.Text) : Utf8 (textBytes t) := by
  refine ⟨t.map Char.toNat, ?_, by simp [textBytes, List.flatMap_map]⟩
  intro c hc
  obtain ⟨d, -, rfl⟩ := List.mem_map.1 hc
  have := d.valid
  unfold ScalarValue
  have h : d.toNat = d.val.toNat := rfl
  rcases this with h1 | ⟨h1, h2⟩
  · rw [h]; omega
  · rw [h]; omega

/-- **C93, partial** Go: the run of a case is counted by whether `Validate()` accepts the message. (Reasons are not
longer than memory; errors of types generated by older versions have nothing inside, and both calls see maps in one
order, see C59.) Missing: how many rules are broken, `C93_number_not_compared`. -/
theorem C93_go_partial (P : Go.Printer) (E : Go.Env) (S : Schema) (v : Val)
    (hl : ∀ u x, E.legacy u = some x → Flat x)
    (hm : ∀ l, checkValid P (Go.validate E S false v) (Go.validate E S true v) = .reasons l →
      ∀ t ∈ l, (textBytes t).length < 2 ^ 63) (n : Nat) :
    CountedRight (Go.validate E S false v = none) n (outcome n (goProgram P E S v)) := by
  unfold outcome goProgram
  rcases C59_consistent_partial P E S v hl with ⟨h0, h⟩ | ⟨e, rs, h0, h⟩
  · rw [h]
    simp only
    rw [answer_ok _ (by simp)]
    exact counted_congr (judge_plain n 0 true) (by simp [h0])
  · have hm' := hm _ h
    rw [h]
    simp only
    rw [answer_ok _ (by
      intro b hb
      obtain ⟨t, ht, rfl⟩ := List.mem_map.1 hb
      exact ⟨hm' t ht, utf8_text t⟩)]
    exact counted_congr (judge_plain n _ false) (by simp [h0])

/-- **C93, negation** A rejected message passes any test that expects broken rules, however many: the Go program does
not ask for the numbers to be compared. -/
theorem C93_number_not_compared (P : Go.Printer) (E : Go.Env) (S : Schema) (v : Val)
    (hl : ∀ u x, E.legacy u = some x → Flat x)
    (hm : ∀ l, checkValid P (Go.validate E S false v) (Go.validate E S true v) = .reasons l →
      ∀ t ∈ l, (textBytes t).length < 2 ^ 63)
    (h : Go.validate E S false v ≠ none) (n : Nat) (hn : n ≠ 0) :
    outcome n (goProgram P E S v) = asSuccess :=
  (C93_go_partial P E S v hl hm n).1 (by simp [h, hn])

/-- Bob breaks three rules, and passes a test that expects seven broken rules. -/
example : outcome 7 (goProgram plainPrinter Fixtures.env Fixtures.schema Fixtures.bob) = asSuccess ∧
    ∃ l, checkValid plainPrinter (Go.validate Fixtures.env Fixtures.schema false Fixtures.bob)
      (Go.validate Fixtures.env Fixtures.schema true Fixtures.bob) = .reasons l ∧ l.length = 3 := by
  refine ⟨C93_number_not_compared _ _ _ _ (by intro u x h; cases h) ?_ (by decide +kernel) 7 (by decide), _, rfl, rfl⟩
  intro l hl
  have : l = _ := (Reply.reasons.inj hl).symm
  subst this
  decide +kernel

/-! ### C++ -/

/-- **C93, partial** C++: the run of a case is counted by whether the validator accepts the message, if it does not
throw. (Reasons are UTF-8, and not longer than memory.) Missing: `C93_cpp_unimplemented`, and how many rules are
broken. -/
theorem C93_cpp_partial (L : Cpp.CPrinter) (what : String → Bytes) (P : Cpp.CEnv) (S : Schema) (v : Val)
    (hu : ∀ w, Cpp.checkMessage P S v ≠ .error (.unimplemented w))
    (hm : ∀ e, Cpp.checkMessage P S v = .error (.invalid e) →
      (Cpp.errText L e).length < 2 ^ 63 ∧ Utf8 (Cpp.errText L e)) (n : Nat) :
    CountedRight (Cpp.checkMessage P S v = .ok ()) n (outcome n (cppProgram L what P S v)) := by
  unfold outcome cppProgram
  cases h : Cpp.checkMessage P S v with
  | ok u =>
    simp only
    rw [answer_ok _ (by
      intro b hb
      have : b = [] := by simpa using hb
      subst this
      exact ⟨by simp, utf8_nil⟩)]
    exact counted_congr (judge_plain n _ true) (by simp)
  | error s =>
    cases s with
    | unimplemented w => exact absurd h (hu w)
    | invalid e =>
      have hm' := hm e h
      simp only
      rw [answer_ok _ (by
        intro b hb
        have : b = _ := List.mem_singleton.1 hb
        subst this
        exact hm')]
      exact counted_congr (judge_plain n _ false) (by simp)

/-- A person with too long a nickname passes a test that expects a broken rule, and fails one that expects none. -/
example : CountedRight (Cpp.checkMessage cenv Fixtures.schema (someone 30 (asc "bobby") (asc "555")) = .ok ()) 1
    (outcome 1 (cppProgram cprinter (fun _ => []) cenv Fixtures.schema (someone 30 (asc "bobby") (asc "555")))) ∧
    Cpp.checkMessage cenv Fixtures.schema (someone 30 (asc "bobby") (asc "555")) ≠ .ok () := by
  have h : ∃ r, Cpp.checkMessage cenv Fixtures.schema (someone 30 (asc "bobby") (asc "555")) =
    .error (.invalid (.viol "Person" "Nick" none false r none)) := ⟨_, rfl⟩
  obtain ⟨r, h⟩ := h
  refine ⟨C93_cpp_partial _ _ _ _ _ (by rw [h]; simp) ?_ 1, by rw [h]; simp⟩
  intro e he
  rw [h] at he
  cases he
  have ht : Cpp.errText cprinter (.viol "Person" "Nick" none false r none) =
      Cpp.errText cprinter (.viol "Person" "Nick" none false [] none) := rfl
  rw [ht, ← validUtf8_iff]
  decide +kernel

/-- **C93, negation** A rule that C++ does not implement makes a case that expects broken rules pass, whatever the
message; other cases are skipped. -/
theorem C93_cpp_unimplemented (L : Cpp.CPrinter) (what : String → Bytes) (P : Cpp.CEnv) (S : Schema) (v : Val)
    (w : String) (h : Cpp.checkMessage P S v = .error (.unimplemented w))
    (hw : (what w).length < 2 ^ 63 ∧ Utf8 (what w)) :
    outcome 0 (cppProgram L what P S v) = asSkip ∧
      ∀ n, n ≠ 0 → outcome n (cppProgram L what P S v) = asSuccess := by
  have ha : answer (cppProgram L what P S v) = .result false false true false 1 := by
    unfold cppProgram
    simp only [h]
    rw [answer_ok _ (by
      intro b hb
      have : b = _ := List.mem_singleton.1 hb
      subst this
      exact hw)]
    rfl
  unfold outcome
  rw [ha]
  refine ⟨rfl, fun n hn => ?_⟩
  simp [judge, asSuccess, hn]

/-- A valid address passes a test that expects it to be rejected. -/
example (L : Cpp.CPrinter) :
    let f := Fixtures.fieldOf .string (.string { wellKnown := some (.email true) })
    outcome 1 (cppProgram L (fun _ => asc "?") cenv (Fixtures.only f)
      (.msg "M" [(f.name, .sc (.str (asc "ann@ex.org")))] [])) = asSuccess := by
  intro f
  obtain ⟨w, hw⟩ := C55_formats_throw cenv (.email true) (Or.inl rfl) (asc "ann@ex.org")
  exact (C93_cpp_unimplemented L _ cenv _ _ w hw ⟨by decide, [0x3F], by simp [ScalarValue], by decide⟩).2 1 (by decide)

/-! ### Java -/

/-- **C93, partial** Java: the run of a case is counted by whether `assertValid` accepts the message, if it throws
nothing but what validators throw for a broken rule. Missing: `C93_java_unimplemented`, `C93_java_runtime`, and how
many rules are broken. -/
theorem C93_java_partial (text : Java.JErr → Bytes) (J : Java.JEnv) (S : Schema) (v : Val)
    (hm : ∀ e, Java.assertValid J S v = .error e → (∃ f r, e = .validation f r) ∧
      (text e).length < 2 ^ 63 ∧ Utf8 (text e)) (n : Nat) :
    CountedRight (Java.assertValid J S v = .ok ()) n (outcome n (javaProgram text J S v)) := by
  unfold outcome javaProgram
  cases h : Java.assertValid J S v with
  | ok u =>
    simp only
    rw [answer_ok _ (by simp)]
    exact counted_congr (judge_plain n _ true) (by simp)
  | error e =>
    obtain ⟨⟨f, r, rfl⟩, hm'⟩ := hm e h
    simp only
    rw [answer_ok _ (by
      intro b hb
      have : b = _ := List.mem_singleton.1 hb
      subst this
      exact hm')]
    exact counted_congr (judge_plain n _ false) (by simp)

/-- Cleo has a friend with too long a nickname, and passes a test that expects a broken rule. -/
example : outcome 1 (javaProgram (fun _ => asc "?") jenv people cleo) = asSuccess := by
  refine (C93_java_partial _ _ _ _ ?_ 1).1 (by rw [cleo_throws]; simp)
  intro e he
  rw [cleo_throws] at he
  cases he
  exact ⟨⟨_, _, rfl⟩, by decide, [0x3F], by simp [ScalarValue], by decide⟩

/-- **C93, negation** A rule that Java does not implement makes a case that expects broken rules pass, whatever the
message; other cases are skipped. -/
theorem C93_java_unimplemented (text : Java.JErr → Bytes) (J : Java.JEnv) (S : Schema) (v : Val) (f : String)
    (h : Java.assertValid J S v = .error (.unimplemented f))
    (hw : (text (.unimplemented f)).length < 2 ^ 63 ∧ Utf8 (text (.unimplemented f))) :
    outcome 0 (javaProgram text J S v) = asSkip ∧
      ∀ n, n ≠ 0 → outcome n (javaProgram text J S v) = asSuccess := by
  have ha : answer (javaProgram text J S v) = .result false false true false 1 := by
    unfold javaProgram
    simp only [h]
    rw [answer_ok _ (by
      intro b hb
      have : b = _ := List.mem_singleton.1 hb
      subst this
      exact hw)]
    rfl
  unfold outcome
  rw [ha]
  refine ⟨rfl, fun n hn => ?_⟩
  simp [judge, asSuccess, hn]

/-- `no_sparse` is such a rule. An empty map satisfies it, and passes a test that expects it to be rejected. -/
example :
    let f : FieldDesc := { name := "X", typ := .map .string (.embed "M" none),
                           rules := .mk none (.map { noSparse := some true } .absent .absent) }
    outcome 1 (javaProgram (fun _ => asc "?") jenv (Fixtures.only f) (.msg "M" [("X", .map [])] [])) = asSuccess := by
  intro f
  have h : ∃ x, Java.assertValid jenv (Fixtures.only f) (.msg "M" [("X", .map [])] []) = .error (.unimplemented x) :=
    ⟨_, rfl⟩
  obtain ⟨x, h⟩ := h
  exact (C93_java_unimplemented _ _ _ _ x h ⟨by decide, [0x3F], by simp [ScalarValue], by decide⟩).2 1 (by decide)

/-- **C93** Java: any other exception is a failure, whatever the case expects. -/
theorem C93_java_runtime (text : Java.JErr → Bytes) (J : Java.JEnv) (S : Schema) (v : Val) (w : String)
    (h : Java.assertValid J S v = .error (.runtime w)) (hl : (text (.runtime w)).length < 2 ^ 63) (n : Nat) :
    outcome n (javaProgram text J S v) = asFailure := by
  unfold outcome javaProgram
  simp only [h]
  by_cases hu : Utf8 (text (.runtime w))
  · rw [answer_ok _ (by
      intro b hb
      have : b = _ := List.mem_singleton.1 hb
      subst this
      exact ⟨hl, hu⟩)]
    rfl
  · have := C93_bad_reason { error := true, reasons := [text (.runtime w)] }
      (by intro b hb; rw [List.mem_singleton.1 hb]; exact hl) ⟨_, List.mem_singleton.2 rfl, hu⟩
    simp only [answer, this]
    rfl

/-- A duration that is not in range, under a rule about its length. -/
example :
    let f := Fixtures.fieldOf (.embed "google.protobuf.Duration" (some .duration)) (.duration { gt := some ⟨0, 0⟩ })
    ∃ w, Java.assertValid jenv (Fixtures.only f) (.msg "M" [("X", .dur ⟨1, -5⟩)] []) = .error (.runtime w) :=
  ⟨_, rfl⟩

/-! ### Python -/

/-- **C93, partial** Python: the run of a case is counted by whether `validate` accepts the message, if it raises
nothing but `ValidationFailed` and the representation of that takes less than 128 bytes. Missing: `C93_python_long`,
`C93_python_crash`, and how many rules are broken. -/
theorem C93_python_partial (repr : String → Py.Text → Bytes) (P : Py.PEnv) (S : Schema) (v : Val)
    (hm : ∀ e, Py.validate P S v = .error e → ∃ m t, e = .failed m t ∧ (repr m t).length < 128 ∧ Utf8 (repr m t))
    (n : Nat) :
    CountedRight (Py.validate P S v = .ok ()) n (outcome n (pyProgram repr P S v)) := by
  unfold outcome pyProgram
  cases h : Py.validate P S v with
  | ok u =>
    simp only
    rw [if_pos (by decide), answer_ok _ (by simp)]
    exact counted_congr (judge_plain n _ true) (by simp)
  | error e =>
    obtain ⟨m, t, rfl, hs, hm'⟩ := hm e h
    simp only
    rw [if_pos (by
      show validUtf8 (encodeResult { reasons := [repr m t] }) = true
      simp only [encodeResult, boolField, Bool.false_eq_true, if_false, List.nil_append, List.append_nil,
        List.flatMap_cons, List.flatMap_nil]
      rw [validUtf8_reason_short _ hs]
      exact (validUtf8_iff _).2 hm'), answer_ok _ (by
      intro b hb
      have : b = _ := List.mem_singleton.1 hb
      subst this
      exact ⟨by omega, hm'⟩)]
    exact counted_congr (judge_plain n _ false) (by simp)

/-- **C93, negation** A rejection with a longer representation is a failure, whatever the case expects: the program
takes its answer for text, in which the length of the reason is no character. -/
theorem C93_python_long (repr : String → Py.Text → Bytes) (P : Py.PEnv) (S : Schema) (v : Val) (m : String)
    (t : Py.Text) (h : Py.validate P S v = .error (.failed m t)) (h1 : 128 ≤ (repr m t).length)
    (h2 : (repr m t).length < 16384) (n : Nat) : outcome n (pyProgram repr P S v) = asFailure := by
  unfold outcome pyProgram
  simp only [h]
  rw [if_neg (by
    show ¬ validUtf8 (encodeResult { reasons := [repr m t] }) = true
    simp only [encodeResult, boolField, Bool.false_eq_true, if_false, List.nil_append, List.append_nil,
      List.flatMap_cons, List.flatMap_nil]
    rw [validUtf8_reason_long _ h1 h2]
    simp)]
  rfl

/-- Dora's nickname is too long. If the representation of the exception takes 130 bytes, the test fails that expects
one broken rule; with 30 bytes it passes. -/
example : outcome 1 (pyProgram (fun _ _ => List.replicate 130 0x61) penv people dora) = asFailure ∧
    outcome 1 (pyProgram (fun _ _ => List.replicate 30 0x61) penv people dora) = asSuccess := by
  refine ⟨C93_python_long _ _ _ _ _ _ dora_raises (by simp) (by simp) 1,
    (C93_python_partial _ _ _ _ ?_ 1).1 (by simp [dora_raises])⟩
  intro e he
  rw [dora_raises] at he
  exact ⟨_, _, (Except.error.inj he).symm, by simp, utf8_letters 30⟩

/-- **C93** Python: any other exception is a failure, whatever the case expects. -/
theorem C93_python_crash (repr : String → Py.Text → Bytes) (P : Py.PEnv) (S : Schema) (v : Val)
    (h : Py.validate P S v = .error .crash) (n : Nat) : outcome n (pyProgram repr P S v) = asFailure := by
  unfold outcome pyProgram
  simp only [h]
  rfl

/-- An infinite bound raises such an exception. -/
example (n : Nat) :
    let f := Fixtures.fieldOf (.scalar .float) (.num .float { lt := some (.f32 0x7F800000#32) })
    outcome n (pyProgram (fun _ _ => []) penv (Fixtures.only f) (.msg "M" [("X", .sc (.num (.f32 0#32)))] [])) =
      asFailure :=
  C93_python_crash _ _ _ _ (C51_infinity_crashes Fixtures.env penv).2.1 n

end PGV.Props
