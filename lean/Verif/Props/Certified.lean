import Verif.Spec.Certified
import Verif.Props.Select
import Verif.Props.Programs

/-!
C112: what a test run without failures says about the validators.
-/

set_option linter.unusedSimpArgs false
set_option autoImplicit false

namespace PGV.Props
open PGV PGV.Spec PGV.Spec.Tests PGV.Harness

theorem green_passes {T : Tests} {O : Options} {count : Nat} {cases : List T.Case} (h : Green T O count cases) :
    ∀ c ∈ cases, ∀ cmd, Asked O.flags cmd → Passes T c cmd :=
  C110_green T O cases count h.1 h.2.2.1 h.2.1 (.inl h.2.2.2.1) h.2.2.2.2

/-- An answer that passes. -/
def Good (n : Nat) (a : Answer) : Prop :=
  ∃ valid allow multiple reasons, a = .result valid false allow multiple reasons ∧
    ((if multiple then reasons = n else (valid = true ↔ n = 0)) ∨ allow = true)

theorem good_died (n : Nat) : ¬ Good n (answer .died) := by
  rintro ⟨_, _, _, _, h, _⟩
  simp [answer] at h

/-- What an answer that passes says. -/
theorem good_exit {n : Nat} {r : TestResult} (hl : ∀ b ∈ r.reasons, b.length < 2 ^ 63)
    (h : Good n (answer (.exit (encodeResult r)))) :
    r.error = false ∧ ((if r.checkMultipleErrors then r.reasons.length = n else (r.valid = true ↔ n = 0)) ∨
      r.allowFailure = true) := by
  obtain ⟨valid, allow, multiple, reasons, h, hg⟩ := h
  by_cases hb : ∃ b ∈ r.reasons, ¬ Utf8 b
  · simp [answer, C93_bad_reason r hl hb] at h
  · rw [answer_ok r (fun b hm => ⟨hl b hm, Classical.byContradiction fun hu => hb ⟨b, hm, hu⟩⟩)] at h
    simp only [Answer.result.injEq] at h
    obtain ⟨h1, h2, h3, h4, h5⟩ := h
    rw [h1, h2, h3, h4, h5]
    exact ⟨rfl, hg⟩

/-- **C112** If a test run asks for the Go program and all its shards end with exit status 0, `Validate` accepts the message
of every case if, and only if, the case expects no broken rules; and so does `ValidateAll`. -/
theorem C112_go (U : Suite) (O : Options) (count : Nat) (cases : List U.Case) (hf : O.flags.go = true)
    (h : Green U.tests O count cases) (c : U.Case) (hc : c ∈ cases) (hm : U.InMemory c) :
    (Go.validate U.goEnv (U.schema c) false (U.message c) = none ↔ U.failures c = 0) ∧
    (Go.validate U.goEnv (U.schema c) true (U.message c) = none ↔ U.failures c = 0) := by
  obtain ⟨_, hg⟩ := green_passes h c hc _ (.go hf)
  change Good (U.failures c) (answer (goProgram U.goPrinter U.goEnv (U.schema c) (U.message c))) at hg
  have hgo := hm.go
  unfold goProgram at hg
  cases hv : checkValid U.goPrinter (Go.validate U.goEnv (U.schema c) false (U.message c))
    (Go.validate U.goEnv (U.schema c) true (U.message c)) with
  | panic => rw [hv] at hg; exact absurd hg (good_died _)
  | differentVerdict | noAllErrors | differentFirst =>
    rw [hv] at hg
    have := good_exit (by simp) hg
    simp at this
  | valid =>
    rw [hv] at hg
    have := good_exit (by simp) hg
    simp at this
    cases h1 : Go.validate U.goEnv (U.schema c) false (U.message c) <;>
      cases h2 : Go.validate U.goEnv (U.schema c) true (U.message c) <;> simp [h1, h2, checkValid] at hv ⊢
    · exact this
    · rename_i x y
      cases y <;> simp [checkValid] at hv
      split at hv
      · simp at hv
      · split at hv <;> simp at hv
  | reasons l =>
    have hl := hgo l hv
    rw [hv] at hg
    have := good_exit (by
      intro b hb
      obtain ⟨t, ht, rfl⟩ := List.mem_map.1 hb
      exact hl t ht) hg
    simp at this
    cases h1 : Go.validate U.goEnv (U.schema c) false (U.message c) <;>
      cases h2 : Go.validate U.goEnv (U.schema c) true (U.message c) <;> simp [h1, h2, checkValid] at hv ⊢
    exact this

/-- **C112** If it asks for the Python program, `validate` returns for the message of every case that expects no broken
rules, and raises `ValidationFailed` for every other. -/
theorem C112_python (U : Suite) (O : Options) (count : Nat) (cases : List U.Case) (hf : O.flags.python = true)
    (h : Green U.tests O count cases) (c : U.Case) (hc : c ∈ cases) (hm : U.InMemory c) :
    (U.failures c = 0 → Py.validate U.pyEnv (U.schema c) (U.message c) = .ok ()) ∧
    (U.failures c ≠ 0 → ∃ m t, Py.validate U.pyEnv (U.schema c) (U.message c) = .error (.failed m t)) := by
  obtain ⟨_, hg⟩ := green_passes h c hc _ (.python hf)
  have hx : U.tests.exec c (path "tests/harness/python/python-harness") =
      answer (pyProgram U.pyRepr U.pyEnv (U.schema c) (U.message c)) := by
    simp only [Suite.tests]
    rw [if_neg (by decide), if_neg (by decide), if_neg (by decide), if_pos trivial]
  rw [hx] at hg
  change Good (U.failures c) _ at hg
  have hp := hm.python
  unfold pyProgram at hg
  cases hv : Py.validate U.pyEnv (U.schema c) (U.message c) with
  | ok u =>
    rw [hv] at hg
    simp only at hg
    split at hg
    · have := good_exit (by simp) hg
      simp at this
      simp [this]
    · exact absurd hg (good_died _)
  | error e =>
    rw [hv] at hg
    cases e with
    | crash => exact absurd hg (good_died _)
    | failed m t =>
      simp only at hg
      split at hg
      · have := good_exit (by simpa using hp m t hv) hg
        simp at this
        simp [this]
      · exact absurd hg (good_died _)

/-- **C112** (what holds for C++) If it asks for the C++ program, `Validate` gives the verdict that the case expects, or
throws `UnimplementedException`. What is missing: see `C112_cpp_unchecked`. -/
theorem C112_cpp_partial (U : Suite) (O : Options) (count : Nat) (cases : List U.Case) (hf : O.flags.cc = true)
    (h : Green U.tests O count cases) (c : U.Case) (hc : c ∈ cases) (hm : U.InMemory c) :
    (Cpp.checkMessage U.cppEnv (U.schema c) (U.message c) = .ok () ∧ U.failures c = 0) ∨
    (∃ e, Cpp.checkMessage U.cppEnv (U.schema c) (U.message c) = .error (.invalid e) ∧ U.failures c ≠ 0) ∨
    ∃ w, Cpp.checkMessage U.cppEnv (U.schema c) (U.message c) = .error (.unimplemented w) := by
  obtain ⟨_, hg⟩ := green_passes h c hc _ (.cc hf)
  have hx : U.tests.exec c (path "tests/harness/cc/cc-harness") =
      answer (cppProgram U.cppPrinter U.cppWhat U.cppEnv (U.schema c) (U.message c)) := by
    simp only [Suite.tests]
    rw [if_neg (by decide), if_pos trivial]
  rw [hx] at hg
  change Good (U.failures c) _ at hg
  have hp := hm.cpp
  unfold cppProgram at hg
  cases hv : Cpp.checkMessage U.cppEnv (U.schema c) (U.message c) with
  | ok u =>
    rw [hv] at hg
    have := good_exit (by simp) hg
    simp at this
    exact .inl ⟨rfl, this⟩
  | error e =>
    rw [hv] at hg
    cases e with
    | unimplemented w => exact .inr (.inr ⟨w, rfl⟩)
    | invalid e =>
      have := good_exit (by simpa using hp e hv) hg
      simp at this
      exact .inr (.inl ⟨e, rfl, this⟩)

/-- **C112** (what holds for Java) If it asks for the Java program, `assertValid` gives the verdict that the case expects, or
throws `UnimplementedException`. What is missing: see `C112_java_unchecked`. -/
theorem C112_java_partial (U : Suite) (O : Options) (count : Nat) (cases : List U.Case) (hf : O.flags.java = true)
    (h : Green U.tests O count cases) (c : U.Case) (hc : c ∈ cases) (hm : U.InMemory c) :
    (Java.assertValid U.javaEnv (U.schema c) (U.message c) = .ok () ∧ U.failures c = 0) ∨
    (∃ f r, Java.assertValid U.javaEnv (U.schema c) (U.message c) = .error (.validation f r) ∧ U.failures c ≠ 0) ∨
    ∃ f, Java.assertValid U.javaEnv (U.schema c) (U.message c) = .error (.unimplemented f) := by
  obtain ⟨_, hg⟩ := green_passes h c hc _ (.java hf)
  have hx : U.tests.exec c (path "tests/harness/java/java-harness") =
      answer (javaProgram U.javaText U.javaEnv (U.schema c) (U.message c)) := by
    simp only [Suite.tests]
    rw [if_neg (by decide), if_neg (by decide), if_pos trivial]
  rw [hx] at hg
  change Good (U.failures c) _ at hg
  have hp := hm.java
  unfold javaProgram at hg
  cases hv : Java.assertValid U.javaEnv (U.schema c) (U.message c) with
  | ok u =>
    rw [hv] at hg
    have := good_exit (by simp) hg
    simp at this
    exact .inl ⟨rfl, this⟩
  | error e =>
    rw [hv] at hg
    have hl := hp e hv
    cases e with
    | unimplemented f => exact .inr (.inr ⟨f, rfl⟩)
    | validation f r =>
      have := good_exit (by simpa using hl) hg
      simp at this
      exact .inr (.inl ⟨f, r, rfl, this⟩)
    | runtime w =>
      have := good_exit (by simpa using hl) hg
      simp at this

/-- **C112** After such a run for all languages, no two of them disagree about the message of a case: what Go accepts, Python
accepts; and so do C++ and Java, unless they say that a rule is not implemented. -/
theorem C112_agree (U : Suite) (O : Options) (count : Nat) (cases : List U.Case) (h1 : O.flags.go = true)
    (h2 : O.flags.python = true) (h3 : O.flags.cc = true) (h4 : O.flags.java = true) (h : Green U.tests O count cases)
    (c : U.Case) (hc : c ∈ cases) (hm : U.InMemory c) :
    (Go.validate U.goEnv (U.schema c) false (U.message c) = none ↔ Py.validate U.pyEnv (U.schema c) (U.message c) = .ok ()) ∧
    ((∀ w, Cpp.checkMessage U.cppEnv (U.schema c) (U.message c) ≠ .error (.unimplemented w)) →
      (Go.validate U.goEnv (U.schema c) false (U.message c) = none ↔
        Cpp.checkMessage U.cppEnv (U.schema c) (U.message c) = .ok ())) ∧
    ((∀ f, Java.assertValid U.javaEnv (U.schema c) (U.message c) ≠ .error (.unimplemented f)) →
      (Go.validate U.goEnv (U.schema c) false (U.message c) = none ↔
        Java.assertValid U.javaEnv (U.schema c) (U.message c) = .ok ())) := by
  have hg := (C112_go U O count cases h1 h c hc hm).1
  have hp := C112_python U O count cases h2 h c hc hm
  refine ⟨?_, fun hu => ?_, fun hu => ?_⟩
  · rw [hg]
    refine ⟨hp.1, fun hok => ?_⟩
    by_cases h0 : U.failures c = 0
    · exact h0
    · obtain ⟨m, t, he⟩ := hp.2 h0
      rw [he] at hok
      cases hok
  · rw [hg]
    rcases C112_cpp_partial U O count cases h3 h c hc hm with ⟨a, b⟩ | ⟨e, a, b⟩ | ⟨w, a⟩
    · simp [a, b]
    · simp [a, b]
    · exact absurd a (hu w)
  · rw [hg]
    rcases C112_java_partial U O count cases h4 h c hc hm with ⟨a, b⟩ | ⟨f, r, a, b⟩ | ⟨f, a⟩
    · simp [a, b]
    · simp [a, b]
    · exact absurd a (hu f)

/-- One case, with this message. -/
def oneCase (S : Schema) (v : Val) (failures : Nat) : Suite where
  Case := Unit
  schema := fun _ => S
  message := fun _ => v
  failures := fun _ => failures
  marshals := fun _ => true
  goPrinter := plainPrinter
  goEnv := Fixtures.env
  cppPrinter := cprinter
  cppWhat := fun _ => asc "?"
  cppEnv := cenv
  javaText := fun _ => asc "?"
  javaEnv := jenv
  pyRepr := fun _ _ => asc "?"
  pyEnv := penv
  other := fun _ _ => .failed

theorem green_one (U : Suite) (O : Options) (c : U.Case) (hw : O.system.windows = false) (hp : 0 < O.parallelism)
    (ha : ∃ cmd, Asked O.flags cmd) (h : ∀ cmd, Asked O.flags cmd → Passes U.tests c cmd) : Green U.tests O 1 [c] := by
  refine ⟨by decide, by decide, (by decide : 1 < 2 ^ 53), hw, fun i hi =>
    (C110_exit_iff _ { O with total := some 1, index := some i, status := true } _ (.inl hw)).2 ?_⟩
  have hs : ∃ mine, shardOf [c] 1 i = some mine := by
    cases hs : shardOf [c] 1 i with
    | some mine => exact ⟨mine, rfl⟩
    | none =>
      have := (C58_panics_iff [c] 1 i (by decide) (by simp) (by decide)).1 hs
      simp at this
      omega
  obtain ⟨mine, hs⟩ := hs
  refine ⟨mine, hs, hp, ha, fun cmd hc d hd => ?_⟩
  have : mine ∈ (List.range 1).filterMap (shardOf [c] 1) := List.mem_filterMap.2 ⟨i, by simpa using hi, hs⟩
  have : d ∈ [c] := by
    rw [← C58_partition_partial [c] 1 (by decide) (by simp) (by decide)]
    exact List.mem_flatten.2 ⟨mine, this, hd⟩
  rw [List.mem_singleton.1 this]
  exact h cmd hc

theorem passes_of_outcome {U : Suite} {c : U.Case} {file : Bytes} {e : Ended} (hm : U.marshals c = true)
    (he : U.tests.exec c file = answer e) (h : outcome (U.failures c) e = asSuccess) : Passes U.tests c file := by
  refine ⟨hm, ?_⟩
  rw [he]
  exact (judge_passes _ _).1 ((congrArg IsFailure h).trans rfl)

/-- **C112** (negation) C++ does not implement the rule for e-mail addresses: a test that expects a message to break the rule
passes for every message, those with a valid address included. -/
theorem C112_cpp_unchecked (address : Bytes) :
    let f := Fixtures.fieldOf .string (.string { wellKnown := some (.email true) })
    let U := oneCase (Fixtures.only f) (.msg "M" [(f.name, .sc (.str address))] []) 1
    Green U.tests { flags := { cc := true } } 1 [()] := by
  intro f U
  refine green_one U _ () rfl (by decide) ⟨_, .cc rfl⟩ fun cmd hc => ?_
  cases hc <;> rename_i h <;> simp at h
  obtain ⟨w, hw⟩ := C55_formats_throw cenv (.email true) (.inl rfl) address
  refine passes_of_outcome (e := cppProgram cprinter (fun _ => asc "?") cenv _ _) rfl ?_
    ((C93_cpp_unimplemented cprinter (fun _ => asc "?") cenv _ _ w hw
      ⟨by decide, [0x3F], by simp [ScalarValue], by decide⟩).2 1 (by decide))
  simp only [Suite.tests]
  rw [if_neg (by decide), if_pos trivial]
  rfl

/-- **C112** (negation) Nor does Java implement `no_sparse`: a test that expects an empty map to break it passes. -/
theorem C112_java_unchecked :
    let f : FieldDesc := { name := "X", typ := .map .string (.embed "M" none),
                           rules := .mk none (.map { noSparse := some true } .absent .absent) }
    let U := oneCase (Fixtures.only f) (.msg "M" [("X", .map [])] []) 1
    Green U.tests { flags := { java := true } } 1 [()] ∧ Go.validate U.goEnv (U.schema ()) false (U.message ()) = none := by
  intro f U
  refine ⟨green_one U _ () rfl (by decide) ⟨_, .java rfl⟩ fun cmd hc => ?_, rfl⟩
  cases hc <;> rename_i h <;> simp at h
  have h : ∃ x, Java.assertValid jenv (Fixtures.only f) (.msg "M" [("X", .map [])] []) = .error (.unimplemented x) :=
    ⟨_, rfl⟩
  obtain ⟨x, h⟩ := h
  refine passes_of_outcome (e := javaProgram (fun _ => asc "?") jenv _ _) rfl ?_
    ((C93_java_unimplemented (fun _ => asc "?") jenv _ _ x h
      ⟨by decide, [0x3F], by simp [ScalarValue], by decide⟩).2 1 (by decide))
  simp only [Suite.tests]
  rw [if_neg (by decide), if_neg (by decide), if_pos trivial]
  rfl

/-- The hypotheses of `C112_go` are met: Bob breaks rules, and a run with the Go program that expects this has no failures. -/
example : Green (oneCase Fixtures.schema Fixtures.bob 3).tests { flags := { go := true }, parallelism := 4 } 1 [()] ∧
    (oneCase Fixtures.schema Fixtures.bob 3).InMemory () := by
  refine ⟨green_one (oneCase Fixtures.schema Fixtures.bob 3) { flags := { go := true }, parallelism := 4 } () rfl (by decide) ⟨_, .go rfl⟩ fun cmd hc => ?_,
    ?_⟩
  rotate_left
  · refine ⟨?_, ?_, fun _ _ => (by decide : 1 < 2 ^ 63), fun _ _ _ => (by decide : 1 < 2 ^ 63)⟩
    · intro l hl
      have : l = _ := (Reply.reasons.inj hl).symm
      subst this
      decide +kernel
    · intro e he
      have h : ∃ e', Cpp.checkMessage cenv Fixtures.schema Fixtures.bob = .error (.invalid e') ∧
          (Cpp.errText cprinter e').length < 2 ^ 63 := ⟨_, rfl, by decide +kernel⟩
      obtain ⟨e', h1, h2⟩ := h
      have : e' = e := by
        have := h1.symm.trans he
        simpa using this
      exact this ▸ h2
  cases hc <;> rename_i h <;> simp at h
  refine passes_of_outcome (e := goProgram plainPrinter Fixtures.env Fixtures.schema Fixtures.bob) rfl ?_
    (C93_number_not_compared _ _ _ _ (by intro u x h; cases h) ?_ (by decide +kernel) 3 (by decide))
  · simp only [Suite.tests]
    rw [if_pos trivial]
    rfl
  · intro l hl
    have : l = _ := (Reply.reasons.inj hl).symm
    subst this
    decide +kernel

/-- The hypotheses of `C112_agree` are met: four validators reject Bob, and a run that expects this has no failures. -/
example : Green (oneCase Fixtures.schema Fixtures.bob 3).tests
    { flags := { go := true, python := true, cc := true, java := true }, parallelism := 4 } 1 [()] := by
  refine green_one (oneCase Fixtures.schema Fixtures.bob 3)
    { flags := { go := true, python := true, cc := true, java := true }, parallelism := 4 } () rfl (by decide) ⟨_, .go rfl⟩
    fun cmd hc => ?_
  have hq : Utf8 (asc "?") := (validUtf8_iff _).1 (by decide)
  cases hc <;> rename_i h
  · refine passes_of_outcome (e := goProgram plainPrinter Fixtures.env Fixtures.schema Fixtures.bob) rfl ?_
      (C93_number_not_compared _ _ _ _ (by intro u x h; cases h) ?_ (by decide +kernel) 3 (by decide))
    · simp only [Suite.tests]
      rw [if_pos trivial]
      rfl
    · intro l hl
      have : l = _ := (Reply.reasons.inj hl).symm
      subst this
      decide +kernel
  · obtain ⟨e, he⟩ : ∃ e, Cpp.checkMessage cenv Fixtures.schema Fixtures.bob = .error (.invalid e) := ⟨_, rfl⟩
    refine passes_of_outcome (e := cppProgram cprinter (fun _ => asc "?") cenv Fixtures.schema Fixtures.bob) rfl ?_
      ((C93_cpp_partial _ _ _ _ _ (fun w hw => ?_) (fun x hx => ?_) 3).1 ?_)
    · simp only [Suite.tests]
      rw [if_neg (by decide), if_pos trivial]
      rfl
    · rw [he] at hw
      cases hw
    · have h1 : ∃ e', Cpp.checkMessage cenv Fixtures.schema Fixtures.bob = .error (.invalid e') ∧
          (Cpp.errText cprinter e').length < 2 ^ 63 ∧ validUtf8 (Cpp.errText cprinter e') = true :=
        ⟨_, rfl, by decide +kernel, by decide +kernel⟩
      obtain ⟨e', h1, h2, h3⟩ := h1
      have : e' = x := by simpa using h1.symm.trans hx
      exact this ▸ ⟨h2, (validUtf8_iff _).1 h3⟩
    · rw [he]
      simp
  · obtain ⟨f, r, he⟩ : ∃ f r, Java.assertValid jenv Fixtures.schema Fixtures.bob = .error (.validation f r) := ⟨_, _, rfl⟩
    refine passes_of_outcome (e := javaProgram (fun _ => asc "?") jenv Fixtures.schema Fixtures.bob) rfl ?_
      ((C93_java_partial _ _ _ _ (fun x hx => ?_) 3).1 ?_)
    · simp only [Suite.tests]
      rw [if_neg (by decide), if_neg (by decide), if_pos trivial]
      rfl
    · rw [he] at hx
      exact ⟨⟨f, r, (Except.error.inj hx).symm⟩, by decide, hq⟩
    · rw [he]
      simp
  · obtain ⟨m, t, he⟩ : ∃ m t, Py.validate penv Fixtures.schema Fixtures.bob = .error (.failed m t) := ⟨_, _, rfl⟩
    refine passes_of_outcome (e := pyProgram (fun _ _ => asc "?") penv Fixtures.schema Fixtures.bob) rfl ?_
      ((C93_python_partial _ _ _ _ (fun x hx => ?_) 3).1 ?_)
    · simp only [Suite.tests]
      rw [if_neg (by decide), if_neg (by decide), if_neg (by decide), if_pos trivial]
      rfl
    · rw [he] at hx
      exact ⟨m, t, (Except.error.inj hx).symm, by decide, hq⟩
    · rw [he]
      simp
  · simp at h

end PGV.Props
