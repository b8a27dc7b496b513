import Verif.Spec.Dispatch
import Verif.Spec.Harness
import Verif.Props.Programs

/-!
C111: the test programs validate a message as what it is.
-/

set_option linter.unusedSimpArgs false
set_option autoImplicit false

namespace PGV.Props
open PGV PGV.Spec PGV.Cpp PGV.Harness

theorem last_part (host name : Ident) (h : '/' ∉ name) :
    ((host ++ '/' :: name).reverse.takeWhile (· != '/')).reverse = name := by
  have : ∀ (l r : Ident), '/' ∉ l → (l ++ '/' :: r).takeWhile (· != '/') = l := by
    intro l r hl
    induction l with
    | nil => simp
    | cons c l ih =>
      simp only [List.mem_cons, not_or] at hl
      rw [List.cons_append, List.takeWhile_cons]
      have hc : (c != '/') = true := by simpa using fun e => hl.1 e.symm
      rw [hc, if_pos rfl, ih hl.2]
  rw [List.reverse_append, List.reverse_cons, List.append_assoc, List.singleton_append, this _ _ (by simpa using h),
    List.reverse_reverse]

theorem before_slash (url : Ident) (h : '/' ∈ url) :
    ∃ host, url = host ++ '/' :: (url.reverse.takeWhile (· != '/')).reverse := by
  have : ∀ l : Ident, '/' ∈ l → ∃ r, l = l.takeWhile (· != '/') ++ '/' :: r := by
    intro l hl
    induction l with
    | nil => simp at hl
    | cons c l ih =>
      by_cases hc : c = '/'
      · subst hc; exact ⟨l, by simp⟩
      · obtain ⟨r, hr⟩ := ih (by simpa [Ne.symm hc] using hl)
        refine ⟨r, ?_⟩
        rw [List.takeWhile_cons, if_pos (by simpa using hc), List.cons_append, ← hr]
  obtain ⟨r, hr⟩ := this url.reverse (by simpa using h)
  refine ⟨r.reverse, ?_⟩
  have := congrArg List.reverse hr
  simpa using this

theorem anyType_eq (host name : Ident) (hn : name ≠ []) (h : '/' ∉ name) : anyType (host ++ '/' :: name) = some name := by
  unfold anyType
  simp only [last_part host name h]
  simp [hn]

theorem anyType_some (url name : Ident) (h : anyType url = some name) : ∃ host, url = host ++ '/' :: name := by
  unfold anyType at h
  simp only [] at h
  split at h
  · rename_i hc
    simp only [Option.some.injEq] at h
    simp only [Bool.and_eq_true, List.contains_iff_mem] at hc
    rw [← h]
    exact before_slash url hc.1
  · simp at h

/-- **C111** The C++ program never validates a message as another type, nor one that is to be ignored. -/
theorem C111_cpp_own (headers : List LinkFile) (url : Ident) (m : LinkMessage) (h : cppCheck headers url = some m) :
    OfType url m ∧ m.ignored = false ∧ ∃ f ∈ headers, m ∈ f.messages := by
  unfold cppCheck at h
  have h1 := List.find?_some h
  have h2 := List.mem_of_find?_eq_some h
  simp only [isType, Bool.and_eq_true, beq_iff_eq] at h1
  simp only [List.mem_flatMap, List.mem_filter] at h2
  obtain ⟨f, hf, hm, hi⟩ := h2
  exact ⟨anyType_some _ _ h1.1, by simpa using hi, f, hf, hm⟩

/-- **C111** It validates a message if, and only if, the message's type is in one of the headers it includes and is not
ignored. -/
theorem C111_cpp_iff (headers : List LinkFile) (url : Ident) (m : LinkMessage) (hu : OfType url m)
    (ht : Types (headers.flatMap (·.messages))) (hn : typeName m ≠ [] ∧ '/' ∉ typeName m)
    (hig : typeName m ≠ "tests.harness.cases.MessageIgnored".toList) :
    cppCheck headers url = some m ↔ m.ignored = false ∧ ∃ f ∈ headers, m ∈ f.messages := by
  have hig : typeName m ≠ messageIgnored := hig
  constructor
  · exact fun h => (C111_cpp_own headers url m h).2
  · rintro ⟨hi, f, hf, hm⟩
    obtain ⟨host, rfl⟩ := hu
    have ha := anyType_eq host (typeName m) hn.1 hn.2
    have hmem : m ∈ headers.flatMap fun f => f.messages.filter fun m => !m.ignored := by
      simp only [List.mem_flatMap, List.mem_filter]
      exact ⟨f, hf, hm, by simp [hi]⟩
    cases hc : cppCheck headers (host ++ '/' :: typeName m) with
    | none =>
      unfold cppCheck at hc
      have := List.find?_eq_none.1 hc m hmem
      simp [isType, ha, hig] at this
    | some m' =>
      have h1 := C111_cpp_own _ _ _ hc
      obtain ⟨f', hf', hm'⟩ := h1.2.2
      unfold cppCheck at hc
      have h2 := List.find?_some hc
      simp only [isType, ha, Bool.and_eq_true, beq_iff_eq, Option.some.injEq] at h2
      rw [ht.2 m' (List.mem_flatMap.2 ⟨f', hf', hm'⟩) m (List.mem_flatMap.2 ⟨f, hf, hm⟩) h2.1.symm]

theorem answer_notImplemented : answer (.exit (encodeResult notImplemented)) = .result false false true false 1 := by
  refine answer_ok notImplemented ?_
  intro b hb
  simp only [notImplemented, List.mem_singleton] at hb
  subst hb
  refine ⟨by decide, "not implemented".toList.map Char.toNat, ?_, by decide⟩
  have : ∀ c ∈ "not implemented".toList.map Char.toNat, c < 128 := by decide
  intro c hc
  have := this c hc
  unfold ScalarValue
  omega

/-- **C111** (negation) A message of a type that the C++ program does not know passes every test that expects broken rules;
the other tests are skipped. No such test ever fails. -/
theorem C111_cpp_unknown (headers : List LinkFile) (validate : LinkMessage → Ended) (url : Ident)
    (h : ∀ f ∈ headers, ∀ m ∈ f.messages, m.ignored = false → ¬ OfType url m) (failures : Nat) :
    IsSuccess (outcome failures (cppMain headers validate url)) = decide (failures ≠ 0) ∧
    IsSkip (outcome failures (cppMain headers validate url)) = decide (failures = 0) := by
  have hn : cppCheck headers url = none := by
    cases hc : cppCheck headers url with
    | none => rfl
    | some m =>
      obtain ⟨h1, h2, f, hf, hm⟩ := C111_cpp_own _ _ _ hc
      exact absurd h1 (h f hf m hm h2)
  simp only [cppMain, hn, outcome, answer_notImplemented, judge, IsSuccess, IsSkip]
  by_cases h0 : failures = 0 <;> simp [h0]

/-! ### Python -/

theorem exported_iff (n : Ident) : exported n = true ↔ n ≠ [] ∧ n.head? ≠ some '_' := by
  cases n <;> simp [exported]

theorem mem_exports_some (p : PyModule) (n : Ident) (m : LinkMessage) :
    (n, some m) ∈ exports p ↔ m ∈ p.messages ∧ m.path = [n] ∧ n ≠ [] ∧ n.head? ≠ some '_' := by
  rw [← exported_iff]
  simp only [exports, List.mem_append, List.mem_filterMap, List.mem_map]
  constructor
  · rintro (⟨m', hm, h⟩ | ⟨_, _, h⟩)
    · split at h
      · rename_i n' hp
        split at h
        · rename_i he
          simp at h
          obtain ⟨rfl, rfl⟩ := h
          exact ⟨hm, hp, he⟩
        · simp at h
      · simp at h
    · simp at h
  · rintro ⟨hm, hp, he⟩
    exact .inl ⟨m, hm, by simp [hp, he]⟩

theorem mem_exports_names (p : PyModule) (n : Ident) : n ∈ (exports p).map (·.1) ↔ Takes p n := by
  simp only [Takes, ← and_assoc]
  rw [← exported_iff]
  simp only [exports, List.map_append, List.mem_append, List.mem_map, List.mem_filterMap, List.mem_filter]
  constructor
  · rintro (⟨x, ⟨m, hm, h⟩, rfl⟩ | ⟨x, ⟨n', ⟨h1, h2⟩, rfl⟩, rfl⟩)
    · split at h
      · rename_i n' hp
        split at h
        · rename_i he
          simp at h
          subst h
          exact ⟨he, .inl ⟨m, hm, hp⟩⟩
        · simp at h
      · simp at h
    · exact ⟨h2, .inr h1⟩
  · rintro ⟨he, ⟨m, hm, hp⟩ | h⟩
    · exact .inl ⟨(n, some m), ⟨m, hm, by simp [hp, he]⟩, rfl⟩
    · exact .inr ⟨(n, none), ⟨n, ⟨h, he⟩, rfl⟩, rfl⟩

theorem mem_importAll (names : Names) (p : PyModule) (x : Ident × Option LinkMessage) :
    x ∈ importAll names p ↔ x ∈ exports p ∨ x ∈ names ∧ ¬ Takes p x.1 := by
  rw [← mem_exports_names]
  simp only [importAll, List.mem_append, List.mem_filter]
  simp

theorem mem_imports (init : Names) (ps : List PyModule) (x : Ident × Option LinkMessage) :
    x ∈ List.foldl importAll init ps ↔ (x ∈ init ∧ ∀ q ∈ ps, ¬ Takes q x.1) ∨
      ∃ before p after, ps = before ++ p :: after ∧ x ∈ exports p ∧ ∀ q ∈ after, ¬ Takes q x.1 := by
  induction ps generalizing init with
  | nil => simp
  | cons p ps ih =>
    rw [List.foldl_cons, ih, mem_importAll]
    constructor
    · rintro (⟨h | ⟨h1, h2⟩, h3⟩ | ⟨before, q, after, rfl, h1, h2⟩)
      · exact .inr ⟨[], p, ps, rfl, h, h3⟩
      · exact .inl ⟨h1, by simpa using ⟨h2, h3⟩⟩
      · exact .inr ⟨p :: before, q, after, rfl, h1, h2⟩
    · rintro (⟨h1, h2⟩ | ⟨before, q, after, he, h1, h2⟩)
      · simp at h2
        exact .inl ⟨.inr ⟨h1, h2.1⟩, h2.2⟩
      · cases before with
        | nil =>
          simp at he
          obtain ⟨rfl, rfl⟩ := he
          exact .inl ⟨.inl h1, h2⟩
        | cons b bs =>
          simp at he
          obtain ⟨rfl, rfl⟩ := he
          exact .inr ⟨bs, q, after, rfl, h1, h2⟩

theorem takes_last (n : Ident) :
    Takes (PyModule.mk [] ["message_classes".toList]) n ↔ n = "message_classes".toList := by
  constructor
  · rintro ⟨_, _, ⟨m, hm, _⟩ | h⟩
    · simp at hm
    · simpa using h
  · rintro rfl
    exact ⟨by decide, by decide, .inr (by simp)⟩

theorem visible_iff (imports : List PyModule) (m : LinkMessage) :
    m ∈ (pyNames imports).filterMap (·.2) ↔ Visible imports m := by
  simp only [List.mem_filterMap]
  constructor
  · rintro ⟨⟨n, y⟩, hx, hy⟩
    simp at hy
    subst hy
    unfold pyNames at hx
    rw [List.foldl_append, List.foldl_cons, List.foldl_nil, mem_importAll, mem_imports, mem_exports_some] at hx
    rcases hx with ⟨h, _⟩ | ⟨⟨h, _⟩ | ⟨before, p, after, he, h1, h2⟩, h3⟩
    · simp at h
    · simp at h
    · rw [mem_exports_some] at h1
      exact ⟨n, before, p, after, h1.2.1, he, h1.1, h1.2.2.1, h1.2.2.2, h2, mt (takes_last n).2 h3⟩
  · rintro ⟨n, before, p, after, h1, h2, h3, h4, h5, h6, h7⟩
    refine ⟨(n, some m), ?_, rfl⟩
    unfold pyNames
    rw [List.foldl_append, List.foldl_cons, List.foldl_nil, mem_importAll, mem_imports, takes_last]
    exact .inr ⟨.inr ⟨before, p, after, h2, (mem_exports_some _ _ _).2 ⟨h3, h1, h4, h5⟩, h6⟩, h7⟩

/-- **C111** (what holds for Python) The Python program validates a message as its own type if, and only if, it can see the
type. What is missing: it cannot see nested messages (`C111_python_nested`), nor those whose name another module takes
(`C111_python_shadowed`). -/
theorem C111_python_partial (imports : List PyModule) (url : Ident) (m : LinkMessage) (hu : OfType url m)
    (ht : Types (imports.flatMap (·.messages))) (hn : '/' ∉ typeName m) :
    pyClass imports url = some m ↔ Visible imports m := by
  obtain ⟨host, rfl⟩ := hu
  have hl := last_part host (typeName m) hn
  constructor
  · intro h
    exact (visible_iff _ _).1 (List.mem_of_find?_eq_some h)
  · intro hv
    have hmem := (visible_iff _ _).2 hv
    cases hc : pyClass imports (host ++ '/' :: typeName m) with
    | none =>
      unfold pyClass at hc
      have := List.find?_eq_none.1 hc m hmem
      rw [hl] at this
      simp at this
    | some m' =>
      unfold pyClass at hc
      have h1 := List.find?_some hc
      rw [hl] at h1
      simp only [beq_iff_eq] at h1
      have inside : ∀ x, Visible imports x → x ∈ imports.flatMap (·.messages) := by
        rintro x ⟨n, before, p, after, _, rfl, hx, _⟩
        exact List.mem_flatMap.2 ⟨p, by simp, hx⟩
      rw [ht.2 m' (inside _ ((visible_iff _ _).1 (List.mem_of_find?_eq_some hc))) m (inside _ hv) h1]

/-- **C111** The Python program never validates a message as another type. -/
theorem C111_python_own (imports : List PyModule) (host name : Ident) (hn : '/' ∉ name) (m : LinkMessage)
    (h : pyClass imports (host ++ '/' :: name) = some m) : typeName m = name := by
  unfold pyClass at h
  have h1 := List.find?_some h
  rw [last_part host name hn] at h1
  simpa using h1

/-- **C111** Of a type it does not know, every test fails. -/
theorem C111_python_unknown (imports : List PyModule) (validate : LinkMessage → Ended) (url : Ident)
    (h : ∀ m, Visible imports m → ¬ OfType url m) (hs : '/' ∈ url) (failures : Nat) :
    IsFailure (outcome failures (pyMain imports validate url)) = true := by
  have : pyClass imports url = none := by
    cases hc : pyClass imports url with
    | none => rfl
    | some m =>
      refine absurd ?_ (h m ((visible_iff _ _).1 (List.mem_of_find?_eq_some hc)))
      have h1 := List.find?_some hc
      simp only [beq_iff_eq] at h1
      obtain ⟨host, hh⟩ := before_slash url hs
      exact ⟨host, by rw [h1]; exact hh⟩
  simp [pyMain, this, outcome, answer, judge, IsFailure]

/-- **C111** (negation) The Python program does not know nested messages, though it imports their file. -/
theorem C111_python_nested (imports : List PyModule) (m : LinkMessage) (hp : 2 ≤ m.path.length) (url : Ident)
    (hu : OfType url m) (ht : Types (imports.flatMap (·.messages))) (hn : '/' ∉ typeName m) :
    pyClass imports url ≠ some m := by
  rw [Ne, C111_python_partial imports url m hu ht hn]
  rintro ⟨n, _, _, _, h, _⟩
  simp [h] at hp

/-- The message type `a.b.Msg` and so on. -/
def typeOf (package path : List String) : LinkMessage := { package := package.map String.toList, path := path.map String.toList }

/-- **C111** (negation) Nor a message whose name is also that of a message, enum or enum value of a file that is imported
later. -/
theorem C111_python_shadowed : ∃ (imports : List PyModule) (m : LinkMessage), Types (imports.flatMap (·.messages)) ∧ (∃ p ∈ imports, m ∈ p.messages) ∧
    m.path.length = 1 ∧ OfType ("type.googleapis.com/".toList ++ typeName m) m ∧
    pyClass imports ("type.googleapis.com/".toList ++ typeName m) ≠ some m := by
  refine ⟨[⟨[typeOf ["a"] ["Msg"]], []⟩, ⟨[typeOf ["b"] ["Msg"]], []⟩], typeOf ["a"] ["Msg"], ?_, ?_, rfl, ?_, ?_⟩
  · refine ⟨by decide, ?_⟩
    intro m hm m' hm' he
    simp at hm hm'
    rcases hm with rfl | rfl <;> rcases hm' with rfl | rfl <;> first | rfl | exact absurd he (by decide)
  · exact ⟨⟨[typeOf ["a"] ["Msg"]], []⟩, by simp, by simp⟩
  · exact ⟨"type.googleapis.com".toList, rfl⟩
  · have : pyClass [⟨[typeOf ["a"] ["Msg"]], []⟩, ⟨[typeOf ["b"] ["Msg"]], []⟩]
      ("type.googleapis.com/".toList ++ typeName (typeOf ["a"] ["Msg"])) = none := by rfl
    rw [this]
    simp

/-- The hypotheses are met: both programs know a top-level message, and C++ a nested one. -/
example : cppCheck [⟨[], [typeOf ["a"] ["Msg"], typeOf ["a"] ["Msg", "In"]]⟩] "x/a.Msg.In".toList =
      some (typeOf ["a"] ["Msg", "In"]) ∧
    Visible [⟨[typeOf ["a"] ["Msg"], typeOf ["a"] ["Msg", "In"]], ["Color".toList]⟩] (typeOf ["a"] ["Msg"]) ∧
    pyClass [⟨[typeOf ["a"] ["Msg"], typeOf ["a"] ["Msg", "In"]], ["Color".toList]⟩] "x/a.Msg".toList =
      some (typeOf ["a"] ["Msg"]) := by
  refine ⟨rfl, ⟨"Msg".toList, [], _, [], rfl, rfl, by simp, by decide, by decide, by simp, by decide⟩, rfl⟩

end PGV.Props
