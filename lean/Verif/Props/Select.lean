import Verif.Spec.Select
import Verif.Lemmas.Known
import Verif.Props.Harness

/-!
C110: which programs the test executor runs, and what its exit status means.
-/

set_option linter.unusedSimpArgs false
set_option autoImplicit false

namespace PGV.Props
open PGV PGV.Spec PGV.Harness

/-- **C110** The commands that the executor looks up are those asked for by the flags, no more and no fewer. -/
theorem C110_asked (f : Flags) (cmd : Bytes) : cmd ∈ commands f ↔ Asked f cmd := by
  constructor
  · intro h
    simp only [commands, List.mem_append] at h
    rcases h with (((h | h) | h) | h) | h <;> split at h <;> rename_i hf <;> simp at h
    · exact h ▸ .go hf
    · exact h ▸ .cc hf
    · exact h ▸ .java hf
    · exact h ▸ .python hf
    · exact h ▸ .external hf
  · intro h
    cases h <;> rename_i hf <;> simp [commands, hf]

theorem judge_passes (n : Nat) (a : Answer) :
    IsFailure (judge n a) = false ↔
      ∃ valid allow multiple reasons, a = .result valid false allow multiple reasons ∧
        ((if multiple then reasons = n else (valid = true ↔ n = 0)) ∨ allow = true) := by
  cases a with
  | failed => simp [judge, IsFailure]
  | result valid error allow multiple reasons =>
    cases valid <;> cases error <;> cases allow <;> cases multiple <;>
      simp [judge, IsFailure] <;> split <;> simp_all

/-- `run` without failures. -/
theorem no_failures {T : Tests} {files : List Bytes} {n : Nat} {cases : List T.Case} {s : State (T.setup files)}
    (h : Reachable n cases s) (hr : s.main = .returned) (hf : files ≠ []) :
    s.failures = 0 ↔ ∀ c ∈ cases, ∀ file ∈ files, Passes T c file := by
  rw [(C56_counters _ _ _ s h hr).2.1, List.countP_eq_zero]
  constructor
  · intro hp c hc file hfile
    have hm : T.marshals c = true := by
      cases hm : T.marshals c with
      | true => rfl
      | false =>
        have := hp ⟨false, false⟩ (List.mem_flatMap.2 ⟨c, hc, by simp [caseResults, Tests.setup, hm]⟩)
        simp [IsFailure] at this
    refine ⟨hm, (judge_passes _ _).1 ?_⟩
    have := hp (judge (T.failures c) (T.exec c file)) (List.mem_flatMap.2 ⟨c, hc, by
      simp only [caseResults, Tests.setup, hm, if_true, List.mem_map]
      exact ⟨file, hfile, rfl⟩⟩)
    simpa using this
  · intro hp r hr
    obtain ⟨c, hc, hr⟩ := List.mem_flatMap.1 hr
    obtain ⟨file, hfile⟩ := List.exists_mem_of_ne_nil _ hf
    have hm := (hp c hc file hfile).1
    simp only [caseResults, Tests.setup, hm, if_true, List.mem_map] at hr
    obtain ⟨file, hfile, rfl⟩ := hr
    have := (judge_passes _ _).2 (hp c hc file hfile).2
    simp [this]

theorem locatedAll_mem {S : System} {cmds files : List Bytes} (h : LocatedAll S cmds (some files)) :
    (∀ cmd ∈ cmds, ∃ file ∈ files, MayRun S cmd file) ∧ (files = [] ↔ cmds = []) := by
  generalize he : some files = r at h
  induction h generalizing files with
  | nil => simp at he; simp [he]
  | panics => simp at he
  | later => simp at he
  | cons h1 _ ih =>
    simp at he
    subst he
    obtain ⟨ih, _⟩ := ih rfl
    refine ⟨fun cmd hc => ?_, by simp⟩
    rcases List.mem_cons.1 hc with rfl | hc
    · exact ⟨_, by simp, h1⟩
    · obtain ⟨f, hf, hm⟩ := ih cmd hc
      exact ⟨f, by simp [hf], hm⟩

theorem located_same {S : System} (hs : S.windows = false ∨ S.manifest = none) (cmd : Bytes) (r : Option Bytes) :
    Located S cmd r ↔ r = some cmd := by
  constructor
  · intro h
    cases h with
    | same => rfl
    | unreadable h1 h2 => simp [h1, h2] at hs
    | found h1 h2 => simp [h1, h2] at hs
  · rintro rfl; exact .same hs

theorem locatedAll_same {S : System} (hs : S.windows = false ∨ S.manifest = none) (cmds : List Bytes)
    (r : Option (List Bytes)) : LocatedAll S cmds r ↔ r = some cmds := by
  constructor
  · intro h
    induction h with
    | nil => rfl
    | panics h => simp [located_same hs] at h
    | later _ _ ih => simp at ih
    | cons h _ ih => simp [located_same hs] at h ih; simp [h, ih]
  · rintro rfl
    induction cmds with
    | nil => exact .nil
    | cons c cs ih => exact .cons (.same hs) ih

/-- **C110** If the executor exits with 0, it was asked for at least one program, and for every program asked for it ran a
file for which every case of its shard passes. -/
theorem C110_exit (T : Tests) (O : Options) (cases : List T.Case) (h : Exits T O cases 0) :
    ∃ mine, shardTestCases O.total O.index O.status cases = some mine ∧ (∃ cmd, Asked O.flags cmd) ∧
      ∀ cmd, Asked O.flags cmd → ∃ file, MayRun O.system cmd file ∧ ∀ c ∈ mine, Passes T c file := by
  generalize he : 0 = code at h
  cases h with
  | shard => simp at he
  | manifest => simp at he
  | parallelism => simp at he
  | nothing => simp at he
  | ran h1 h2 h3 h4 h5 h6 =>
    rename_i mine files s
    have hf : s.failures = 0 := by
      split at he
      · simp at he
      · omega
    obtain ⟨hm, hn⟩ := locatedAll_mem h2
    have hp := (no_failures h5 h6 h4).1 hf
    refine ⟨mine, h1, ?_, fun cmd hc => ?_⟩
    · obtain ⟨cmd, hc⟩ := List.exists_mem_of_ne_nil _ (mt hn.2 h4)
      exact ⟨cmd, (C110_asked _ _).1 hc⟩
    · obtain ⟨file, hfile, hl⟩ := hm cmd ((C110_asked _ _).2 hc)
      exact ⟨file, hl, fun c hc => hp c hc file hfile⟩

/-- **C110** Without a manifest the exit status is 0 exactly when the executor has a shard to run, has workers and is asked
for a program, and every case of the shard passes with every program asked for. -/
theorem C110_exit_iff (T : Tests) (O : Options) (cases : List T.Case)
    (hs : O.system.windows = false ∨ O.system.manifest = none) :
    Exits T O cases 0 ↔
      ∃ mine, shardTestCases O.total O.index O.status cases = some mine ∧ 0 < O.parallelism ∧
        (∃ cmd, Asked O.flags cmd) ∧ ∀ cmd, Asked O.flags cmd → ∀ c ∈ mine, Passes T c cmd := by
  constructor
  · intro h
    have hpar : 0 < O.parallelism := by
      generalize he : 0 = code at h
      cases h <;> first | (simp at he; done) | assumption
    obtain ⟨mine, h1, h2, h3⟩ := C110_exit T O cases h
    refine ⟨mine, h1, hpar, h2, fun cmd hc c hm => ?_⟩
    obtain ⟨file, hf, hp⟩ := h3 cmd hc
    have := (located_same hs cmd _).1 hf
    simp at this
    exact this ▸ hp c hm
  · rintro ⟨mine, h1, hpar, ⟨cmd, hc⟩, hp⟩
    obtain ⟨s, hr, hm⟩ := can_return (X := T.setup (commands O.flags)) (parallelism := O.parallelism.toNat) (cases := mine)
      (by omega) _ .init
    have hne : commands O.flags ≠ [] := List.ne_nil_of_mem ((C110_asked _ _).2 hc)
    have := Exits.ran (T := T) (O := O) (cases := cases) h1 ((locatedAll_same hs _ _).2 rfl) hpar hne hr hm
    have hf := (no_failures hr hm hne).2 fun c hc file hfile => hp file ((C110_asked _ _).1 hfile) c hc
    simpa [hf] using this

/-- **C110** Without a manifest the exit status does not depend on how the goroutines are scheduled, and there is always
one. -/
theorem C110_status (T : Tests) (O : Options) (cases : List T.Case)
    (hs : O.system.windows = false ∨ O.system.manifest = none) :
    ∃ code, ∀ code', Exits T O cases code' ↔ code' = code := by
  suffices h : (∃ code, Exits T O cases code) ∧ ∀ a b, Exits T O cases a → Exits T O cases b → a = b by
    obtain ⟨⟨code, hc⟩, hu⟩ := h
    exact ⟨code, fun b => ⟨fun hb => hu _ _ hb hc, fun e => e ▸ hc⟩⟩
  constructor
  · cases h1 : shardTestCases O.total O.index O.status cases with
    | none => exact ⟨2, .shard h1⟩
    | some mine =>
      have h2 := (locatedAll_same hs (commands O.flags) _).2 rfl
      by_cases hpar : O.parallelism ≤ 0
      · exact ⟨2, .parallelism h1 h2 hpar⟩
      · by_cases hne : commands O.flags = []
        · exact ⟨2, .nothing h1 (hne ▸ h2) (by omega)⟩
        · obtain ⟨s, hr, hm⟩ := can_return (X := T.setup (commands O.flags)) (parallelism := O.parallelism.toNat)
            (cases := mine) (by omega) _ .init
          exact ⟨_, .ran h1 h2 (by omega) hne hr hm⟩
  · intro a b ha hb
    cases ha with
    | shard h => cases hb <;> simp_all
    | manifest _ h => simp [locatedAll_same hs] at h
    | parallelism h1 h2 h3 =>
      cases hb with
      | shard | manifest | parallelism | nothing => rfl
      | ran => omega
    | nothing h1 h2 h3 =>
      cases hb with
      | shard | manifest | parallelism | nothing => rfl
      | ran _ h5 _ h6 => simp [locatedAll_same hs] at h2 h5; rw [h5, ← h2] at h6; exact absurd rfl h6
    | ran h1 h2 h3 h4 h5 h6 =>
      cases hb with
      | shard h => simp_all
      | manifest _ h => simp [locatedAll_same hs] at h
      | parallelism => omega
      | nothing _ h => simp [locatedAll_same hs] at h2 h; rw [h2, ← h] at h4; exact absurd rfl h4
      | ran g1 g2 g3 g4 g5 g6 =>
        simp only [locatedAll_same hs, Option.some.injEq] at h2 g2
        subst h2 g2
        rw [h1] at g1
        simp only [Option.some.injEq] at g1
        subst g1
        rw [(C56_counters _ _ _ _ h5 h6).2.1, (C56_counters _ _ _ _ g5 g6).2.1]

/-- **C110** If all shards of a test run exit with 0, every case passes with every program asked for. -/
theorem C110_green (T : Tests) (O : Options) (cases : List T.Case) (count : Nat) (hc : 0 < count)
    (hn : cases.length < 2 ^ 53) (hc' : count < 2 ^ 53)
    (hs : O.system.windows = false ∨ O.system.manifest = none)
    (h : ∀ i, i < count → Exits T { O with total := some count, index := some i, status := true } cases 0) :
    ∀ c ∈ cases, ∀ cmd, Asked O.flags cmd → Passes T c cmd := by
  intro c hcase cmd hcmd
  rw [← C58_partition_partial cases count hc hn hc', List.mem_flatten] at hcase
  obtain ⟨mine, hm, hcm⟩ := hcase
  obtain ⟨i, hi, he⟩ := List.mem_filterMap.1 hm
  obtain ⟨mine', h1, _, _, h2⟩ := (C110_exit_iff T { O with total := some count, index := some i, status := true } cases hs).1 (h i (List.mem_range.1 hi))
  have : mine' = mine := by
    have : shardOf cases count i = some mine' := h1
    rw [he] at this
    simpa using this.symm
  exact h2 cmd hcmd c (this ▸ hcm)

/-- Three cases that any program gets right but the third, which the C++ program gets wrong. -/
def threeTests : Tests where
  Case := Nat
  failures := fun _ => 0
  marshals := fun _ => true
  exec := fun c file => .result (!(c == 2 && file == path "tests/harness/cc/cc-harness")) false false false 0

theorem threeTests_go (c : Nat) : Passes threeTests c (path "tests/harness/go/main/go-harness") := by
  have : (path "tests/harness/go/main/go-harness" == path "tests/harness/cc/cc-harness") = false := by decide
  exact ⟨rfl, true, false, false, 0, by simp [threeTests, this], .inl (by simp [threeTests])⟩

theorem shards_of_three (i : Nat) (hi : i < 2) : ∃ mine, shardOf [0, 1, 2] 2 i = some mine := by
  cases h : shardOf [0, 1, 2] 2 i with
  | some mine => exact ⟨mine, rfl⟩
  | none =>
    have := (C58_panics_iff [0, 1, 2] 2 i (by decide) (by decide) (by decide)).1 h
    simp at this
    omega

/-- The hypotheses of C110 are met: two shards exit with 0 for the Go program. -/
example (i : Nat) (hi : i < 2) : Exits threeTests
    { flags := { go := true }, parallelism := 3, total := some 2, index := some i, status := true }
    ([0, 1, 2] : List Nat) 0 := by
  refine (C110_exit_iff _ _ _ (.inl rfl)).2 ?_
  obtain ⟨mine, hm⟩ := shards_of_three i hi
  refine ⟨mine, hm, by simp, ⟨_, .go rfl⟩, fun cmd hc c _ => ?_⟩
  cases hc <;> rename_i h <;> simp at h
  exact threeTests_go c

/-- And with the C++ program the executor does not exit with 0. -/
example : ¬ Exits threeTests { flags := { go := true, cc := true }, parallelism := 3 } ([0, 1, 2] : List Nat) 0 := by
  refine mt (C110_exit_iff _ _ _ (.inl rfl)).1 ?_
  rintro ⟨mine, h1, _, _, h2⟩
  have : mine = ([0, 1, 2] : List Nat) := (Option.some.inj h1).symm
  subst this
  obtain ⟨_, v, a, m, r, h3, h4⟩ := h2 _ (.cc rfl) (2 : Nat) (show (2 : Nat) ∈ [0, 1, 2] by simp)
  simp [threeTests] at h3
  obtain ⟨rfl, rfl, rfl, rfl⟩ := h3
  simp [threeTests] at h4

/-! ### The manifest -/

/-- **C110** (negation) On Windows the program found depends on the order in which a map is gone through: of two files
whose names contain the command, either may be taken. -/
theorem C110_order : ∃ lines entries cmd a b, WellFormed lines entries ∧ Asked { python := true } cmd ∧ a ≠ b ∧
    MayRun { windows := true, manifest := some lines } cmd a ∧
    MayRun { windows := true, manifest := some lines } cmd b := by
  refine ⟨[path "tests/harness/python/python-harness.exe C:/h.exe", path "tests/harness/python/python-harness.zip C:/h.zip"],
    [(path "tests/harness/python/python-harness.exe", path "C:/h.exe"),
      (path "tests/harness/python/python-harness.zip", path "C:/h.zip")],
    _, path "C:/h.exe", path "C:/h.zip", ⟨by decide, by decide, by decide⟩, .python rfl, by decide, ?_, ?_⟩
  · exact .found (m := [(path "tests/harness/python/python-harness.zip", path "C:/h.zip"),
        (path "tests/harness/python/python-harness.exe", path "C:/h.exe")])
      (order := [(path "tests/harness/python/python-harness.exe", path "C:/h.exe"),
        (path "tests/harness/python/python-harness.zip", path "C:/h.zip")]) rfl rfl rfl (.swap _ _ _)
  · exact .found (m := [(path "tests/harness/python/python-harness.zip", path "C:/h.zip"),
        (path "tests/harness/python/python-harness.exe", path "C:/h.exe")])
      (order := [(path "tests/harness/python/python-harness.zip", path "C:/h.zip"),
        (path "tests/harness/python/python-harness.exe", path "C:/h.exe")]) rfl rfl rfl (.refl _)

/-- **C110** (negation) A file whose path has a space in it is cut off at the space. -/
theorem C110_space : ∃ entry : Bytes × Bytes, 0x20 ∈ entry.2 ∧ ∀ file,
    MayRun { windows := true, manifest := some [entry.1 ++ 0x20 :: entry.2] } (path "tests/harness/go/main/go-harness") file →
      file ≠ entry.2 := by
  refine ⟨(path "tests/harness/go/main/go-harness.exe", path "C:/My Files/go-harness.exe"), by decide, fun file h => ?_⟩
  cases h with
  | same h => simp at h
  | found h1 h2 h3 h4 =>
    simp at h2
    subst h2
    have : readManifest [] [path "tests/harness/go/main/go-harness.exe" ++ 0x20 :: path "C:/My Files/go-harness.exe"] =
      some [(path "tests/harness/go/main/go-harness.exe", path "C:/My")] := by rfl
    rw [this] at h3
    simp at h3
    subst h3
    rw [List.perm_singleton.1 h4]
    decide

theorem readManifest_none (before after : List Bytes) (line : Bytes) (hl : 0x20 ∉ line) (m : List (Bytes × Bytes)) :
    readManifest m (before ++ line :: after) = none := by
  induction before generalizing m with
  | nil =>
    have : splitByte 0x20 line = [line] := by
      have := splitByte_intercalate 0x20 [line] (by simp) (by simpa using hl)
      simpa [List.intercalate] using this
    simp [readManifest, this]
  | cons b bs ih =>
    simp only [List.cons_append, readManifest]
    split
    · exact ih _
    · rfl

/-- **C110** (negation) One line without a space, such as an empty one, and no program is run at all. -/
theorem C110_line (T : Tests) (O : Options) (cases : List T.Case) (before after : List Bytes) (line : Bytes)
    (hw : O.system.windows = true) (hm : O.system.manifest = some (before ++ line :: after)) (hl : 0x20 ∉ line)
    (ha : ∃ cmd, Asked O.flags cmd) (code : Nat) (h : Exits T O cases code) : code = 2 := by
  cases h with
  | shard | manifest | parallelism | nothing => rfl
  | ran h1 h2 h3 h4 h5 h6 =>
    obtain ⟨cmd, hc⟩ := ha
    obtain ⟨file, _, hl'⟩ := (locatedAll_mem h2).1 cmd ((C110_asked _ _).2 hc)
    cases hl' with
    | same h => simp [hw, hm] at h
    | found _ g2 g3 _ =>
      rw [hm] at g2
      simp only [Option.some.injEq] at g2
      rw [← g2, readManifest_none before after line hl] at g3
      simp at g3

theorem readManifest_wellFormed (entries m : List (Bytes × Bytes)) (h : ∀ e ∈ entries, 0x20 ∉ e.1 ∧ 0x20 ∉ e.2)
    (hn : (entries.map (·.1)).Nodup) (hd : ∀ e ∈ entries, ∀ e' ∈ m, e'.1 ≠ e.1) :
    readManifest m (entries.map (fun e => e.1 ++ 0x20 :: e.2)) = some (entries.reverse ++ m) := by
  induction entries generalizing m with
  | nil => rfl
  | cons e es ih =>
    have h1 := h e (by simp)
    have : splitByte 0x20 (e.1 ++ 0x20 :: e.2) = [e.1, e.2] := by
      have := splitByte_intercalate 0x20 [e.1, e.2] (by simp) (by simpa using h1)
      simpa [List.intercalate] using this
    have hi : PGV.Harness.insert m e.1 e.2 = e :: m := by
      unfold PGV.Harness.insert
      rw [List.filter_eq_self.2 fun e' he' => by simpa using hd e (by simp) e' he']
    simp only [List.map_cons, readManifest, this, hi]
    simp only [List.map_cons, List.nodup_cons, List.mem_map, not_exists, not_and] at hn
    rw [ih (e :: m) (fun e' he' => h e' (by simp [he'])) hn.2]
    · simp
    · intro a ha b hb
      rcases List.mem_cons.1 hb with rfl | hb
      · exact fun e => hn.1 a ha e.symm
      · exact hd a (by simp [ha]) b hb

theorem search_keep (order : List (Bytes × Bytes)) (cmd : Bytes) (h : ∀ e ∈ order, ¬ cmd <:+: e.1) :
    search order cmd = cmd := by
  induction order with
  | nil => rfl
  | cons e es ih =>
    have : containsSub e.1 cmd = false := by
      rw [← Bool.not_eq_true, containsSub_iff]
      exact h e (by simp)
    have h' := ih fun e' he' => h e' (by simp [he'])
    simp only [search, List.foldl_cons, this] at h' ⊢
    simpa using h'

theorem search_unique (order : List (Bytes × Bytes)) (cmd : Bytes) (e : Bytes × Bytes) (he : e ∈ order)
    (hc : cmd <:+: e.1) (hu : ∀ e' ∈ order, cmd <:+: e'.1 → e' = e) (hk : ∀ e' ∈ order, ¬ e.2 <:+: e'.1) :
    search order cmd = e.2 := by
  induction order with
  | nil => simp at he
  | cons a as ih =>
    by_cases ha : cmd <:+: a.1
    · have := hu a (by simp) ha
      subst this
      have h1 := (containsSub_iff a.1 cmd).2 hc
      have h2 := search_keep as a.2 fun e' he' => hk e' (by simp [he'])
      simp only [search, List.foldl_cons, h1] at h2 ⊢
      simpa using h2
    · have h1 : containsSub a.1 cmd = false := by
        rw [← Bool.not_eq_true, containsSub_iff]
        exact ha
      have : e ∈ as := by
        rcases List.mem_cons.1 he with rfl | h
        · exact absurd hc ha
        · exact h
      have h2 := ih this (fun e' he' => hu e' (by simp [he'])) fun e' he' => hk e' (by simp [he'])
      simp only [search, List.foldl_cons, h1] at h2 ⊢
      simpa using h2

/-- **C110** (what holds on Windows) If the manifest is well formed, exactly one name in it contains the command, and no
name contains the file it stands for, that file is run whatever the order. What is missing: several names that contain the
command (`C110_order`), spaces (`C110_space`) and other lines (`C110_line`). -/
theorem C110_located_partial (lines : List Bytes) (entries : List (Bytes × Bytes)) (hw : WellFormed lines entries)
    (cmd : Bytes) (e : Bytes × Bytes) (he : e ∈ entries) (hc : cmd <:+: e.1)
    (hu : ∀ e' ∈ entries, cmd <:+: e'.1 → e' = e) (hk : ∀ e' ∈ entries, ¬ e.2 <:+: e'.1) (file : Bytes) :
    MayRun { windows := true, manifest := some lines } cmd file ↔ file = e.2 := by
  have hr : readManifest [] lines = some (entries.reverse ++ []) := by
    rw [hw.1]
    exact readManifest_wellFormed entries [] hw.2.1 hw.2.2 (by simp)
  rw [List.append_nil] at hr
  have hs : ∀ order : List (Bytes × Bytes), order.Perm entries.reverse → search order cmd = e.2 := by
    intro order hp
    have hm : ∀ x, x ∈ order ↔ x ∈ entries := fun x => by rw [hp.mem_iff, List.mem_reverse]
    exact search_unique order cmd e ((hm e).2 he) hc (fun e' h => hu e' ((hm e').1 h)) fun e' h => hk e' ((hm e').1 h)
  constructor
  · intro h
    cases h with
    | same h => simp at h
    | found h1 h2 h3 h4 =>
      simp only [Option.some.injEq] at h2
      rw [← h2, hr] at h3
      simp only [Option.some.injEq] at h3
      subst h3
      exact hs _ h4
  · rintro rfl
    rw [← hs _ (.refl _)]
    exact .found rfl rfl hr (.refl _)

/-- The hypotheses are met. -/
example (file : Bytes) : MayRun { windows := true, manifest := some [path "a/cc-harness.exe D:/cc.exe", path "a/b D:/b"] }
    (path "cc-harness") file ↔ file = path "D:/cc.exe" := by
  have key : ∀ s p : Bytes, (p <:+: s) = (containsSub s p = true) := fun s p => by rw [containsSub_iff]
  refine C110_located_partial _ [(path "a/cc-harness.exe", path "D:/cc.exe"), (path "a/b", path "D:/b")]
    ⟨by decide, by decide, by decide⟩ _ (path "a/cc-harness.exe", path "D:/cc.exe") (by simp) ?_ ?_ ?_ file
  · rw [key]; decide
  · simp only [key]; decide
  · simp only [key]; decide

end PGV.Props
