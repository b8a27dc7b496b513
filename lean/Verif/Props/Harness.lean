import Verif.Lemmas.Executor
import Verif.Lemmas.Shard
import Verif.Harness.GoMain
import Verif.Props.ErrorText

/-!
C56-C59: the test executor and the Go harness.
-/

set_option linter.unusedSimpArgs false
set_option autoImplicit false

namespace PGV.Props
open PGV PGV.Go PGV.Spec PGV.Harness

/-! ### C56 -/

theorem returned_counter {X : Setup} {n : Nat} {cases : List X.Case} {s : State X}
    (h : Reachable n cases s) (hr : s.main = .returned) (p : Result → Bool) (hp : Kind p) :
    s.counter p = (allResults X cases).countP p := by
  have hi := h.inv
  have hg := all_gone hi (hi.waited (.inr (.inr hr)))
  have hc := hi.done.mp (hi.returned hr)
  have ho : s.owes = [] := by
    have : s.workers.flatMap Worker.owes = [] := by
      rw [List.flatMap_eq_nil_iff]
      intro w hw
      rw [hg w hw]; rfl
    simp [State.owes, hc, hr, this, Collector.owes, Main.owes]
  have := h.owes p hp
  rw [ho] at this
  simpa using this

/-- **C56** Whatever the interleaving and the number of workers, when `run` returns its counters are
the numbers of successful, failed and skipped results; together they are the number of all results. -/
theorem C56_counters (X : Setup) (parallelism : Nat) (cases : List X.Case) (s : State X)
    (h : Reachable parallelism cases s) (hr : s.main = .returned) :
    s.successes = (allResults X cases).countP IsSuccess ∧
    s.failures = (allResults X cases).countP IsFailure ∧
    s.skips = (allResults X cases).countP IsSkip ∧
    s.successes + s.failures + s.skips = (allResults X cases).length := by
  have h1 := returned_counter h hr IsSuccess rfl
  have h2 := returned_counter h hr IsFailure rfl
  have h3 := returned_counter h hr IsSkip rfl
  have h4 := returned_counter h hr (fun _ => true) rfl
  simp [State.counter, IsSuccess, IsFailure, IsSkip] at h1 h2 h3 h4
  exact ⟨h1, h2, h3, h4⟩

/-- **C56** If every case marshals there is one result per case and harness. -/
theorem C56_one_per_pair (X : Setup) (parallelism : Nat) (cases : List X.Case) (s : State X)
    (h : Reachable parallelism cases s) (hr : s.main = .returned)
    (hm : ∀ c ∈ cases, X.marshals c = true) :
    s.successes + s.failures + s.skips = cases.length * X.harnesses.length := by
  rw [(C56_counters X parallelism cases s h hr).2.2.2]
  clear h hr
  unfold allResults
  induction cases with
  | nil => simp
  | cons c cs ih =>
    rw [List.flatMap_cons, List.length_append, ih fun c hc => hm c (by simp [hc])]
    simp [caseResults, hm c (by simp), Nat.add_mul]
    omega

/-- **C56** A result counts as a success exactly when the harness answered without error and gave the
verdict the case asks for: the right number of reasons if it reports all of them, otherwise the right
validity. -/
theorem C56_success (failures : Nat) (a : Answer) :
    IsSuccess (judge failures a) = true ↔
      ∃ valid allow multiple reasons, a = .result valid false allow multiple reasons ∧
        (if multiple then reasons = failures else (valid = true ↔ failures = 0)) := by
  cases a with
  | failed => simp [judge, IsSuccess]
  | result valid error allow multiple reasons =>
    cases valid <;> cases error <;> cases allow <;> cases multiple <;>
      simp [judge, IsSuccess] <;> split <;> simp_all

/-- **C56** A result is skipped exactly when the harness answered without error, gave another verdict,
and allows that. -/
theorem C56_skip (failures : Nat) (a : Answer) :
    IsSkip (judge failures a) = true ↔
      ∃ valid multiple reasons, a = .result valid false true multiple reasons ∧
        ¬ (if multiple then reasons = failures else (valid = true ↔ failures = 0)) := by
  cases a with
  | failed => simp [judge, IsSkip]
  | result valid error allow multiple reasons =>
    cases valid <;> cases error <;> cases allow <;> cases multiple <;>
      simp [judge, IsSkip] <;> split <;> simp_all

/-! ### C57 -/

/-- **C57** No goroutine ever sends on a closed channel, closes a channel twice or calls `Done` too
often. -/
theorem C57_no_panic (X : Setup) (parallelism : Nat) (cases : List X.Case) (s : State X)
    (h : Reachable parallelism cases s) : ¬ Panics s := no_panic h.inv

/-- **C57** No deadlock: with at least one worker (otherwise `run` panics at its start), some goroutine
can take a step until `run` has returned. -/
theorem C57_progress (X : Setup) (parallelism : Nat) (cases : List X.Case) (s : State X)
    (hp : 0 < parallelism) (h : Reachable parallelism cases s) (hr : s.main ≠ .returned) :
    ∃ t, Step s t := by
  refine progress h.inv ?_ hr
  have := h.workers_length
  intro e
  rw [e] at this
  simp at this
  omega

/-- **C57** Every schedule is finite: no run takes more steps than this. -/
theorem C57_finite (X : Setup) (parallelism : Nat) (cases : List X.Case) (s : State X) (n : Nat)
    (h : Steps n (init X parallelism cases) s) :
    n ≤ 6 + (4 + 6 * X.harnesses.length) * cases.length + 2 * parallelism := by
  have := Harness.Steps.cost h
  rw [init_cost, caseCost] at this
  omega

theorem reachable_of_steps {X : Setup} {parallelism n : Nat} {cases : List X.Case} {s : State X}
    (h : Steps n (init X parallelism cases) s) : Reachable parallelism cases s := by
  generalize hi : init X parallelism cases = i at h
  induction h with
  | refl => rw [← hi]; exact .init
  | step _ hs ih => exact .step (ih hi) hs

/-- **C57** So every run that is continued while some goroutine can step ends with `run` returned: a state
without steps is one in which `run` has returned and no goroutine is left. -/
theorem C57_ends (X : Setup) (parallelism : Nat) (cases : List X.Case) (s : State X)
    (hp : 0 < parallelism) (h : Reachable parallelism cases s) (hs : ∀ t, ¬ Step s t) :
    s.main = .returned := by
  cases hm : s.main with
  | returned => rfl
  | _ =>
    obtain ⟨t, ht⟩ := C57_progress X parallelism cases s hp h (by simp [hm])
    exact absurd ht (hs t)

/-- **C57** When `run` returns, the collector and all workers have ended. -/
theorem C57_all_ended (X : Setup) (parallelism : Nat) (cases : List X.Case) (s : State X)
    (h : Reachable parallelism cases s) (hr : s.main = .returned) : AllEnded s :=
  ⟨all_gone h.inv (h.inv.waited (.inr (.inr hr))), h.inv.done.mp (h.inv.returned hr)⟩

/-- From every reachable state `run` can be brought to its end. -/
theorem can_return {X : Setup} {parallelism : Nat} {cases : List X.Case} (hp : 0 < parallelism)
    (s : State X) (h : Reachable parallelism cases s) :
    ∃ t, Reachable parallelism cases t ∧ t.main = .returned := by
  generalize hc : s.cost = c
  induction c using Nat.strongRecOn generalizing s with
  | ind c ih =>
    by_cases hr : s.main = .returned
    · exact ⟨s, h, hr⟩
    · obtain ⟨t, ht⟩ := C57_progress X parallelism cases s hp h hr
      have := ht.cost
      exact ih t.cost (by omega) t (.step h ht) rfl

/-- Two cases, the second of which does not marshal, and three harnesses: one right, one failing, one
wrong but allowed to be. -/
def setup : Setup where
  Case := Bool
  Harness := Nat
  failures := fun _ => 2
  marshals := fun c => c
  harnesses := [0, 1, 2]
  exec := fun _ h => if h = 0 then .result false false false true 2 else if h = 1 then .failed
    else .result true false true false 0

/-- The hypotheses of C56 and C57 are met: a run of four workers over these cases can return, and then has
counted one success, two failures and one skip. -/
example : ∃ s : State setup, Reachable 4 [true, false] s ∧ s.main = .returned ∧
    s.successes = 1 ∧ s.failures = 2 ∧ s.skips = 1 := by
  obtain ⟨s, h, hr⟩ := can_return (X := setup) (parallelism := 4) (cases := [true, false]) (by decide) _ .init
  obtain ⟨h1, h2, h3, _⟩ := C56_counters setup 4 _ s h hr
  exact ⟨s, h, hr, h1.trans rfl, h2.trans rfl, h3.trans rfl⟩

/-- Without workers the executor would wait forever: the hypothesis of `C57_progress` is needed. -/
example : ¬ ∃ t, Step (init setup 0 [true]) t := by
  rintro ⟨t, h⟩
  cases h <;> simp_all [init]

/-! ### C58 -/

/-- The cases the executor runs when the environment asks for shard `index` of `count`. -/
def shardOf {α : Type} (cases : List α) (count index : Nat) : Option (List α) :=
  shardTestCases (some count) (some index) true cases

theorem shardOf_eq {α : Type} (cases : List α) (count index : Nat) :
    shardOf cases count index = shard cases count index := by
  simp only [shardOf, shardTestCases, if_true]

/-- **C58** (negation) With five cases and four shards, the last shard panics. -/
theorem C58_shard_panics : shardOf [0, 1, 2, 3, 4] 4 3 = none := by
  rw [shardOf_eq, shard_eq _ _ _ (by decide) (by decide) (by decide)]
  decide

/-- **C58** (what holds) The shards that do not panic are, concatenated in order, exactly the list of
cases. What is missing: some shards may panic, see `C58_shard_panics`; they would have had no cases. -/
theorem C58_partition_partial {α : Type} (cases : List α) (count : Nat) (hc : 0 < count)
    (hn : cases.length < 2 ^ 53) (hc' : count < 2 ^ 53) :
    ((List.range count).filterMap (shardOf cases count)).flatten = cases := by
  rw [show shardOf cases count = shard cases count from funext (shardOf_eq cases count)]
  rw [shards_take cases count hc hn hc']
  exact List.take_of_length_le (length_le_shards _ _ hc)

/-- **C58** Shard `index` panics exactly when the shards before it have, at the common length (the
number of cases divided by the number of shards, rounded up), more places than there are cases. -/
theorem C58_panics_iff {α : Type} (cases : List α) (count index : Nat) (hc : 0 < count)
    (hn : cases.length < 2 ^ 53) (hc' : count < 2 ^ 53) :
    shardOf cases count index = none ↔
      cases.length < index * ((cases.length + (count - 1)) / count) := by
  rw [shardOf_eq, shard_eq cases count index hc hn hc']
  clear hn hc'
  split
  · rename_i h; simp; exact h
  · rename_i h; simp; omega

theorem filterMap_getD {α : Type} (f : Nat → Option (List α)) (l : List Nat) (h : ∀ i ∈ l, f i ≠ none) :
    l.filterMap f = l.map fun i => (f i).getD [] := by
  induction l with
  | nil => rfl
  | cons a l ih =>
    have ha := h a (by simp)
    cases hf : f a with
    | none => exact absurd hf ha
    | some x => simp [List.filterMap_cons, hf, ih fun i hi => h i (by simp [hi])]

/-- **C58** So if the number of cases is a multiple of the number of shards, no shard panics and the
shards partition the cases. -/
theorem C58_multiple {α : Type} (cases : List α) (count k : Nat) (hc : 0 < count)
    (hn : cases.length < 2 ^ 53) (hc' : count < 2 ^ 53) (hk : cases.length = count * k) :
    (∀ index, index < count → shardOf cases count index ≠ none) ∧
    ((List.range count).map (fun i => (shardOf cases count i).getD [])).flatten = cases := by
  have hq : (cases.length + (count - 1)) / count = k := by
    rw [hk]
    exact Nat.div_eq_of_lt_le (by rw [Nat.mul_comm]; omega) (by rw [Nat.add_mul, Nat.mul_comm]; omega)
  have hne : ∀ index, index < count → shardOf cases count index ≠ none := by
    intro i hi h
    rw [C58_panics_iff cases count i hc hn hc', hq, hk] at h
    exact absurd (Nat.mul_le_mul_right k (Nat.le_of_lt hi)) (by omega)
  refine ⟨hne, ?_⟩
  refine Eq.trans ?_ (C58_partition_partial cases count hc hn hc')
  rw [filterMap_getD (shardOf cases count) (List.range count) fun i hi => hne i (List.mem_range.1 hi)]

/-- **C58** Without sharding requested, or if the status file cannot be created, all cases run. -/
theorem C58_off {α : Type} (total index : Option Nat) (status : Bool) (cases : List α)
    (h : total = none ∨ index = none ∨ status = false) :
    shardTestCases total index status cases = some cases := by
  unfold shardTestCases
  rcases h with rfl | rfl | rfl
  · rfl
  · cases total <;> rfl
  · cases total <;> cases index <;> rfl

/-- The hypotheses are met, and C58 is about shards of different lengths. -/
example : shardOf ["a", "b", "c"] 2 0 = some ["a", "b"] ∧ shardOf ["a", "b", "c"] 2 1 = some ["c"] := by
  constructor <;> rw [shardOf_eq, shard_eq _ _ _ (by decide) (by decide) (by decide)] <;> rfl

/-! ### C59 -/

/-- Errors with nothing inside: library errors, and violations without a cause. -/
def Flat : Err → Prop
  | .lib _ => True
  | .viol _ _ _ cause _ => cause = none
  | .multi _ _ => False

/-- Errors without multi-errors along their chain of causes. -/
inductive Chain : Err → Prop
  | lib {t} : Chain (.lib t)
  | last {t f r k} : Chain (.viol t f r none k)
  | cause {t f r c k} : Chain c → Chain (.viol t f r (some c) k)

/-- Violations whose cause is flat or a multi-error of such violations. -/
inductive Merges : Err → Prop
  | last {t f r k} : Merges (.viol t f r none k)
  | flat {t f r c k} : Flat c → Merges (.viol t f r (some c) k)
  | nested {t f r n es k} : (∀ e ∈ es, Merges e) → Merges (.viol t f r (some (.multi n es)) k)

theorem Flat.chain {e : Err} (h : Flat e) : Chain e := by
  cases e with
  | lib => exact .lib
  | viol t f r c k => cases h; exact .last
  | multi => cases h

theorem MsgErr.isViol {E : Env} {S : Schema} {all : Bool} {rec : Rec} {d : MsgDesc}
    {fs : List (String × Val)} {os : List (String × String × Val)} {e : Err}
    (h : MsgErr E S all rec d fs os e) : ∃ t f r c k, e = .viol t f r c k := by
  cases h with
  | oneof => exact ⟨_, _, _, _, _, rfl⟩
  | field _ hF =>
    cases hF with
    | own => exact ⟨_, _, _, _, _, rfl⟩
    | nested => exact ⟨_, _, _, _, _, rfl⟩

theorem validate_chain (E : Env) (S : Schema) (hl : ∀ u x, E.legacy u = some x → Flat x) :
    ∀ n v e, depth v ≤ n → validate E S false v = some e → Chain e := by
  intro n
  induction n with
  | zero => intro v e hn; have := depth_pos v; omega
  | succ n ih =>
    intro v e hn h
    obtain ⟨m, e', rest, hall, hfirst, -⟩ := C02_first_error E S v e h
    rw [validate_eq] at h hall
    cases v with
    | msg typ fs os =>
      cases hS : S typ with
      | generated d =>
        cases hd : d.disabled with
        | true => simp [validateStep, hS, hd] at h
        | false =>
          simp only [validateStep, hS, hd, Bool.false_eq_true, if_false] at h hall
          have hv : ∃ t f r c k, e' = .viol t f r c k := by
            rcases (body_raises E S true (validate E S) d fs os).fast hall with hq | ⟨es, he, hes⟩
            · obtain ⟨_, _, _, _, _, h⟩ := MsgErr.isViol hq; cases h
            · cases he; exact MsgErr.isViol (hes e' (by simp))
          rcases (body_raises E S false (validate E S) d fs os).fast h with hq | ⟨es, rfl, hes⟩
          · cases hq with
            | oneof => exact .last
            | field hA hF =>
              cases hF with
              | @own i reason cause hc =>
                cases cause with
                | none => exact .last
                | some c =>
                  cases c with
                  | lib => exact .cause .lib
                  | viol => simp [PlainCause] at hc
                  | multi => simp [PlainCause] at hc
              | nested hH ht hs hc =>
                rename_i f v i rules w z
                rcases hc with ⟨hV, hz⟩ | hz
                · have hE : Embeds S (.msg typ fs os) ⟨f.name, i⟩ w := .mk hS hd hA hH ht hs hV
                  have := embeds_depth hE
                  exact .cause (ih w z (by omega) hz)
                · exact .cause (hl _ _ hz).chain
          · obtain ⟨_, _, _, _, _, rfl⟩ := hv
            cases hfirst
      | legacy => simp [validateStep, hS] at h
      | foreign => simp [validateStep, hS] at h
    | _ => simp [validateStep] at h

theorem validate_merges (E : Env) (S : Schema) (hl : ∀ u x, E.legacy u = some x → Flat x) :
    ∀ n v e, depth v ≤ n → validate E S true v = some e → ∃ m es, e = .multi m es ∧ ∀ x ∈ es, Merges x := by
  intro n
  induction n with
  | zero => intro v e hn; have := depth_pos v; omega
  | succ n ih =>
    intro v e hn h
    rw [validate_eq] at h
    cases v with
    | msg typ fs os =>
      cases hS : S typ with
      | generated d =>
        cases hd : d.disabled with
        | true => simp [validateStep, hS, hd] at h
        | false =>
          have h0 := h
          simp only [validateStep, hS, hd, Bool.false_eq_true, if_false] at h
          have part : ∀ y, MsgErr E S true (validate E S) d fs os y → Merges y := by
            intro y hq
            cases hq with
            | oneof => exact .last
            | field hA hF =>
              cases hF with
              | @own i reason cause hc =>
                cases cause with
                | none => exact .last
                | some c =>
                  cases c with
                  | lib => exact .flat trivial
                  | viol => simp [PlainCause] at hc
                  | multi => simp [PlainCause] at hc
              | nested hH ht hs hc =>
                rename_i f v i rules w z
                rcases hc with ⟨hV, hz⟩ | hz
                · have hE : Embeds S (.msg typ fs os) ⟨f.name, i⟩ w := .mk hS hd hA hH ht hs hV
                  have := embeds_depth hE
                  obtain ⟨m, es, rfl, hes⟩ := ih w z (by omega) hz
                  exact .nested hes
                · exact .flat (hl _ _ hz)
          rcases (body_raises E S true (validate E S) d fs os).fast h with hq | ⟨es, rfl, hes⟩
          · rw [← validate_eq] at h0
            have hn : validate E S false (.msg typ fs os) ≠ none := by
              rw [Ne, ← validate_modes, h0]; simp
            cases hf : validate E S false (.msg typ fs os) with
            | none => exact absurd hf hn
            | some x =>
              obtain ⟨_, _, _, h1, _⟩ := C02_first_error E S _ x hf
              rw [h0] at h1
              obtain ⟨_, _, _, _, _, h⟩ := MsgErr.isViol hq
              cases h1
              cases h
          · exact ⟨_, es, rfl, fun x hx => part x (hes x hx)⟩
      | legacy => simp [validateStep, hS] at h
      | foreign => simp [validateStep, hS] at h
    | _ => simp [validateStep] at h

theorem merge_first (P : Printer) {e e' : Err} (h : FirstOf e e') (hc : Chain e) (hm : Merges e') :
    ∃ rs, mergeOne P e' = errorText P (rootCause e) :: rs := by
  induction h with
  | same e =>
    cases hm with
    | last => exact ⟨[], by simp [mergeOne, rootCause]⟩
    | @flat t f r c k hf =>
      cases c with
      | lib => exact ⟨[], by simp [mergeOne, rootCause]⟩
      | viol t f r c k => cases hf; exact ⟨[], by simp [mergeOne, rootCause]⟩
      | multi => cases hf
    | nested => cases hc with | cause hc => cases hc
  | @nested t f r c c' n rest k _ ih =>
    cases hc with
    | cause hc =>
      cases hm with
      | flat hf => cases hf
      | nested hm =>
        obtain ⟨rs, hr⟩ := ih hc (hm _ (by simp))
        exact ⟨rs ++ mergeReasons P rest, by simp [mergeOne, mergeReasons, rootCause, hr]⟩

/-- **C59** (what holds) If the two calls iterate maps in the same order, and errors of types generated
by older versions have nothing inside, the harness replies `Valid` for valid messages and otherwise gives
reasons, the first of which is the text of the root cause of the error of `Validate()`. -/
theorem C59_consistent_partial (P : Printer) (E : Env) (S : Schema) (v : Val)
    (hl : ∀ u x, E.legacy u = some x → Flat x) :
    (validate E S false v = none ∧ checkValid P (validate E S false v) (validate E S true v) = .valid) ∨
    ∃ e rs, validate E S false v = some e ∧
      checkValid P (validate E S false v) (validate E S true v) =
        .reasons (errorText P (rootCause e) :: rs) := by
  cases h : validate E S false v with
  | none =>
    left
    have : validate E S true v = none := by rw [validate_modes]; exact h
    simp [this, checkValid]
  | some e =>
    right
    obtain ⟨n, e', rest, hall, hfirst, -⟩ := C02_first_error E S v e h
    have hc := validate_chain E S hl _ v e (Nat.le_refl _) h
    obtain ⟨m, es, he, hes⟩ := validate_merges E S hl _ v _ (Nat.le_refl _) hall
    cases he
    obtain ⟨rs, hr⟩ := merge_first P hfirst hc (hes e' (by simp))
    refine ⟨e, rs ++ mergeReasons P rest, rfl, ?_⟩
    simp [hall, checkValid, mergeReasons, hr]

/-- **C59** The harness never reports a different verdict, nor a `ValidateAll()` error without
`AllErrors()`: whatever the map orders and older types do. -/
theorem C59_verdict (P : Printer) (E : Env) (o : List (Scalar × Val) → List (Scalar × Val))
    (ho : ∀ l, (o l).Perm l) (S : Schema) (v : Val) :
    checkValid P (validate E S false v) (validate (withOrder E o ho) S true v) ≠ .differentVerdict ∧
    checkValid P (validate E S false v) (validate (withOrder E o ho) S true v) ≠ .noAllErrors ∧
    (checkValid P (validate E S false v) (validate (withOrder E o ho) S true v) = .valid ↔
      validate E S false v = none) := by
  have hv := C01_validate_agrees E o ho S v
  cases h : validate E S false v with
  | none => simp [checkValid, hv.mp h]
  | some e =>
    cases h' : validate (withOrder E o ho) S true v with
    | none => rw [hv.mpr h'] at h; cases h
    | some e' =>
      have hn : validate (withOrder E o ho) S false v ≠ none := by
        rw [Ne, ← validate_modes, h']; simp
      cases hf : validate (withOrder E o ho) S false v with
      | none => exact absurd hf hn
      | some x =>
        obtain ⟨n, y, rest, hm, -⟩ := C02_first_error _ S v x hf
        rw [h'] at hm
        cases hm
        simp only [checkValid]
        cases mergeReasons P (y :: rest) with
        | nil => simp
        | cons r rs => simp only; split <;> simp

/-- A printer. -/
def plainPrinter : Printer where
  reason := fun ps => match ps with | .s t :: _ => t.toList | _ => []
  idx := fun i => match i with | .key (.num (.int n)) => (toString n).toList | _ => []

/-- A map of numbers that must be positive. -/
def agesById : FieldDesc :=
  { name := "Ages", typ := .map (.scalar .int32) (.scalar .int32),
    rules := .mk none (.map {} .absent (.mk none (.num .int32 { gt := some (.int 0) }))) }

/-- **C59** (negation) If the two calls visit the entries of a map in different orders, the harness may
report a different first message. -/
theorem C59_map_order_differs : ∃ (o : List (Scalar × Val) → List (Scalar × Val)) (ho : ∀ l, (o l).Perm l),
    checkValid plainPrinter
      (validate Fixtures.env (Fixtures.only agesById) false (.msg "M" [("Ages", .map
        [(.num (.int 1), .sc (.num (.int 0))), (.num (.int 2), .sc (.num (.int 0)))])] []))
      (validate (withOrder Fixtures.env o ho) (Fixtures.only agesById) true (.msg "M" [("Ages", .map
        [(.num (.int 1), .sc (.num (.int 0))), (.num (.int 2), .sc (.num (.int 0)))])] [])) =
      .differentFirst :=
  ⟨List.reverse, fun l => l.reverse_perm, by decide +kernel⟩

/-- An older generated type, whose errors have causes. -/
def causedEnv : Env :=
  { Fixtures.env with
    legacy := fun _ => some (.viol "Old" ⟨"Inner", none⟩ [.s "embedded message failed validation"]
      (some (.lib "too old")) false) }

/-- A field of that type. -/
def old : FieldDesc := { name := "Old", typ := .one (.embed "Old" none), rules := .absent }

/-- **C59** (negation) A message whose embedded message is of a type generated by an older version may
make the harness report a different first message, when the error of that type has a cause: the
harness follows all causes of the error of `Validate()` but only one of those of `ValidateAll()`. -/
theorem C59_older_type_differs :
    let S : Schema := fun t => if t = "M" then .generated { name := "M", fields := [old] } else .legacy
    checkValid plainPrinter (validate causedEnv S false (.msg "M" [("Old", .msg "Old" [] [])] []))
      (validate causedEnv S true (.msg "M" [("Old", .msg "Old" [] [])] [])) = .differentFirst := by
  decide +kernel

/-- The hypothesis of `C59_consistent_partial` is met, and it is about nested failures. -/
example : (∀ u x, Fixtures.env.legacy u = some x → Flat x) ∧
    ∃ r rs, checkValid plainPrinter (validate Fixtures.env Fixtures.schema false Fixtures.bob)
      (validate Fixtures.env Fixtures.schema true Fixtures.bob) = .reasons (r :: rs) ∧ rs.length = 2 := by
  refine ⟨(by intro u x h; cases h), ?_⟩
  exact ⟨_, _, rfl, rfl⟩

end PGV.Props
