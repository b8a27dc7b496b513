import Verif.Spec.Harness

/-!
Invariants and a decreasing measure of the executor.
-/

set_option linter.unusedSimpArgs false
set_option autoImplicit false

namespace PGV.Harness
open PGV.Spec

variable {X : Setup}

/-! ### Results still to be counted -/

def Sub.owes (c : X.Case) : Sub X → List Result
  | .exec h => [judge (X.failures c) (X.exec c h)]
  | .send r => [r]
  | _ => []

def Worker.owes : Worker X → List Result
  | .report => [⟨false, false⟩]
  | .busy c hs subs _ =>
    hs.map (fun h => judge (X.failures c) (X.exec c h)) ++ subs.flatMap (Sub.owes c)
  | _ => []

def Main.owes : Main X → List Result
  | .feed rest => allResults X rest
  | _ => []

def Collector.owes : Collector → List Result
  | .count r => [r]
  | _ => []

def Act.takes : Act X → List Result
  | .take c => caseResults X c
  | _ => []

def Act.puts : Act X → List Result
  | .put r => [r]
  | _ => []

/-- The results on their way to the counters. -/
def State.owes (s : State X) : List Result :=
  s.collector.owes ++ (s.workers.flatMap Worker.owes ++ s.main.owes)

theorem start_owes (c : X.Case) : (start X c).owes = caseResults X c := by
  unfold start caseResults
  split <;> simp [Worker.owes]

/-! ### Workers -/

/-- A goroutine that has not called `wg.Done()`. -/
def Sub.live : Sub X → Bool
  | .gone => false
  | _ => true

/-- The wait group of a worker counts the goroutines not started and the live ones. -/
def Worker.Ok : Worker X → Prop
  | .busy _ hs subs n => n = hs.length + subs.countP Sub.live
  | _ => True

/-- Goroutines that are all gone owe nothing. -/
theorem gone_owes (c : X.Case) (subs : List (Sub X)) (h : subs.countP Sub.live = 0) :
    subs.flatMap (Sub.owes c) = [] := by
  rw [List.flatMap_eq_nil_iff]
  intro u hu
  have := List.countP_eq_zero.mp h u hu
  cases u <;> simp_all [Sub.live, Sub.owes]

theorem Worker.Step.owes {w w' : Worker X} {a : Act X} (h : Worker.Step w a w') (hw : w.Ok)
    (p : Result → Bool) :
    w'.owes.countP p + a.puts.countP p = w.owes.countP p + a.takes.countP p := by
  cases h with
  | take c => rw [start_owes]; simp [Worker.owes, Act.puts, Act.takes]
  | join =>
    simp only [Worker.Ok, List.length_nil, Nat.zero_add] at hw
    simp only [Worker.owes]
    rw [gone_owes _ _ hw.symm]
    rfl
  | _ =>
    simp [Worker.owes, Act.puts, Act.takes, Sub.owes, List.countP_append, List.countP_cons,
      List.map_cons] <;> omega

theorem start_ok (c : X.Case) : (start X c).Ok := by
  unfold start
  split <;> simp [Worker.Ok]

theorem Worker.Step.ok {w w' : Worker X} {a : Act X} (h : Worker.Step w a w') (hw : w.Ok) : w'.Ok := by
  cases h with
  | take c => exact start_ok c
  | _ => simp [Worker.Ok, List.countP_append, List.countP_cons, Sub.live] at hw ⊢ <;> omega

/-- A worker that has not called `wg.Done()`. -/
def Worker.live : Worker X → Bool
  | .gone => false
  | _ => true

/-- A worker that has seen the end of the input. -/
def Worker.past : Worker X → Bool
  | .leaving | .gone => true
  | _ => false

theorem start_live (c : X.Case) : (start X c).live = true := by
  unfold start; split <;> rfl

theorem start_past (c : X.Case) : (start X c).past = false := by
  unfold start; split <;> rfl

theorem Worker.Step.live {w w' : Worker X} {a : Act X} (h : Worker.Step w a w') :
    w.live = true ∧ (w'.live = false ↔ a = .finish) := by
  cases h with
  | take c => rw [start_live]; simp [Worker.live]
  | _ => simp [Worker.live]

theorem Worker.Step.past {w w' : Worker X} {a : Act X} (h : Worker.Step w a w') (hp : w'.past = true) :
    w.past = true ∨ a = .eof := by
  cases h with
  | take c => rw [start_past] at hp; cases hp
  | _ => simp_all [Worker.past]

/-! ### The invariant -/

/-- What holds in every reachable state. -/
structure Inv (s : State X) : Prop where
  ok : ∀ w ∈ s.workers, w.Ok
  wg : s.wg = s.workers.countP Worker.live
  feeding : (∃ rest, s.main = .feed rest) ↔ s.inClosed = false
  out : s.outClosed = true ↔ s.main = .waitDone ∨ s.main = .returned
  waited : s.main = .closeOut ∨ s.main = .waitDone ∨ s.main = .returned → s.wg = 0
  past : ∀ w ∈ s.workers, w.past = true → s.inClosed = true
  done : s.doneClosed = true ↔ s.collector = .gone
  drained : s.collector = .closing ∨ s.collector = .gone → s.outClosed = true
  returned : s.main = .returned → s.doneClosed = true

/-- The counter for a kind of results. -/
def State.counter (s : State X) (p : Result → Bool) : Nat :=
  (if p ⟨true, false⟩ then s.successes else 0) + (if p ⟨false, false⟩ then s.failures else 0) +
    (if p ⟨false, true⟩ then s.skips else 0)

/-- A kind of results, which does not look at `ok` of skipped ones. -/
def Kind (p : Result → Bool) : Prop := p ⟨true, true⟩ = p ⟨false, true⟩

theorem add_counter (s : State X) (r : Result) (c : Collector) (p : Result → Bool) (hp : Kind p) :
    ({ s.add r with collector := c } : State X).counter p = s.counter p + [r].countP p := by
  rcases r with ⟨ok, sk⟩
  cases ok <;> cases sk <;>
    cases h1 : p ⟨true, false⟩ <;> cases h2 : p ⟨false, false⟩ <;> cases h3 : p ⟨false, true⟩ <;>
    simp_all [State.add, State.counter, Kind, List.countP_cons] <;> omega

theorem add_rest (s : State X) (r : Result) :
    (s.add r).main = s.main ∧ (s.add r).workers = s.workers ∧ (s.add r).wg = s.wg ∧
    (s.add r).inClosed = s.inClosed ∧ (s.add r).outClosed = s.outClosed ∧
    (s.add r).doneClosed = s.doneClosed := by
  unfold State.add
  split
  · simp
  · split <;> simp

theorem mem_mid {w w' u : Worker X} {pre post : List (Worker X)} (h : u ∈ pre ++ w' :: post) :
    u = w' ∨ u ∈ pre ++ w :: post := by
  simp at h ⊢
  rcases h with h | h | h
  · exact .inr (.inl h)
  · exact .inl h
  · exact .inr (.inr (.inr h))

/-- A step keeps the number of results counted or on their way. -/
theorem init_inv (n : Nat) (cases : List X.Case) : Inv (Harness.init X n cases) where
  ok := by simp [Harness.init]; intro _; trivial
  wg := by simp [Harness.init, List.countP_replicate, Worker.live]
  feeding := by simp [Harness.init]
  out := by simp [Harness.init]
  waited := by simp [Harness.init]
  past := by simp [Harness.init, Worker.past]
  done := by simp [Harness.init]
  drained := by simp [Harness.init]
  returned := by simp [Harness.init]

theorem countP_live {w w' : Worker X} {a : Act X} {pre post : List (Worker X)} (hs : Worker.Step w a w')
    (ha : a ≠ .finish) : (pre ++ w' :: post).countP Worker.live = (pre ++ w :: post).countP Worker.live := by
  have h1 := hs.live.1
  have h2 : w'.live = true := by
    cases h : w'.live with
    | true => rfl
    | false => exact absurd (hs.live.2.mp h) ha
  simp [List.countP_append, List.countP_cons, h1, h2]

theorem ok_mid {w w' : Worker X} {a : Act X} {pre post : List (Worker X)} (hs : Worker.Step w a w')
    (h : ∀ u ∈ pre ++ w :: post, u.Ok) : ∀ u ∈ pre ++ w' :: post, u.Ok := by
  intro u hu
  rcases mem_mid (w := w) hu with rfl | hu
  · exact hs.ok (h w (by simp))
  · exact h u hu

theorem past_mid {w w' : Worker X} {a : Act X} {b : Bool} {pre post : List (Worker X)}
    (hs : Worker.Step w a w') (ha : a = .eof → b = true)
    (h : ∀ u ∈ pre ++ w :: post, u.past = true → b = true) :
    ∀ u ∈ pre ++ w' :: post, u.past = true → b = true := by
  intro u hu hp
  rcases mem_mid (w := w) hu with rfl | hu
  · rcases hs.past hp with hp | hp
    · exact h w (by simp) hp
    · exact ha hp
  · exact h u hu hp

theorem Inv.step {s t : State X} (hi : Inv s) (h : Step s t) : Inv t := by
  have ⟨iok, iwg, ifeed, iout, iwaited, ipast, idone, idrained, iret⟩ := hi
  cases h with
  | @feed c rest pre w w' post hm hc hw hs =>
    rw [hw] at iok ipast iwg
    exact ⟨ok_mid hs iok, by rw [countP_live hs (by simp)]; exact iwg, by simp_all, by simp_all, by simp_all,
      past_mid hs (by simp) ipast, idone, idrained, by simp⟩
  | closeIn hm => exact ⟨iok, iwg, by simp, by simp_all, by simp, by simp, idone, idrained, by simp⟩
  | @eof pre w w' post hc hw hs =>
    rw [hw] at iok ipast iwg
    exact ⟨ok_mid hs iok, by rw [countP_live hs (by simp)]; exact iwg, ifeed, iout, iwaited,
      past_mid hs (fun _ => hc) ipast, idone, idrained, iret⟩
  | @«local» pre w w' post hw hs =>
    rw [hw] at iok ipast iwg
    exact ⟨ok_mid hs iok, by rw [countP_live hs (by simp)]; exact iwg, ifeed, iout, iwaited,
      past_mid hs (by simp) ipast, idone, idrained, iret⟩
  | @put pre w w' post r hw hs hc ho =>
    rw [hw] at iok ipast iwg
    exact ⟨ok_mid hs iok, by rw [countP_live hs (by simp)]; exact iwg, ifeed, iout, iwaited,
      past_mid hs (by simp) ipast, by simp_all, by simp, iret⟩
  | @finish pre w w' post n hw hs hn =>
    rw [hw] at iok ipast iwg
    refine ⟨ok_mid hs iok, ?_, ifeed, iout, ?_, past_mid hs (by simp) ipast, idone, idrained, iret⟩
    · have h1 := hs.live.1
      have h2 := hs.live.2.mpr rfl
      simp [List.countP_append, List.countP_cons, h1, h2, hn] at iwg ⊢
      omega
    · intro hm
      have := iwaited hm
      omega
  | @count r hc =>
    obtain ⟨h1, h2, h3, h4, h5, h6⟩ := add_rest s r
    exact ⟨by simpa [h2] using iok, by simpa [h2, h3] using iwg, by simpa [h1, h4] using ifeed,
      by simpa [h1, h5] using iout, by simpa [h1, h3] using iwaited, by simpa [h2, h4] using ipast,
      by simp_all, by simp, by simpa [h1, h6] using iret⟩
  | drained hc ho => exact ⟨iok, iwg, ifeed, iout, iwaited, ipast, by simp_all, by simp_all, iret⟩
  | closeDone hc hd =>
    exact ⟨iok, iwg, ifeed, iout, iwaited, ipast, by simp, by simp_all, by simp⟩
  | waited hm hw => exact ⟨iok, iwg, by simp_all, by simp_all, by simp_all, ipast, idone, by simp_all, by simp⟩
  | closeOut hm ho => exact ⟨iok, iwg, by simp_all, by simp, by simp_all, ipast, idone, by simp, by simp⟩
  | done hm hd => exact ⟨iok, iwg, by simp_all, by simp_all, by simp_all, ipast, idone, by simp_all, by simp_all⟩

theorem Reachable.inv {n : Nat} {cases : List X.Case} {s : State X} (h : Reachable n cases s) : Inv s := by
  induction h with
  | init => exact init_inv n cases
  | step _ hs ih => exact ih.step hs

theorem Step.owes {s t : State X} (hi : Inv s) (h : Step s t) (p : Result → Bool) (hp : Kind p) :
    t.counter p + t.owes.countP p = s.counter p + s.owes.countP p := by
  cases h with
  | @feed c rest pre w w' post hm hc hw hs =>
    have := hs.owes (hi.ok _ (by rw [hw]; simp)) p
    simp only [Act.puts, Act.takes, List.countP_nil] at this
    simp [State.owes, State.counter, Main.owes, hm, hw, List.countP_append, allResults]
    omega
  | closeIn hm => simp [State.owes, State.counter, Main.owes, hm, allResults]
  | @eof pre w w' post hc hw hs =>
    have := hs.owes (hi.ok _ (by rw [hw]; simp)) p
    simp only [Act.puts, Act.takes, List.countP_nil] at this
    simp [State.owes, State.counter, hw, List.countP_append]
    omega
  | @«local» pre w w' post hw hs =>
    have := hs.owes (hi.ok _ (by rw [hw]; simp)) p
    simp only [Act.puts, Act.takes, List.countP_nil] at this
    simp [State.owes, State.counter, hw, List.countP_append]
    omega
  | @put pre w w' post r hw hs hc ho =>
    have := hs.owes (hi.ok _ (by rw [hw]; simp)) p
    simp only [Act.puts, Act.takes, List.countP_nil] at this
    simp [State.owes, State.counter, hw, hc, Collector.owes, List.countP_append, List.countP_cons] at this ⊢
    omega
  | @finish pre w w' post n hw hs hn =>
    have := hs.owes (hi.ok _ (by rw [hw]; simp)) p
    simp only [Act.puts, Act.takes, List.countP_nil] at this
    simp [State.owes, State.counter, hw, List.countP_append]
    omega
  | @count r hc =>
    rw [add_counter _ _ _ _ hp]
    obtain ⟨h1, h2, -⟩ := add_rest s r
    simp only [State.owes, hc, h1, h2, Collector.owes, List.countP_append, List.nil_append]
    omega
  | drained hc => simp [State.owes, State.counter, hc, Collector.owes]
  | closeDone hc => simp [State.owes, State.counter, hc, Collector.owes]
  | waited hm => simp [State.owes, State.counter, hm, Main.owes]
  | closeOut hm => simp [State.owes, State.counter, hm, Main.owes]
  | done hm => simp [State.owes, State.counter, hm, Main.owes]

theorem Reachable.owes {n : Nat} {cases : List X.Case} {s : State X} (h : Reachable n cases s)
    (p : Result → Bool) (hp : Kind p) :
    s.counter p + s.owes.countP p = (allResults X cases).countP p := by
  induction h with
  | init =>
    have : (List.replicate n (Worker.idle : Worker X)).flatMap Worker.owes = [] := by
      simp [List.flatMap_eq_nil_iff, Worker.owes]
    simp [State.owes, State.counter, Harness.init, Collector.owes, Main.owes, this]
  | step hr hs ih => rw [hs.owes hr.inv p hp, ih]

theorem Step.workers_length {s t : State X} (h : Step s t) : t.workers.length = s.workers.length := by
  cases h <;> simp_all [add_rest]

theorem Reachable.workers_length {n : Nat} {cases : List X.Case} {s : State X} (h : Reachable n cases s) :
    s.workers.length = n := by
  induction h with
  | init => simp [Harness.init]
  | step _ hs ih => rw [hs.workers_length, ih]

/-! ### Progress -/

theorem all_gone {s : State X} (hi : Inv s) (h : s.wg = 0) : ∀ w ∈ s.workers, w = Worker.gone := by
  intro w hw
  have := hi.wg
  rw [h] at this
  have := List.countP_eq_zero.mp this.symm w hw
  cases w <;> simp_all [Worker.live]

/-- A worker inside a case can act on its own or send. -/
theorem busy_step {c : X.Case} {hs : List X.Harness} {subs : List (Sub X)} {n : Nat}
    (h : (Worker.busy c hs subs n).Ok) :
    (∃ w', Worker.Step (.busy c hs subs n) .local w') ∨
    ∃ r w', Worker.Step (.busy c hs subs n) (.put r) w' := by
  cases hs with
  | cons h hs => exact .inl ⟨_, .start⟩
  | nil =>
    cases n with
    | zero => exact .inl ⟨_, .join⟩
    | succ n =>
      simp only [Worker.Ok, List.length_nil, Nat.zero_add] at h
      have : 0 < subs.countP Sub.live := by omega
      obtain ⟨u, hu, hl⟩ := List.countP_pos_iff.mp this
      obtain ⟨pre, post, rfl⟩ := List.append_of_mem hu
      cases u with
      | exec h => exact .inl ⟨_, .exec⟩
      | send r => exact .inr ⟨r, _, .send⟩
      | sent => exact .inl ⟨_, .subDone⟩
      | gone => simp [Sub.live] at hl

/-- A live worker can act, or waits for input. -/
theorem live_step {s : State X} (hi : Inv s) {w : Worker X} (hw : w ∈ s.workers) (hl : w.live = true)
    (hidle : w = .idle → s.inClosed = true) : ∃ t, Step s t := by
  obtain ⟨pre, post, hs⟩ := List.append_of_mem hw
  have hput : ∀ r w', Worker.Step w (.put r) w' → ∃ t, Step s t := by
    intro r w' hst
    cases hc : s.collector with
    | count r => exact ⟨_, .count hc⟩
    | recv =>
      cases ho : s.outClosed with
      | false => exact ⟨_, .put hs hst hc ho⟩
      | true => exact ⟨_, .drained hc ho⟩
    | closing =>
      cases hd : s.doneClosed with
      | false => exact ⟨_, .closeDone hc hd⟩
      | true => have := hi.done.mp hd; simp_all
    | gone =>
      have h1 := hi.drained (.inr hc)
      have h2 := hi.out.mp h1
      have h3 := all_gone hi (hi.waited (.inr h2)) w hw
      simp [h3, Worker.live] at hl
  cases w with
  | idle => exact ⟨_, .eof (hidle rfl) hs .eof⟩
  | report => exact hput _ _ .report
  | busy c hs' subs n =>
    rcases busy_step (hi.ok _ hw) with ⟨w', h⟩ | ⟨r, w', h⟩
    · exact ⟨_, .local hs h⟩
    · exact hput r w' h
  | leaving =>
    have : 0 < s.workers.countP Worker.live := List.countP_pos_iff.mpr ⟨_, hw, hl⟩
    obtain ⟨n, hn⟩ : ∃ n, s.wg = n + 1 := ⟨s.wg - 1, by have := hi.wg; omega⟩
    exact ⟨_, .finish hs .leave hn⟩
  | gone => simp [Worker.live] at hl

theorem progress {s : State X} (hi : Inv s) (hw : s.workers ≠ []) (hr : s.main ≠ .returned) :
    ∃ t, Step s t := by
  cases hm : s.main with
  | feed rest =>
    have hc : s.inClosed = false := hi.feeding.mp ⟨rest, hm⟩
    cases rest with
    | nil => exact ⟨_, .closeIn hm hc⟩
    | cons c rest =>
      cases hws : s.workers with
      | nil => exact absurd hws hw
      | cons w ws =>
        have hmem : w ∈ s.workers := by simp [hws]
        cases w with
        | idle => exact ⟨_, .feed (pre := []) hm hc hws (.take c)⟩
        | leaving => have := hi.past _ hmem rfl; simp_all
        | gone => have := hi.past _ hmem rfl; simp_all
        | report => exact live_step hi hmem rfl (by simp)
        | busy => exact live_step hi hmem rfl (by simp)
  | wait =>
    cases hn : s.wg with
    | zero => exact ⟨_, .waited hm hn⟩
    | succ n =>
      have : 0 < s.workers.countP Worker.live := by have := hi.wg; omega
      obtain ⟨w, hw, hl⟩ := List.countP_pos_iff.mp this
      refine live_step hi hw hl fun _ => ?_
      cases h : s.inClosed with
      | true => rfl
      | false => obtain ⟨_, h⟩ := hi.feeding.mpr h; simp_all
  | closeOut =>
    cases ho : s.outClosed with
    | false => exact ⟨_, .closeOut hm ho⟩
    | true => have := hi.out.mp ho; simp_all
  | waitDone =>
    have ho : s.outClosed = true := hi.out.mpr (.inl hm)
    cases hc : s.collector with
    | count r => exact ⟨_, .count hc⟩
    | recv => exact ⟨_, .drained hc ho⟩
    | closing =>
      cases hd : s.doneClosed with
      | false => exact ⟨_, .closeDone hc hd⟩
      | true => have := hi.done.mp hd; simp_all
    | gone => exact ⟨_, .done hm (hi.done.mpr hc)⟩
  | returned => exact absurd hm hr

theorem no_panic {s : State X} (hi : Inv s) : ¬ Panics s := by
  intro h
  have fed : ∀ rest, s.main = .feed rest → s.inClosed = false := fun rest h => hi.feeding.mp ⟨rest, h⟩
  cases h with
  | sendIn hm hc => simp_all
  | closeIn hm hc => simp_all
  | closeOut hm ho => have := hi.out.mp ho; simp_all
  | closeDone hc hd => have := hi.done.mp hd; simp_all
  | sendOut hw hs ho =>
    have := all_gone hi (hi.waited (.inr (hi.out.mp ho))) _ hw
    subst this
    cases hs
  | done hw h0 =>
    have := all_gone hi h0 _ hw
    simp at this
  | subDone hw hs =>
    have := hi.ok _ hw
    simp only [Worker.Ok] at this
    have h2 : 0 < List.countP Sub.live _ := List.countP_pos_iff.mpr ⟨_, hs, rfl⟩
    omega

/-! ### Every schedule is finite -/

def Sub.cost : Sub X → Nat
  | .exec _ => 3 | .send _ => 2 | .sent => 1 | .gone => 0

def subsCost : List (Sub X) → Nat
  | [] => 0
  | u :: us => u.cost + 2 * (match u with | .exec _ | .send _ => 1 | _ => 0) + subsCost us

theorem subsCost_append (a b : List (Sub X)) : subsCost (a ++ b) = subsCost a + subsCost b := by
  induction a with
  | nil => simp [subsCost]
  | cons u us ih => simp [subsCost, ih]; omega

/-- An upper bound on the steps caused by a worker. -/
def Worker.cost : Worker X → Nat
  | .idle => 2
  | .report => 5
  | .busy _ hs subs _ => 3 + 6 * hs.length + subsCost subs
  | .leaving => 1
  | .gone => 0

def workersCost : List (Worker X) → Nat
  | [] => 0
  | w :: ws => w.cost + workersCost ws

theorem workersCost_append (a b : List (Worker X)) : workersCost (a ++ b) = workersCost a + workersCost b := by
  induction a with
  | nil => simp [workersCost]
  | cons u us ih => simp [workersCost, ih]; omega

/-- An upper bound on the steps caused by a case. -/
def caseCost (X : Setup) : Nat := 4 + 6 * X.harnesses.length

def Main.cost : Main X → Nat
  | .feed rest => 4 + caseCost X * rest.length
  | .wait => 3
  | .closeOut => 2
  | .waitDone => 1
  | .returned => 0

def Collector.cost : Collector → Nat
  | .recv => 2 | .count _ => 3 | .closing => 1 | .gone => 0

/-- Decreases with every step. -/
def State.cost (s : State X) : Nat := s.main.cost + workersCost s.workers + s.collector.cost

theorem start_cost (c : X.Case) : (start X c).cost ≤ 5 + 6 * X.harnesses.length := by
  unfold start
  split <;> simp [Worker.cost, subsCost]

theorem Worker.Step.cost {w w' : Worker X} {a : Act X} (h : Worker.Step w a w') :
    w'.cost + 1 + a.puts.length ≤ w.cost + (match a with | .take _ => caseCost X | _ => 0) := by
  cases h with
  | take c => have := start_cost c; simp only [Act.puts, caseCost, List.length_nil]; simp only [show (Worker.idle : Worker X).cost = 2 from rfl]; omega
  | _ =>
    simp [Worker.cost, Act.puts, subsCost_append, subsCost, Sub.cost] <;> omega

theorem Step.cost {s t : State X} (h : Step s t) : t.cost < s.cost := by
  cases h with
  | @feed c rest pre w w' post hm hi hw hs =>
    have := hs.cost
    simp only [Act.puts, List.length_nil] at this
    simp only [State.cost, hm, hw, Main.cost, workersCost_append, workersCost, List.length_cons,
      Nat.mul_add, Nat.mul_one]
    omega
  | @eof pre w w' post hi hw hs =>
    have := hs.cost
    simp [State.cost, hw, workersCost_append, workersCost, Act.puts] at this ⊢
    omega
  | @«local» pre w w' post hw hs =>
    have := hs.cost
    simp [State.cost, hw, workersCost_append, workersCost, Act.puts] at this ⊢
    omega
  | @put pre w w' post r hw hs hc ho =>
    have := hs.cost
    simp [State.cost, hw, hc, workersCost_append, workersCost, Act.puts, Collector.cost] at this ⊢
    omega
  | @finish pre w w' post n hw hs hn =>
    have := hs.cost
    simp [State.cost, hw, workersCost_append, workersCost, Act.puts] at this ⊢
    omega
  | @count r hc =>
    obtain ⟨h1, h2, -⟩ := add_rest s r
    simp [State.cost, hc, h1, h2, Collector.cost]
  | closeIn hm => simp [State.cost, hm, Main.cost]
  | drained hc => simp [State.cost, hc, Collector.cost]
  | closeDone hc => simp [State.cost, hc, Collector.cost]
  | waited hm => simp [State.cost, hm, Main.cost]
  | closeOut hm => simp [State.cost, hm, Main.cost]
  | done hm => simp [State.cost, hm, Main.cost]

theorem Steps.cost {n : Nat} {s t : State X} (h : Steps n s t) : n + t.cost ≤ s.cost := by
  induction h with
  | refl => simp
  | step _ hs ih => have := hs.cost; omega

theorem init_cost (n : Nat) (cases : List X.Case) :
    (Harness.init X n cases).cost = 6 + caseCost X * cases.length + 2 * n := by
  have : workersCost (List.replicate n (Worker.idle : Worker X)) = 2 * n := by
    induction n with
    | zero => rfl
    | succ n ih => simp [List.replicate_succ, workersCost, Worker.cost, ih]; omega
  simp [State.cost, Harness.init, Main.cost, this, Collector.cost]
  omega

end PGV.Harness
