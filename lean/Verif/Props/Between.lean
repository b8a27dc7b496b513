import Verif.Spec.Between
import Verif.Props.Grpc
import Verif.Props.Verdict

/-!
C108: what one process has validated, the next one does not refuse.
-/

set_option linter.unusedSimpArgs false

namespace PGV.Props
open PGV PGV.Java PGV.Spec PGV.Spec.Between PGV.Spec.Simple

theorem received_valid {M : Type} {assertValid : M → Run} {calls : List (Outbound M)} {m : M}
    (h : .message m ∈ received assertValid calls) : .message m ∈ calls ∧ assertValid m = .ok () := by
  obtain ⟨o, ho, ha⟩ := List.mem_filterMap.1 h
  obtain ⟨c, hc, rfl⟩ := List.mem_map.1 ho
  cases c with
  | message n =>
    simp only [clientStep] at ha
    cases e : assertValid n with
    | ok =>
      rw [e] at ha
      simp only [arrives, Option.some.injEq, Inbound.message.injEq] at ha
      subst ha
      exact ⟨hc, e⟩
    | error err =>
      rw [e] at ha
      cases hv : asValidation err <;> simp [hv, arrives] at ha
  | start => simp [clientStep, arrives] at ha
  | request => simp [clientStep, arrives] at ha
  | halfClose => simp [clientStep, arrives] at ha
  | cancel => simp [clientStep, arrives] at ha

/-- **C108, partial** A server that validates passes on everything that comes from a client that validates with the same rules,
in order, and does not close the call, whenever their clocks stand, if no rule of the types in the messages compares
with the current time. Missing: rules that do, see `C108_clock`. -/
theorem C108_both_ends_partial (J : JEnv) (S : Schema) (t t' : Int) (calls : List (Outbound Val))
    (h : ∀ m, .message m ∈ calls → Without Relative S m) :
    serverRun (assertValid { J with nowMs := t' } S) false (received (assertValid { J with nowMs := t } S) calls) =
      (received (assertValid { J with nowMs := t } S) calls).map .deliver := by
  refine C46_transparent _ _ fun m hm => ?_
  obtain ⟨h1, h2⟩ := received_valid hm
  rw [C100_java J S m (h m h1) t']
  rwa [C100_java J S m (h m h1) t] at h2

open Diaries in
/-- **C108** (negation) With a rule that does, the server refuses what the client has accepted if its clock is behind:
here by two seconds. -/
theorem C108_clock :
    let S := diaries [seen] []
    let m := diary [("Seen", .ts ⟨5, 0⟩)]
    received (assertValid { jenv with nowMs := 6000 } S) [.message m] = [.message m] ∧
    ∃ s, serverRun (assertValid { jenv with nowMs := 4000 } S) false [.message m] = [.close s] :=
  ⟨rfl, _, rfl⟩

/-- **C108, partial** A Java server that validates passes on all messages that a Go client has accepted with `Validate()` or
`ValidateAll()` before sending them, if their rules are simple. Missing: other rules, see the negations of C60 and C102. -/
theorem C108_go_client_partial (E : Go.Env) (J : JEnv) (Q : Cpp.CEnv) (P : Py.PEnv) (S : Schema) (hO : Others E J Q P S)
    (all : Bool) (msgs : List Val) (hg : ∀ m ∈ msgs, ∃ typ fs os d, m = .msg typ fs os ∧ S typ = .generated d ∧ d.ignored = false)
    (hs : ∀ m ∈ msgs, Simple P S m ∧ WellTyped S m) (hv : ∀ m ∈ msgs, Go.validate E S all m = none) :
    serverRun (assertValid J S) false (msgs.map Inbound.message ++ [Inbound.halfClose]) =
      msgs.map (fun m => .deliver (.message m)) ++ [.deliver .halfClose] := by
  rw [C46_transparent (assertValid J S) (msgs.map Inbound.message ++ [Inbound.halfClose])]
  · simp
  intro m hm
  have hm : m ∈ msgs := by
    rcases List.mem_append.1 hm with h | h
    · obtain ⟨n, hn, h⟩ := List.mem_map.1 h
      cases h
      exact hn
    · simp at h
  have hv' : Go.validate E S false m = none := by
    have := hv m hm
    cases all with
    | false => exact this
    | true => exact (Go.validate_modes E S m).1 this
  obtain ⟨typ, fs, os, d, rfl, hS, hi⟩ := hg m hm
  exact (C101_agree E J Q P S hO typ d hS hi fs os (hs _ hm).1 (hs _ hm).2).1.2 hv'

/-- **C108, partial** And at the first message that Go's `Validate()` would have refused, it closes the call with
INVALID_ARGUMENT: the service has seen the messages before it, and will not see the end of the messages. Missing:
as above. -/
theorem C108_go_refused_partial (E : Go.Env) (J : JEnv) (Q : Cpp.CEnv) (P : Py.PEnv) (S : Schema) (hO : Others E J Q P S)
    (hJ : ∀ w, Outside S w → IsVerdict (J.other w)) (good rest : List Val) (bad : Val)
    (hg : ∀ m ∈ bad :: good, ∃ typ fs os d, m = .msg typ fs os ∧ S typ = .generated d ∧ d.ignored = false)
    (hs : ∀ m ∈ bad :: good, Simple P S m ∧ WellTyped S m) (hv : ∀ m ∈ good, Go.validate E S false m = none)
    (hb : Go.validate E S false bad ≠ none) :
    ∃ field reason after,
      serverRun (assertValid J S) false (good.map .message ++ .message bad :: (rest.map .message ++ [.halfClose])) =
        (good.map .message).map .deliver ++ .close ⟨"INVALID_ARGUMENT", field, reason⟩ :: after ∧
      .deliver .halfClose ∉ after := by
  have agree : ∀ m ∈ bad :: good, assertValid J S m = .ok () ↔ Go.validate E S false m = none := by
    intro m hm
    obtain ⟨typ, fs, os, d, rfl, hS, hi⟩ := hg m hm
    exact (C101_agree E J Q P S hO typ d hS hi fs os (hs _ hm).1 (hs _ hm).2).1
  have hverd := C102_java_partial J S hJ bad (settled_simple (hs bad (.head _)).1)
  have hviol : ∃ f r, Violates (assertValid J S) bad f r := by
    cases hr : assertValid J S bad with
    | ok => exact (hb ((agree bad (.head _)).1 hr)).elim
    | error e =>
      have := hverd e hr
      cases e with
      | validation f r => exact ⟨f, r, .inl hr⟩
      | unimplemented f => exact ⟨f, _, .inr ⟨hr, rfl⟩⟩
      | runtime w => exact (this rfl).elim
  obtain ⟨f, r, hviol⟩ := hviol
  obtain ⟨after, h1, h2⟩ := C46_first_violation (assertValid J S) (good.map .message)
    (rest.map .message ++ [.halfClose]) bad f r (fun n hn => by
      obtain ⟨k, hk, he⟩ := List.mem_map.1 hn
      cases he
      exact (agree _ (.tail _ hk)).2 (hv _ hk)) hviol
  exact ⟨f, r, after, h1, h2⟩

open Orders in
/-- The hypotheses are met: of two orders, the second is refused for a tag four levels down. -/
example : ∃ field reason after,
    serverRun (assertValid jenv orders) false ([order 1 "old"].map .message ++ .message (order 1 "new") :: ([].map .message ++ [.halfClose])) =
      ([order 1 "old"].map .message).map .deliver ++ .close ⟨"INVALID_ARGUMENT", field, reason⟩ :: after ∧
    .deliver .halfClose ∉ after := by
  refine C108_go_refused_partial Fixtures.env jenv cenv penv orders others (fun w _ => by intro e h; cases h) _ _ _ ?_ ?_ ?_ ?_
  · intro m hm
    simp only [List.mem_cons, List.not_mem_nil, or_false] at hm
    rcases hm with rfl | rfl <;> exact ⟨"Order", _, _, _, rfl, rfl, rfl⟩
  · intro m hm
    simp only [List.mem_cons, List.not_mem_nil, or_false] at hm
    rcases hm with rfl | rfl <;> exact ⟨simple_orders _, typed_order 1 ⟨by decide, by decide⟩ _ (Cpp.utf8_ascii (by decide))⟩
  · intro m hm
    simp only [List.mem_cons, List.not_mem_nil, or_false] at hm
    subst hm
    decide +kernel
  · decide +kernel

open Orders in
/-- A client that sends two orders, of which its interceptor refuses the second; no rule compares with the time. -/
example : (∀ m, Outbound.message m ∈ [.start, .message (order 1 "old"), .message (order 1 "new"), .halfClose] → Without Relative orders m) ∧
    received (assertValid { jenv with nowMs := 6000 } orders) [.start, .message (order 1 "old"), .message (order 1 "new"), .halfClose] =
      [.message (order 1 "old"), .halfClose] :=
  ⟨fun _ _ => PGV.Simple.clock_free (simple_orders _), rfl⟩

end PGV.Props
