import Verif.Java.Grpc

/-!
Properties of the gRPC interceptors (C46, C47). A message is *invalid* when validating it throws a
ValidationException.
-/

set_option linter.unusedSimpArgs false

namespace PGV.Props
open PGV PGV.Java

/-- Validating the message throws a ValidationException with this field and reason. -/
def Violates {M : Type} (assertValid : M → Run) (m : M) (field : String) (reason : Reason) : Prop :=
  assertValid m = .error (.validation field reason) ∨
    (assertValid m = .error (.unimplemented field) ∧ reason = [.s "UNIMPLEMENTED"])

theorem violates_iff {M : Type} {assertValid : M → Run} {m : M} {f : String} {r : Reason} :
    Violates assertValid m f r ↔ ∃ e, assertValid m = .error e ∧ asValidation e = some (f, r) := by
  unfold Violates asValidation
  constructor
  · rintro (h | ⟨h, rfl⟩)
    · exact ⟨_, h, rfl⟩
    · exact ⟨_, h, rfl⟩
  · rintro ⟨e, h, h'⟩
    cases e <;> simp_all

theorem serverRun_append {M : Type} (assertValid : M → Run) (a : Bool) (xs ys : List (Inbound M)) :
    serverRun assertValid a (xs ++ ys) = serverRun assertValid a xs ++
      serverRun assertValid (xs.foldl (fun s e => (serverStep assertValid s e).1) a) ys := by
  induction xs generalizing a with
  | nil => rfl
  | cons x xs ih => simp [serverRun, ih]

theorem aborted_stays {M : Type} (assertValid : M → Run) (xs : List (Inbound M)) :
    xs.foldl (fun s e => (serverStep assertValid s e).1) true = true := by
  induction xs with
  | nil => rfl
  | cons x xs ih =>
    have : (serverStep assertValid true x).1 = true := by
      cases x with
      | message m =>
        simp only [serverStep]
        split
        · rfl
        · split <;> rfl
      | halfClose => rfl
      | cancel => rfl
      | complete => rfl
      | ready => rfl
    simp only [List.foldl_cons, this, ih]

/-- What one callback can do. -/
theorem step_cases {M : Type} (assertValid : M → Run) (a : Bool) (x : Inbound M) :
    (∃ m, x = .message m ∧ assertValid m = .ok () ∧ serverStep assertValid a x = (a, [.deliver x])) ∨
    (∃ m f r, x = .message m ∧ Violates assertValid m f r ∧
      serverStep assertValid a x = (true, [.close ⟨"INVALID_ARGUMENT", f, r⟩])) ∨
    (∃ m w, x = .message m ∧ assertValid m = .error (.runtime w) ∧
      serverStep assertValid a x = (a, [.raise "unchecked exception"])) ∨
    (x = .halfClose ∧ serverStep assertValid a x = (a, if a then [] else [.deliver .halfClose])) ∨
    ((∀ m, x ≠ .message m) ∧ x ≠ .halfClose ∧ serverStep assertValid a x = (a, [.deliver x])) := by
  cases x with
  | message m =>
    cases e : assertValid m with
    | ok u => exact .inl ⟨m, rfl, e, by simp [serverStep, e]⟩
    | error err =>
      cases ea : asValidation err with
      | some fr =>
        refine .inr (.inl ⟨m, fr.1, fr.2, rfl, violates_iff.2 ⟨err, e, ea⟩, ?_⟩)
        simp [serverStep, e, ea, asStatus]
      | none =>
        cases err with
        | runtime w => exact .inr (.inr (.inl ⟨m, w, rfl, e, by simp [serverStep, e, asValidation]⟩))
        | validation f r => simp [asValidation] at ea
        | unimplemented f => simp [asValidation] at ea
  | halfClose =>
    refine .inr (.inr (.inr (.inl ⟨rfl, ?_⟩)))
    cases a <;> rfl
  | cancel => exact .inr (.inr (.inr (.inr ⟨by simp, by simp, rfl⟩)))
  | complete => exact .inr (.inr (.inr (.inr ⟨by simp, by simp, rfl⟩)))
  | ready => exact .inr (.inr (.inr (.inr ⟨by simp, by simp, rfl⟩)))

theorem mem_serverRun {M : Type} {assertValid : M → Run} {calls : List (Inbound M)} {a : Bool}
    {o : ServerOut M} (h : o ∈ serverRun assertValid a calls) :
    ∃ a' x, x ∈ calls ∧ o ∈ (serverStep assertValid a' x).2 := by
  induction calls generalizing a with
  | nil => cases h
  | cons x xs ih =>
    rcases List.mem_append.1 h with h | h
    · exact ⟨a, x, List.mem_cons_self, h⟩
    · obtain ⟨a', y, hy, ho⟩ := ih h
      exact ⟨a', y, List.mem_cons_of_mem _ hy, ho⟩

theorem not_violates {M : Type} {assertValid : M → Run} {m : M} (h : assertValid m = .ok ())
    (f : String) (r : Reason) : ¬ Violates assertValid m f r := by
  rintro (h' | ⟨h', -⟩) <;> rw [h] at h' <;> cases h'

/-! ### C46 -/

/-- **C46** Whatever callbacks arrive, in whatever order, the service only ever sees messages that
pass validation. -/
theorem C46_only_valid_delivered {M : Type} (assertValid : M → Run) (calls : List (Inbound M)) (m : M)
    (h : .deliver (.message m) ∈ serverRun assertValid false calls) : assertValid m = .ok () := by
  obtain ⟨a, x, -, ho⟩ := mem_serverRun h
  rcases step_cases assertValid a x with
    ⟨n, rfl, hv, e⟩ | ⟨n, f, r, rfl, hv, e⟩ | ⟨n, w, rfl, hv, e⟩ | ⟨rfl, e⟩ | ⟨hm, -, e⟩ <;>
    rw [e] at ho
  · simp only [List.mem_singleton, ServerOut.deliver.injEq, Inbound.message.injEq] at ho
    exact ho ▸ hv
  · simp at ho
  · simp at ho
  · cases a <;> simp at ho
  · simp only [List.mem_singleton, ServerOut.deliver.injEq] at ho
    exact absurd ho.symm (hm m)

/-- **C46** The call is closed by the interceptor exactly for the messages that violate their rules,
with the status INVALID_ARGUMENT and the field and reason of the violation. -/
theorem C46_closed_for_violations {M : Type} (assertValid : M → Run) (calls : List (Inbound M))
    (s : GrpcStatus) :
    .close s ∈ serverRun assertValid false calls ↔
      ∃ m f r, .message m ∈ calls ∧ Violates assertValid m f r ∧ s = ⟨"INVALID_ARGUMENT", f, r⟩ := by
  constructor
  · intro h
    obtain ⟨a, x, hx, ho⟩ := mem_serverRun h
    rcases step_cases assertValid a x with
      ⟨n, rfl, hv, e⟩ | ⟨n, f, r, rfl, hv, e⟩ | ⟨n, w, rfl, hv, e⟩ | ⟨rfl, e⟩ | ⟨hm, -, e⟩ <;>
      rw [e] at ho
    · simp at ho
    · exact ⟨n, f, r, hx, hv, by simpa using ho⟩
    · simp at ho
    · cases a <;> simp at ho
    · simp at ho
  · rintro ⟨m, f, r, hm, hv, rfl⟩
    obtain ⟨xs, ys, rfl⟩ := List.append_of_mem hm
    rw [serverRun_append]
    refine List.mem_append_right _ (List.mem_append_left _ ?_)
    obtain ⟨err, e, ea⟩ := violates_iff.1 hv
    simp [serverStep, e, ea, asStatus]

/-- **C46** At the first message that violates its rules, the call is closed; the callbacks before it
have reached the service unchanged and in order, and no half-close reaches the service afterwards (so
a unary method is never started). -/
theorem C46_first_violation {M : Type} (assertValid : M → Run) (xs ys : List (Inbound M)) (m : M)
    (f : String) (r : Reason) (hxs : ∀ n, .message n ∈ xs → assertValid n = .ok ())
    (hm : Violates assertValid m f r) :
    ∃ rest, serverRun assertValid false (xs ++ .message m :: ys) =
        xs.map .deliver ++ .close ⟨"INVALID_ARGUMENT", f, r⟩ :: rest ∧ .deliver .halfClose ∉ rest := by
  have hx : serverRun assertValid false xs = xs.map .deliver ∧
      xs.foldl (fun s e => (serverStep assertValid s e).1) false = false := by
    clear hm
    induction xs with
    | nil => exact ⟨rfl, rfl⟩
    | cons x xs ih =>
      have ih := ih (fun n hn => hxs n (List.mem_cons_of_mem _ hn))
      have hs : serverStep assertValid false x = (false, [.deliver x]) := by
        rcases step_cases assertValid false x with
          ⟨n, rfl, hv, e⟩ | ⟨n, f, r, rfl, hv, e⟩ | ⟨n, w, rfl, hv, e⟩ | ⟨rfl, e⟩ | ⟨hm, -, e⟩
        · exact e
        · exact absurd hv (not_violates (hxs n List.mem_cons_self) f r)
        · rw [hxs n List.mem_cons_self] at hv
          cases hv
        · exact e
        · exact e
      simp only [serverRun, hs, List.foldl_cons, List.map_cons, ih.1, ih.2, and_true]
      rfl
  obtain ⟨err, e, ea⟩ := violates_iff.1 hm
  have hs : serverStep assertValid false (.message m) =
      (true, [.close ⟨"INVALID_ARGUMENT", f, r⟩]) := by simp [serverStep, e, ea, asStatus]
  refine ⟨serverRun assertValid true ys, ?_, ?_⟩
  · rw [serverRun_append, hx.1, hx.2]
    simp [serverRun, hs]
  · have : ∀ a, a = true → .deliver .halfClose ∉ serverRun assertValid a ys := by
      clear hs hx hxs
      induction ys with
      | nil => intro a _ h; cases h
      | cons y ys ih =>
        rintro a rfl h
        rcases List.mem_append.1 h with h | h
        · rcases step_cases assertValid true y with
            ⟨n, rfl, hv, e⟩ | ⟨n, f, r, rfl, hv, e⟩ | ⟨n, w, rfl, hv, e⟩ | ⟨rfl, e⟩ | ⟨hm, hy, e⟩ <;>
            rw [e] at h
          · simp at h
          · simp at h
          · simp at h
          · simp at h
          · simp only [List.mem_singleton, ServerOut.deliver.injEq] at h
            exact hy h.symm
        · exact ih _ (by simpa using aborted_stays assertValid [y]) h
    exact this true rfl

/-- **C46** When all messages are valid the interceptor is transparent. -/
theorem C46_transparent {M : Type} (assertValid : M → Run) (calls : List (Inbound M))
    (h : ∀ n, .message n ∈ calls → assertValid n = .ok ()) :
    serverRun assertValid false calls = calls.map .deliver := by
  induction calls with
  | nil => rfl
  | cons x xs ih =>
    have ih := ih (fun n hn => h n (List.mem_cons_of_mem _ hn))
    have hs : serverStep assertValid false x = (false, [.deliver x]) := by
      rcases step_cases assertValid false x with
        ⟨n, rfl, hv, e⟩ | ⟨n, f, r, rfl, hv, e⟩ | ⟨n, w, rfl, hv, e⟩ | ⟨rfl, e⟩ | ⟨hm, -, e⟩
      · exact e
      · exact absurd hv (not_violates (h n List.mem_cons_self) f r)
      · rw [h n List.mem_cons_self] at hv
        cases hv
      · exact e
      · exact e
    simp [serverRun, hs, ih]

/-- **C46, negation** On a stream, each further message that violates its rules closes the call again
(gRPC throws IllegalStateException on the second `close`), and further valid messages still reach the
service after the call was closed. -/
theorem C46_closed_again {M : Type} (assertValid : M → Run) (bad good : M) (f : String) (r : Reason)
    (hb : Violates assertValid bad f r) (hg : assertValid good = .ok ()) :
    serverRun assertValid false [.message bad, .message good, .message bad] =
      [.close ⟨"INVALID_ARGUMENT", f, r⟩, .deliver (.message good), .close ⟨"INVALID_ARGUMENT", f, r⟩] := by
  obtain ⟨err, e, ea⟩ := violates_iff.1 hb
  simp [serverRun, serverStep, e, ea, hg, asStatus]

/-- Closings by the interceptor. -/
def closings {M : Type} (out : List (ServerOut M)) : Nat :=
  (out.filter fun | .close _ => true | _ => false).length

/-- Messages among the callbacks. -/
def messages {M : Type} (calls : List (Inbound M)) : List M :=
  calls.filterMap fun | .message m => some m | _ => none

/-- **C46, partial** Missing: at most one closing of streams with several invalid messages
(`C46_closed_again`). A call with a single request message is closed at most once. -/
theorem C46_closed_once_partial {M : Type} (assertValid : M → Run) (calls : List (Inbound M))
    (h : (messages calls).length ≤ 1) : closings (serverRun assertValid false calls) ≤ 1 := by
  have key : ∀ a, closings (serverRun assertValid a calls) ≤ (messages calls).length := by
    clear h
    induction calls with
    | nil => intro a; exact Nat.le_refl _
    | cons x xs ih =>
      intro a
      have ih := ih (serverStep assertValid a x).1
      have e1 : closings (serverRun assertValid a (x :: xs)) =
          closings (serverStep assertValid a x).2 +
            closings (serverRun assertValid (serverStep assertValid a x).1 xs) := by
        simp [closings, serverRun]
      rw [e1]
      rcases step_cases assertValid a x with
        ⟨n, rfl, hv, e⟩ | ⟨n, f, r, rfl, hv, e⟩ | ⟨n, w, rfl, hv, e⟩ | ⟨rfl, e⟩ | ⟨hm, hy, e⟩
      · simp only [e, closings, messages, List.filterMap_cons] at ih ⊢
        simp
        omega
      · simp only [e, closings, messages, List.filterMap_cons] at ih ⊢
        simp
        omega
      · simp only [e, closings, messages, List.filterMap_cons] at ih ⊢
        simp
        omega
      · cases a <;> simp_all [closings, messages]
      · cases x <;> simp_all [closings, messages]
  exact Nat.le_trans (key false) h

/-- A service whose only rule is that the number is positive; three callbacks of a unary call with an
invalid request: the service sees nothing but the completion. -/
example : let positive : Nat → Run := fun n => if n = 0 then .error (.validation "n" "must be positive") else .ok ()
    Violates positive 0 "n" "must be positive" ∧ positive 1 = .ok () ∧
      serverRun positive false [.message 0, .halfClose, .complete] =
        [.close ⟨"INVALID_ARGUMENT", "n", "must be positive"⟩, .deliver .complete] :=
  ⟨.inl rfl, rfl, by decide⟩

/-! ### C47 -/

/-- What the underlying call receives. -/
def forwarded {M : Type} : ClientOut M → Option (Outbound M)
  | .forward o => some o
  | _ => none

/-- The calls that should get through: all but messages that do not validate. -/
def Allowed {M : Type} (assertValid : M → Run) (o : Outbound M) : Prop :=
  ∀ m, o = .message m → assertValid m = .ok ()

/-- **C47** The transport receives exactly the calls that the application made, in order, without the
messages that fail validation. -/
theorem C47_only_valid_sent {M : Type} (assertValid : M → Run)
    [DecidablePred (Allowed assertValid)] (calls : List (Outbound M)) :
    (calls.map (clientStep assertValid)).filterMap forwarded =
      calls.filter (fun o => decide (Allowed assertValid o)) := by
  induction calls with
  | nil => rfl
  | cons c cs ih =>
    rw [List.map_cons, List.filterMap_cons, List.filter_cons, ih]
    cases c with
    | message m =>
      have h1 : Allowed assertValid (.message m) ↔ assertValid m = .ok () := by simp [Allowed]
      cases e : assertValid m with
      | ok u =>
        have h2 := h1.2 e
        simp [clientStep, e, forwarded, h2]
      | error err =>
        have h2 : ¬ Allowed assertValid (.message m) := by rw [h1, e]; simp
        cases ea : asValidation err <;> simp [clientStep, e, ea, forwarded, h2]
    | _ => simp [clientStep, forwarded, Allowed]

/-- **C47** Sending a message that violates its rules throws a status exception with INVALID_ARGUMENT
and the field and reason of the violation; nothing else makes the interceptor throw one. -/
theorem C47_status {M : Type} (assertValid : M → Run) (c : Outbound M) (s : GrpcStatus) :
    clientStep assertValid c = .status s ↔
      ∃ m f r, c = .message m ∧ Violates assertValid m f r ∧ s = ⟨"INVALID_ARGUMENT", f, r⟩ := by
  constructor
  · intro h
    cases c with
    | message m =>
      simp only [clientStep] at h
      split at h
      · cases h
      · rename_i err e
        split at h
        · rename_i f r ea
          simp only [ClientOut.status.injEq] at h
          exact ⟨m, f, r, rfl, violates_iff.2 ⟨err, e, ea⟩, h.symm⟩
        · cases h
    | _ => simp [clientStep] at h
  · rintro ⟨m, f, r, rfl, hv, rfl⟩
    obtain ⟨err, e, ea⟩ := violates_iff.1 hv
    simp [clientStep, e, ea, asStatus]

/-- A call with a valid, an invalid and a valid message. -/
example : let positive : Nat → Run := fun n => if n = 0 then .error (.validation "n" "must be positive") else .ok ()
    [.start, .message 3, .message 0, .message 4, .halfClose].map (clientStep positive) =
      [.forward .start, .forward (.message 3), .status ⟨"INVALID_ARGUMENT", "n", "must be positive"⟩,
        .forward (.message 4), .forward .halfClose] := by decide

end PGV.Props
