import Verif.Lemmas.Raises
import Verif.Lemmas.Tpl
import Verif.Lemmas.Times
import Verif.Spec.Reason

/-!
Reasons of violations: at every check, the text is false of the value at hand and true of every value
that the rules accept.
-/

set_option linter.unusedSimpArgs false

namespace PGV.Go
open PGV Exec PGV.Spec

/-- Raised at the context, with a reason that is false of the value and true of accepted ones. -/
def Tells {α : Type} (c : Ctx) (R : List Piece → α → Prop) (Acc : α → Prop) (v : α) (e : Err) : Prop :=
  ∃ reason cause, PlainCause cause ∧ e = .viol c.msg ⟨c.field, c.index⟩ reason cause c.onKey ∧
    ¬ R reason v ∧ ∀ u, Acc u → R reason u

section
variable {α : Type} {c : Ctx} {R : List Piece → α → Prop} {Acc Acc' : α → Prop} {v : α}

theorem Tells.mono {e : Err} (h : Tells c R Acc v e) (hA : ∀ u, Acc' u → Acc u) : Tells c R Acc' v e := by
  obtain ⟨r, x, h1, h2, h3, h4⟩ := h
  exact ⟨r, x, h1, h2, h3, fun u hu => h4 u (hA u hu)⟩

theorem tells_check {all b : Bool} {reason : List Piece} (h1 : b = true → ¬ R reason v)
    (h2 : ∀ u, Acc u → R reason u) :
    Raises (Tells c R Acc v) (Exec.when b (report all (err c reason))) :=
  Raises.whenIf fun hb => Raises.report ⟨reason, none, trivial, rfl, h1 hb, h2⟩

theorem tells_cause {all : Bool} {reason : List Piece} {t : String} (h1 : ¬ R reason v)
    (h2 : ∀ u, Acc u → R reason u) :
    Raises (Tells c R Acc v) (report all (errCause c (.lib t) reason)) :=
  Raises.report ⟨reason, some (.lib t), trivial, rfl, h1, h2⟩

end

/-- A passing check of one of the values the rules accept. -/
theorem passes {W : Err → Prop} {x : Bool → Exec} {P : Prop} (h : Ok W x P) (hP : P) :
    x false [] = .ok [] := by
  rw [h.fast, h.spec.2 hP]

theorem when_passes {b : Bool} {e : Err} (h : Exec.when b (report false e) [] = .ok []) : b = false := by
  cases b
  · rfl
  · simp [Exec.when, report, ret] at h

section
variable (E : Env) (e : ElemT)

theorem Num.le_iff (a b : Num) : a.le b = true ↔ ∃ x y, numVal a = some x ∧ numVal b = some y ∧ x ≤ y := by
  rw [numVal_eq_key, numVal_eq_key]
  unfold Num.le
  cases a.key <;> cases b.key <;> simp

theorem Num.lt_iff (a b : Num) : a.lt b = true ↔ ∃ x y, numVal a = some x ∧ numVal b = some y ∧ x < y := by
  rw [numVal_eq_key, numVal_eq_key]
  unfold Num.lt
  cases a.key <;> cases b.key <;> simp

theorem ltgt_tells (all : Bool) (c : Ctx) (r : NumRules) (v : Num) :
    Raises (Tells c (fun p n => Reading E e p (.sc (.num n)))
      (fun n => ∀ x, numVal n = some x → RangeOk (numUpper r) (numLower r) x) v) (ltgtTpl all c r v) := by
  have pass : ∀ u, (∀ x, numVal u = some x → RangeOk (numUpper r) (numLower r) x) →
      ltgtTpl false c r u [] = .ok [] := fun u hu => passes (numRange_dec c r u) hu
  unfold ltgtTpl at pass ⊢
  repeat' (first
    | exact Raises.skip
    | split)
  all_goals
    refine tells_check ?_ ?_
    · intro h
      simp only [Bool.or_eq_true, Bool.and_eq_true, Num.ge, Num.gt, Num.le_iff, Num.lt_iff] at h
      simp [Reading, rangeReading, valueReading, content, amount, limit]
      grind
    · intro u hu
      have h := pass u hu
      simp only [*, if_true, if_false, reduceCtorEq, Bool.false_eq_true] at h
      have h := when_passes h
      simp only [← Bool.not_eq_true, Bool.or_eq_true, Bool.and_eq_true, Num.ge, Num.gt, Num.le_iff, Num.lt_iff] at h
      simp [Reading, rangeReading, valueReading, content, amount, limit]
      grind

theorem list_tells {α : Type} {c : Ctx} {R : List Piece → α → Prop} {Acc : α → Prop} {v : α} {all : Bool}
    {β : Type} {ins notIns : List β} {memIn memNot : Bool} {p q : List Piece}
    (h1 : ins ≠ [] → memIn = false → ¬ R p v) (h2 : ins ≠ [] → ∀ u, Acc u → R p u)
    (h3 : ins = [] → notIns ≠ [] → memNot = true → ¬ R q v)
    (h4 : ins = [] → notIns ≠ [] → ∀ u, Acc u → R q u) :
    Raises (Tells c R Acc v)
      (if !ins.isEmpty then Exec.when (!memIn) (report all (err c p))
        else if !notIns.isEmpty then Exec.when memNot (report all (err c q))
        else skip) := by
  cases ins with
  | cons a as => exact tells_check (fun h => h1 (by simp) (by simpa using h)) (h2 (by simp))
  | nil =>
    cases notIns with
    | cons a as => exact tells_check (fun h => h3 rfl (by simp) h) (h4 rfl (by simp))
    | nil => exact Raises.skip

/-- Numbers that satisfy rules although they are not empty. -/
def NumRest (r : NumRules) (v : Num) : Prop :=
  (∀ k, r.const = some k → numSame v k) ∧
  (∀ x, numVal v = some x → RangeOk (numUpper r) (numLower r) x) ∧ ListOk numSame r.ins r.notIns v

theorem num_tells (all : Bool) (c : Ctx) (r : NumRules) (v : Num) :
    Raises (Tells c (fun p n => Reading E e p (.sc (.num n))) (NumRest r) v) (numTpl all c r v) := by
  unfold numTpl
  refine Raises.skipEmpty (Raises.seq ?_ (Raises.seq ?_ ?_))
  · unfold numConstTpl
    split
    · rename_i k hk
      refine tells_check ?_ fun u hu => ?_
      · intro h
        have h : ¬ v.eq k = true := by simpa using h
        rw [Num.eq_iff] at h
        exact h
      · exact hu.1 k hk
    · exact Raises.skip
  · exact (ltgt_tells E e all c r v).mono fun x hx => hx.mono fun u hu => hu.2.1
  · refine list_tells ?_ ?_ ?_ ?_
    · intro _ h hR
      have := hR _ rfl
      obtain ⟨k, hk, hs⟩ := this
      have h : ¬ (r.ins.any fun k => v.eq k) = true := by simp [h]
      exact h (List.any_eq_true.2 ⟨k, hk, (Num.eq_iff _ _).2 hs⟩)
    · intro hi u hu P hP
      cases hP
      exact hu.2.2.1 hi
    · intro _ _ h hR
      obtain ⟨k, hk, hs⟩ := List.any_eq_true.1 h
      exact hR _ rfl ⟨k, hk, (Num.eq_iff _ _).1 hs⟩
    · intro hi _ u hu P hP
      cases hP
      rintro ⟨k, hk, hs⟩
      exact hu.2.2.2 hi k hk hs

theorem bool_tells (all : Bool) (c : Ctx) (r : BoolRules) (v : Bool) :
    Raises (Tells c (fun p b => Reading E e p (.sc (.bool b))) (fun b => ∀ k, r.const = some k → b = k) v)
      (boolTpl all c r v) := by
  unfold boolTpl
  split
  · rename_i k hk
    refine tells_check ?_ fun u hu => hu k hk
    intro h hR
    have hR : v = k := hR
    simp [hR] at h
  · exact Raises.skip

theorem strList_tells {c : Ctx} {all : Bool} {Acc : Bytes → Prop} (ins notIns : List Bytes) (v : Bytes)
    (f : Bytes → Val) (hf : ∀ l s, listed (.bytess l) (content (f s)) = some (s ∈ l))
    (hA : ∀ u, Acc u → ListOk (· = ·) ins notIns u) :
    Raises (Tells c (fun p s => Reading E e p (f s)) Acc v)
      (if !ins.isEmpty then Exec.when (!(ins.contains v)) (report all (err c [.s "value must be in list ", .bytess ins]))
        else if !notIns.isEmpty then
          Exec.when (notIns.contains v) (report all (err c [.s "value must not be in list ", .bytess notIns]))
        else skip) := by
  refine list_tells ?_ ?_ ?_ ?_
  · intro _ h hR
    have := hR _ (hf _ _)
    simp [this] at h
  · intro hi u hu P hP
    rw [hf] at hP; cases hP
    obtain ⟨k, hk, rfl⟩ := (hA u hu).1 hi
    exact hk
  · intro _ _ h hR
    exact hR _ (hf _ _) (by simpa using h)
  · intro hi _ u hu P hP
    rw [hf] at hP; cases hP
    intro hk
    exact (hA u hu).2 hi u hk rfl

/-- The shape shared by the length checks. -/
theorem len_tells {c : Ctx} {all : Bool} {Acc : Bytes → Prop} (len min max : Option Nat) (v : Bytes)
    (f : Bytes → Val) (m : Bytes → Nat) (u w : String)
    (hu : ∀ s, size u (content (f s)) = some (m s)) (hw : ∀ s, size w (content (f s)) = some (m s))
    (hA : ∀ s, Acc s → LenOk len min max (m s)) :
    Raises (Tells c (fun p s => Reading E e p (f s)) Acc v)
      (if len.isSome || (min.isSome && max.isSome && optN min == optN max) then
        if len.isSome then
          Exec.when (m v != optN len) (report all (err c [.s "value length must be ", .nat (optN len), .s u]))
        else
          Exec.when (m v != optN min) (report all (err c [.s "value length must be ", .nat (optN min), .s u]))
      else if min.isSome then
        if max.isSome then
          Exec.when (decide (m v < optN min) || decide (m v > optN max))
            (report all (err c [.s "value length must be between ", .nat (optN min), .s " and ",
              .nat (optN max), .s w]))
        else
          Exec.when (decide (m v < optN min))
            (report all (err c [.s "value length must be at least ", .nat (optN min), .s u]))
      else if max.isSome then
        Exec.when (decide (m v > optN max))
          (report all (err c [.s "value length must be at most ", .nat (optN max), .s u]))
      else skip) := by
  have step : ∀ (b : Bool) (p : List Piece) (good : Nat → Prop),
      (∀ s, Reading E e p (f s) ↔ ∀ k, some (m s) = some k → good k) →
      (b = true → ¬ good (m v)) → (∀ s, LenOk len min max (m s) → good (m s)) →
      Raises (Tells c (fun p s => Reading E e p (f s)) Acc v) (Exec.when b (report all (err c p))) := by
    intro b p good h1 h2 h3
    refine tells_check ?_ fun s hs => ?_
    · intro hb hR
      exact h2 hb ((h1 v).1 hR _ rfl)
    · exact (h1 s).2 fun k hk => by cases hk; exact h3 s (hA s hs)
  cases len with
  | some n =>
    simp only [Option.isSome_some, Bool.true_or, if_true, optN]
    refine step _ _ (· = n) (fun s => by rw [← hu]; rfl) (by simp) (by simp [LenOk])
  | none =>
    simp only [Option.isSome_none, Bool.false_or, Bool.false_eq_true, if_false]
    cases min with
    | none =>
      cases max with
      | none => exact Raises.skip
      | some b =>
        refine step _ _ (· ≤ b) (fun s => by rw [← hu]; rfl) (by simp [optN]) (by simp [LenOk])
    | some a =>
      cases max with
      | none =>
        refine step _ _ (a ≤ ·) (fun s => by rw [← hu]; rfl)
          (fun h => Nat.not_le.2 (of_decide_eq_true h)) (by simp [LenOk])
      | some b =>
        simp only [Option.isSome_some, Bool.and_self, Bool.true_and, optN, if_true]
        split
        · rename_i hab
          have hab : a = b := by simpa using hab
          refine step _ _ (· = a) (fun s => by rw [← hu]; rfl) (by simp) ?_
          intro s hs
          simp [LenOk] at hs
          omega
        · refine step _ _ (fun k => a ≤ k ∧ k ≤ b) (fun s => by rw [← hw]; rfl) ?_ (by simp [LenOk])
          intro h
          rw [Bool.or_eq_true] at h
          rcases h with h | h
          · have : m v < a := of_decide_eq_true h
            omega
          · have : m v > b := of_decide_eq_true h
            omega

/-- Strings that satisfy rules although they are not empty. -/
def StrRest (r : StringRules) (s : Bytes) : Prop :=
  (∀ k, r.const = some k → s = k) ∧
  ListOk (· = ·) r.ins r.notIns s ∧
  LenOk r.len r.minLen r.maxLen (runeCount s) ∧
  LenOk r.lenBytes r.minBytes r.maxBytes s.length ∧
  (∀ p, r.pfx = some p → p <+: s) ∧
  (∀ p, r.sfx = some p → p <:+ s) ∧
  (∀ p, r.contains = some p → p <:+: s) ∧
  (∀ p, r.notContains = some p → ¬ p <:+: s) ∧
  WellKnownOk E r.wellKnown s ∧
  (∀ p, r.pattern = some p → E.matchRe p s = true)

theorem strAffix_tells (all : Bool) (c : Ctx) (r : StringRules) (v : Bytes) :
    Raises (Tells c (fun p s => Reading E e p (.sc (.str s))) (StrRest E r) v) (strAffixTpl all c r v) := by
  unfold strAffixTpl
  refine Raises.seq ?_ (Raises.seq ?_ (Raises.seq ?_ ?_))
  · cases hk : r.pfx with
    | none => exact Raises.skip
    | some p =>
      refine tells_check ?_ fun u hu q s hq hs => ?_
      · intro h hR
        have := (hasPrefix_iff v p).2 (hR p v rfl rfl)
        simp [optS, this] at h
      · cases hq; cases hs; exact hu.2.2.2.2.1 p hk
  · cases hk : r.sfx with
    | none => exact Raises.skip
    | some p =>
      refine tells_check ?_ fun u hu q s hq hs => ?_
      · intro h hR
        have := (hasSuffix_iff v p).2 (hR p v rfl rfl)
        simp [optS, this] at h
      · cases hq; cases hs; exact hu.2.2.2.2.2.1 p hk
  · cases hk : r.contains with
    | none => exact Raises.skip
    | some p =>
      refine tells_check ?_ fun u hu q s hq hs => ?_
      · intro h hR
        have := (containsSub_iff v p).2 (hR p v rfl rfl)
        simp [optS, this] at h
      · cases hq; cases hs; exact hu.2.2.2.2.2.2.1 p hk
  · cases hk : r.notContains with
    | none => exact Raises.skip
    | some p =>
      refine tells_check ?_ fun u hu q s hq hs => ?_
      · intro h hR
        have := mt (containsSub_iff v p).1 (hR p v rfl rfl)
        simp [optS, this] at h
      · cases hq; cases hs; exact hu.2.2.2.2.2.2.2.1 p hk

theorem strWellKnown_tells (all : Bool) (c : Ctx) (r : StringRules) (v : Bytes) :
    Raises (Tells c (fun p s => Reading E e p (.sc (.str s))) (fun s => WellKnownOk E r.wellKnown s) v)
      (strWellKnownTpl E all c r v) := by
  have four : ∀ ip : Bytes, (ipTo4 ip).isNone = false ↔ IPv4Bytes ip := by
    intro ip; rw [← ipTo4_iff]; cases ipTo4 ip <;> simp
  unfold strWellKnownTpl
  cases hw : r.wellKnown with
  | none =>
    simp only [StringRules.getIp, StringRules.getIpv4, StringRules.getIpv6, StringRules.getEmail,
      StringRules.getHostname, StringRules.getAddress, StringRules.getUri, StringRules.getUriRef,
      StringRules.getUuid, hw]
    exact Raises.skip
  | some w =>
    cases w with
    | regex k =>
      simp only [StringRules.getIp, StringRules.getIpv4, StringRules.getIpv6, StringRules.getEmail,
        StringRules.getHostname, StringRules.getAddress, StringRules.getUri, StringRules.getUriRef,
        StringRules.getUuid, hw]
      exact Raises.skip
    | _ b =>
      cases b
      · simp only [StringRules.getIp, StringRules.getIpv4, StringRules.getIpv6,
          StringRules.getEmail, StringRules.getHostname, StringRules.getAddress,
          StringRules.getUri, StringRules.getUriRef, StringRules.getUuid, hw]
        exact Raises.skip
      · simp only [StringRules.getIp, StringRules.getIpv4, StringRules.getIpv6,
          StringRules.getEmail, StringRules.getHostname, StringRules.getAddress,
          StringRules.getUri, StringRules.getUriRef, StringRules.getUuid, hw, WellKnownOk,
          if_true, if_false, Bool.false_eq_true]
        first
          | (split
             · rename_i x hx
               refine tells_cause ?_ ?_
               · intro hR
                 have := hR v rfl
                 first
                   | rw [← validateEmail_iff] at this
                   | rw [← validateHostname_iff] at this
                   | rw [← validateUuid_iff] at this
                 rw [this] at hx; simp at hx
               · intro u hu s hs
                 cases hs
                 exact hu
             · exact Raises.skip; done)
          | (refine tells_check ?_ ?_
             · intro h hR
               obtain ⟨ip, hip⟩ := hR.1 v rfl
               first
                 | (obtain ⟨hip, h4⟩ := hip
                    rw [hip] at h
                    rw [← four] at h4
                    cases h5 : ipTo4 ip <;> simp [h5] at h h4)
                 | (rw [hip] at h
                    simp at h)
               done
             · intro u hu
               refine ⟨fun s hs => ?_, fun s hs => ?_⟩
               · cases hs; exact hu
               · cases hs
             done)
          | (split
             · rename_i x hx
               refine tells_check ?_ ?_
               · intro h hR
                 rcases hR v rfl with h' | ⟨ip, h'⟩
                 · rw [← validateHostname_iff] at h'; rw [h'] at hx; simp at hx
                 · rw [h'] at h; simp at h
               · intro u hu s hs
                 cases hs; exact hu
             · exact Raises.skip; done)
          | (cases hp : E.parseURL v with
             | error x =>
               refine tells_cause ?_ ?_
               · intro hR
                 obtain ⟨a, ha⟩ := hR v rfl
                 rw [hp] at ha; cases ha
               · intro u hu s hs
                 cases hs
                 first
                   | exact hu
                   | exact ⟨_, hu⟩
             | ok a =>
               first
                 | exact Raises.skip
                 | (refine tells_check ?_ ?_
                    · intro h hR
                      have := hR v rfl
                      rw [hp] at this
                      simp_all
                    · intro u hu s hs
                      cases hs; exact hu))

theorem str_tells (all : Bool) (c : Ctx) (r : StringRules) (v : Bytes) :
    Raises (Tells c (fun p s => Reading E e p (.sc (.str s))) (StrRest E r) v) (strTpl E all c r v) := by
  unfold strTpl
  refine Raises.skipEmpty (Raises.seq ?_ (Raises.seq ?_ (Raises.seq ?_ (Raises.seq ?_ (Raises.seq ?_
    (Raises.seq ?_ ?_))))))
  · unfold strConstTpl
    split
    · rename_i k hk
      refine tells_check ?_ fun u hu => hu.1 k hk
      intro h hR
      have hR : v = k := hR
      simp [hR] at h
    · exact Raises.skip
  · exact strList_tells E e r.ins r.notIns v (fun s => .sc (.str s)) (fun _ _ => rfl) fun u hu => hu.2.1
  · exact len_tells E e r.len r.minLen r.maxLen v (fun s => .sc (.str s)) runeCount _ _ (fun _ => rfl)
      (fun _ => rfl) fun u hu => hu.2.2.1
  · exact len_tells E e r.lenBytes r.minBytes r.maxBytes v (fun s => .sc (.str s)) List.length _ _
      (fun _ => rfl) (fun _ => rfl) fun u hu => hu.2.2.2.1
  · exact strAffix_tells E e all c r v
  · exact (strWellKnown_tells E e all c r v).mono fun x hx => hx.mono fun u hu => hu.2.2.2.2.2.2.2.2.1
  · unfold strPatternTpl
    cases hk : r.pattern with
    | none => exact Raises.skip
    | some p =>
      refine tells_check ?_ fun u hu q s hq hs => ?_
      · intro h hR
        have := hR p v rfl rfl
        simp [optS, this] at h
      · cases hq; cases hs; exact hu.2.2.2.2.2.2.2.2.2 p hk

/-- Byte strings that satisfy rules although they are not empty. -/
def BytesRest (r : BytesRules) (s : Bytes) : Prop :=
  LenOk r.len r.minLen r.maxLen s.length ∧
  (∀ p, r.pfx = some p → p <+: s) ∧
  (∀ p, r.sfx = some p → p <:+ s) ∧
  (∀ p, r.contains = some p → p <:+: s) ∧
  ListOk (· = ·) r.ins r.notIns s ∧
  (∀ k, r.const = some k → k ≠ [] → s = k) ∧
  (match r.wellKnown with
    | some (.ip true) => IPBytes s
    | some (.ipv4 true) => IPv4Bytes s
    | some (.ipv6 true) => IPBytes s ∧ ¬ IPv4Bytes s
    | _ => True) ∧
  (∀ p, r.pattern = some p → E.matchRe p s = true)

theorem bytesAffix_tells (all : Bool) (c : Ctx) (r : BytesRules) (v : Bytes) :
    Raises (Tells c (fun p s => Reading E e p (.sc (.bytes s))) (BytesRest E r) v)
      (bytesAffixTpl all c r v) := by
  unfold bytesAffixTpl
  refine Raises.seq ?_ (Raises.seq ?_ ?_)
  · cases hk : r.pfx with
    | none => exact Raises.skip
    | some p =>
      refine tells_check ?_ fun u hu q s hq hs => ?_
      · intro h hR
        have := (hasPrefix_iff v p).2 (hR p v rfl rfl)
        simp [optS, this] at h
      · cases hq; cases hs; exact hu.2.1 p hk
  · cases hk : r.sfx with
    | none => exact Raises.skip
    | some p =>
      refine tells_check ?_ fun u hu q s hq hs => ?_
      · intro h hR
        have := (hasSuffix_iff v p).2 (hR p v rfl rfl)
        simp [optS, this] at h
      · cases hq; cases hs; exact hu.2.2.1 p hk
  · cases hk : r.contains with
    | none => exact Raises.skip
    | some p =>
      refine tells_check ?_ fun u hu q s hq hs => ?_
      · intro h hR
        have := (containsSub_iff v p).2 (hR p v rfl rfl)
        simp [optS, this] at h
      · cases hq; cases hs; exact hu.2.2.2.1 p hk

theorem bytesIp_tells (all : Bool) (c : Ctx) (r : BytesRules) (v : Bytes) :
    Raises (Tells c (fun p s => Reading E e p (.sc (.bytes s))) (BytesRest E r) v)
      (bytesIpTpl all c r v) := by
  unfold bytesIpTpl
  have e4 := ipTo4_iff v
  have e16 := ipTo16_iff v
  cases hw : r.wellKnown with
  | none =>
    simp only [BytesRules.getIp, BytesRules.getIpv4, BytesRules.getIpv6, hw]
    exact Raises.skip
  | some w =>
    cases w with
    | _ b =>
      cases b
      · simp only [BytesRules.getIp, BytesRules.getIpv4, BytesRules.getIpv6, hw]
        exact Raises.skip
      · simp only [BytesRules.getIp, BytesRules.getIpv4, BytesRules.getIpv6, hw, if_true,
          if_false, Bool.false_eq_true]
        refine tells_check ?_ fun u hu => ⟨fun s hs => ?_, fun s hs => ?_⟩
        · intro h hR
          have := hR.2 v rfl
          first
            | rw [← e4, ← e16] at this
            | rw [← e4] at this
            | rw [← e16] at this
          cases h4 : ipTo4 v <;> cases h16 : ipTo16 v <;> simp [h4, h16] at h this
        · cases hs
        · cases hs
          have := hu.2.2.2.2.2.2.1
          rw [hw] at this
          exact this

theorem bytes_tells (all : Bool) (c : Ctx) (r : BytesRules) (v : Bytes) :
    Raises (Tells c (fun p s => Reading E e p (.sc (.bytes s))) (BytesRest E r) v) (bytesTpl E all c r v) := by
  unfold bytesTpl
  refine Raises.skipEmpty (Raises.seq ?_ (Raises.seq ?_ (Raises.seq ?_ (Raises.seq ?_ (Raises.seq ?_ ?_)))))
  · exact len_tells E e r.len r.minLen r.maxLen v (fun s => .sc (.bytes s)) List.length _ _
      (fun _ => rfl) (fun _ => rfl) fun u hu => hu.1
  · exact bytesAffix_tells E e all c r v
  · exact strList_tells E e r.ins r.notIns v (fun s => .sc (.bytes s)) (fun _ _ => rfl) fun u hu =>
      hu.2.2.2.2.1
  · unfold bytesConstTpl
    cases hk : r.const with
    | none => exact Raises.skip
    | some k =>
      refine Raises.whenIf fun h => ?_
      have h' : k ≠ [] ∧ v ≠ k := by simpa [optS] using h
      refine Raises.report ⟨_, none, trivial, rfl, ?_, fun u hu => hu.2.2.2.2.2.1 k hk h'.1⟩
      intro hR
      exact h'.2 hR
  · exact bytesIp_tells E e all c r v
  · unfold bytesPatternTpl
    cases hk : r.pattern with
    | none => exact Raises.skip
    | some p =>
      refine tells_check ?_ fun u hu q s hq hs => ?_
      · intro h hR
        have := hR p v rfl rfl
        simp [optS, this] at h
      · cases hq; cases hs; exact hu.2.2.2.2.2.2.2 p hk

theorem enum_tells (all : Bool) (c : Ctx) (l : List Int) (r : EnumRules) (v : Int) :
    Raises (Tells c (fun p i => Reading E (.enum l) p (.sc (.enum i))) (EnumOk l r) v)
      (enumTpl all c l r v) := by
  unfold enumTpl
  refine Raises.seq ?_ (Raises.seq ?_ ?_)
  · split
    · rename_i k hk
      refine tells_check ?_ fun u hu => hu.1 k hk
      intro h hR
      have hR : v = k := hR
      simp [hR] at h
    · exact Raises.skip
  · refine list_tells ?_ ?_ ?_ ?_
    · intro _ h hR
      have := hR _ rfl
      simp [this] at h
    · intro hi u hu P hP
      cases hP
      obtain ⟨k, hk, rfl⟩ := hu.2.1.1 hi
      exact hk
    · intro _ _ h hR
      exact hR _ rfl (by simpa using h)
    · intro hi _ u hu P hP
      cases hP
      intro hk
      exact hu.2.1.2 hi u hk rfl
  · refine Raises.whenIf fun h => ?_
    rw [Bool.and_eq_true, optB_iff] at h
    refine Raises.report ⟨_, none, trivial, rfl, ?_, ?_⟩
    · intro hR
      have := hR l v rfl rfl
      simp [this] at h
    · intro u hu l' i hl hi
      cases hl; cases hi
      exact hu.2.2 h.1

theorem required_tells {α : Type} {Acc : α → Prop} (all : Bool) (c : Ctx) (req isNil : Bool) (f : α → Val)
    (v : α) (hv : isNil = true → f v = .null) (hA : req = true → ∀ u, Acc u → f u ≠ .null) :
    Raises (Tells c (fun p u => Reading E e p (f u)) Acc v) (requiredTpl all c req isNil) := by
  unfold requiredTpl
  refine Raises.whenIf fun h => ?_
  rw [Bool.and_eq_true] at h
  have hc : ∀ w : Val, content w ≠ .null ↔ w ≠ .null := by intro w; cases w <;> simp [content]
  refine Raises.report ⟨_, none, trivial, rfl, ?_, ?_⟩
  · intro hR
    exact (hc _).1 hR (hv h.2)
  · intro u hu
    exact (hc _).2 (hA h.1 u hu)

/-- An Any field with the given type URL and bytes. -/
def anyVal : Option (Bytes × Bytes) → Val
  | some u => .any u.1 u.2
  | none => .null

theorem any_tells (all : Bool) (c : Ctx) (r : AnyRules) (v : Option (Bytes × Bytes)) :
    Raises (Tells c (fun p u => Reading E e p (anyVal u)) (fun o => AnyOk r (o.map (·.1))) v)
      (anyTpl all c r (v.map (·.1))) := by
  unfold anyTpl
  refine Raises.seq (required_tells E e all c _ _ _ v ?_ ?_) ?_
  · cases v <;> simp [anyVal]
  · intro hr u hu
    cases u with
    | none => exact absurd ((optB_iff _).1 hr) hu
    | some u => simp [anyVal]
  · cases v with
    | none => exact Raises.skip
    | some v =>
      refine list_tells ?_ ?_ ?_ ?_
      · intro _ h hR
        have := hR _ rfl
        simp [this] at h
      · intro hi u hu P hP
        cases u with
        | none => simp [anyVal, content, listed] at hP
        | some u =>
          cases hP
          obtain ⟨k, hk, rfl⟩ := hu.1 hi
          exact hk
      · intro _ _ h hR
        exact hR _ rfl (by simpa using h)
      · intro hi _ u hu P hP
        cases u with
        | none => simp [anyVal, content, listed] at hP
        | some u =>
          cases hP
          intro hk
          exact hu.2 hi _ hk rfl

/-- A Duration field. -/
def durVal : Option PDur → Val
  | some d => .dur d
  | none => .null

theorem durRange_tells (all : Bool) (c : Ctx) (r : DurationRules) (d : PDur) :
    Raises (Tells c (fun p o => Reading E e p (durVal o))
      (fun o => ∀ d, o = some d → DurRangeOk (durUpper r) (durLower r) d.asDuration) (some d))
      (durRangeTpl all c r d.asDuration) := by
  have pass : ∀ u : PDur, DurRangeOk (durUpper r) (durLower r) u.asDuration →
      durRangeTpl false c r u.asDuration [] = .ok [] := fun u hu => passes (durRange_ok c r _) hu
  unfold durRangeTpl at pass ⊢
  repeat' (first
    | exact Raises.skip
    | split)
  all_goals
    refine tells_check ?_ ?_
    · intro h
      simp only [Bool.or_eq_true, Bool.and_eq_true, decide_eq_true_eq, PDur.lit] at h
      simp [Reading, rangeReading, valueReading, content, amount, limit, durVal]
      grind
    · intro u hu
      cases u with
      | none => simp [Reading, rangeReading, valueReading, content, amount, limit, durVal]
      | some u =>
        have h := pass u (hu u rfl)
        simp only [*, if_true, if_false, reduceCtorEq, Bool.false_eq_true] at h
        have h := when_passes h
        simp only [← Bool.not_eq_true, Bool.or_eq_true, Bool.and_eq_true, decide_eq_true_eq, PDur.lit] at h
        simp [Reading, rangeReading, valueReading, content, amount, limit, durVal]
        grind

theorem duration_tells (all : Bool) (c : Ctx) (r : DurationRules) (v : Option PDur) :
    Raises (Tells c (fun p o => Reading E e p (durVal o)) (DurationOk r) v) (durationTpl all c r v) := by
  unfold durationTpl
  refine Raises.seq (required_tells E e all c _ _ _ v ?_ ?_) ?_
  · cases v <;> simp [durVal]
  · intro hr u hu
    cases u with
    | none => exact absurd ((optB_iff _).1 hr) hu
    | some u => simp [durVal]
  · split
    · rename_i hc
      have hc : DurConstrained r := by
        have : (!r.ins.isEmpty || !r.notIns.isEmpty || r.lt.isSome || r.lte.isSome || r.gt.isSome ||
          r.gte.isSome || r.const.isSome) = true ↔ DurConstrained r := by
          unfold DurConstrained
          simp [Option.isSome_iff_ne_none, or_assoc]
        exact this.1 hc
      split
      · exact Raises.skip
      · rename_i d
        split
        · rename_i hv
          refine tells_cause ?_ fun u hu d' hd => ?_
          · intro hR
            have := (valid_iff d).2 (hR d rfl)
            simp [this] at hv
          · cases u with
            | none => simp [durVal, content] at hd
            | some u => cases hd; exact (valid_iff _).1 (hu hc).1
        · unfold durationcmpTpl
          refine Raises.seq ?_ (Raises.seq ?_ ?_)
          · split
            · rename_i k hk
              refine tells_check ?_ fun u hu => ?_
              · intro h hR
                have hR : d.asDuration = k.exact := hR
                simp [hR, PDur.lit] at h
              · cases u with
                | none => trivial
                | some u => exact (hu hc).2.1 k hk
            · exact Raises.skip
          · exact (durRange_tells E e all c r d).mono fun x hx => hx.mono fun u hu d hd => by
              subst hd; exact (hu hc).2.2.1
          · refine list_tells ?_ ?_ ?_ ?_
            · intro _ h hR
              obtain ⟨k, hk, hs⟩ := hR _ rfl
              have h : ¬ (r.ins.any fun k => k.asDuration == d.asDuration) = true := by simp [h]
              exact h (List.any_eq_true.2 ⟨k, hk, by simp [hs]⟩)
            · intro hi u hu P hP
              cases u with
              | none => simp [durVal, content, listed] at hP
              | some u =>
                cases hP
                obtain ⟨k, hk, hs⟩ := (hu hc).2.2.2.1 (by simpa using hi)
                obtain ⟨k', hk', rfl⟩ := List.mem_map.1 hk
                exact ⟨k', hk', hs⟩
            · intro _ _ h hR
              obtain ⟨k, hk, hs⟩ := List.any_eq_true.1 h
              exact hR _ rfl ⟨k, hk, by simpa using (eq_of_beq hs).symm⟩
            · intro hi _ u hu P hP
              cases u with
              | none => simp [durVal, content, listed] at hP
              | some u =>
                cases hP
                rintro ⟨k, hk, hs⟩
                exact (hu hc).2.2.2.2 (by simpa using hi) _ (List.mem_map.2 ⟨k, hk, rfl⟩) hs
    · exact Raises.skip

/-- A Timestamp field. -/
def tsVal : Option PTime → Val
  | some t => .ts t
  | none => .null

theorem tsRange_tells (all : Bool) (c : Ctx) (r : TimestampRules) (t : PTime) :
    Raises (Tells c (fun p o => Reading E e p (tsVal o))
      (fun o => ∀ t, o = some t → RangeOk (tsUpper r) (tsLower r) (instant t) ∧
        (tsUpper r = none → tsLower r = none → NowOk E.now r (instant t))) (some t))
      (tsRangeTpl E.now all c r t.asTime) := by
  have pass : ∀ u : PTime, RangeOk (tsUpper r) (tsLower r) (instant u) ∧
        (tsUpper r = none → tsLower r = none → NowOk E.now r (instant u)) →
      tsRangeTpl E.now false c r u.asTime [] = .ok [] := fun u hu => passes (tsRange_ok E.now c r _) hu
  unfold tsRangeTpl at pass ⊢
  repeat' (first
    | exact Raises.skip
    | split)
  all_goals
    refine tells_check ?_ ?_
    · intro h
      simp only [Bool.or_eq_true, Bool.and_eq_true, decide_eq_true_eq, PDur.lit, sub_lt_zero, sub_le_zero,
        sub_ge_zero, sub_gt_zero, Instant, Instant.add, asTime_eq] at h
      simp [Reading, rangeReading, valueReading, bareReading, content, amount, limit, tsVal]
      grind
    · intro u hu
      cases u with
      | none => simp [Reading, rangeReading, valueReading, bareReading, content, amount, limit, tsVal]
      | some u =>
        have h := pass u (hu u rfl)
        simp only [*, if_true, if_false, reduceCtorEq, Bool.false_eq_true] at h
        have h := when_passes h
        simp only [← Bool.not_eq_true, Bool.or_eq_true, Bool.and_eq_true, decide_eq_true_eq, PDur.lit,
          sub_lt_zero, sub_le_zero, sub_ge_zero, sub_gt_zero, Instant, Instant.add, asTime_eq] at h
        simp [Reading, rangeReading, valueReading, bareReading, content, amount, limit, tsVal]
        grind

theorem timestamp_tells (all : Bool) (c : Ctx) (r : TimestampRules) (v : Option PTime) :
    Raises (Tells c (fun p o => Reading E e p (tsVal o)) (TimestampOk E.now r) v)
      (timestampTpl E.now all c r v) := by
  unfold timestampTpl
  refine Raises.seq (required_tells E e all c _ _ _ v ?_ ?_) ?_
  · cases v <;> simp [tsVal]
  · intro hr u hu
    cases u with
    | none => exact absurd ((optB_iff _).1 hr) hu
    | some u => simp [tsVal]
  · split
    · rename_i hc
      have hc : TsConstrained r := by
        have : (r.lt.isSome || r.lte.isSome || r.gt.isSome || r.gte.isSome || r.ltNow.isSome ||
          r.gtNow.isSome || r.within.isSome || r.const.isSome) = true ↔ TsConstrained r := by
          unfold TsConstrained
          simp [Option.isSome_iff_ne_none, or_assoc]
        exact this.1 hc
      split
      · exact Raises.skip
      · rename_i t
        split
        · rename_i hv
          refine tells_cause ?_ fun u hu d' hd => ?_
          · intro hR
            have := (tsValid_iff t).2 (hR t rfl)
            simp [this] at hv
          · cases u with
            | none => simp [tsVal, content] at hd
            | some u => cases hd; exact (tsValid_iff _).1 (hu hc).1
        · unfold timestampcmpTpl
          refine Raises.seq ?_ ?_
          · split
            · rename_i k hk
              refine tells_check ?_ fun u hu => ?_
              · intro h hR
                have hR : instant t = instant k := hR
                rw [asTime_eq, asTime_eq, hR] at h
                simp at h
              · cases u with
                | none => trivial
                | some u => exact (hu hc).2.1 k hk
            · exact Raises.skip
          · exact (tsRange_tells E e all c r t).mono fun x hx => hx.mono fun u hu d hd => by
              subst hd; exact (hu hc).2.2
    · exact Raises.skip

/-! ### From checks to values -/

theorem reading_content (p : List Piece) (v : Val) : Reading E e p v ↔ Reading E e p (content v) := by
  have : content (content v) = content v := by cases v <;> rfl
  unfold Reading
  rw [this]

theorem content_null (v : Val) : content v = .null ↔ v = .null := by cases v <;> simp [content]

/-- A reason that is false of a missing value only says that the value is required. -/
theorem reading_or (p : List Piece) (v : Val) (h : v ≠ .null) :
    Reading E e p v ∨ Reading E e p .null := by
  have h := mt (content_null v).1 h
  unfold Reading
  split
  · unfold bareReading
    split <;> first
      | exact .inl h
      | exact .inr trivial
      | (right; simp [content, amount])
  · unfold valueReading
    split <;> first
      | exact .inr trivial
      | (right; simp [content, amount, listed, textOf])
    unfold EqualTo
    split <;> simp_all
  · unfold sizeReading
    split <;> first
      | exact .inr trivial
      | (right; simp [content, size])
  · right; simp [content, amount]
  · right; simp [content, size]
  · right; simp [content, size]
  · right
    unfold rangeReading
    simp only [content, amount]
    split <;> simp
  · exact .inr trivial

/-- The values whose reading a violation at `w` speaks of. -/
def Acc (t : TypeRules) (ok : Val → Prop) (w u : Val) : Prop := Alike w u ∧ ok u ∧ ¬ Exempt t u

/-- Transfer from the value inside to the field value. -/
theorem Tells.lift {α : Type} {c : Ctx} {A : α → Prop} {B : Val → Prop} {f : α → Val} {a : α} {x : Err}
    (h : Tells c (fun p s => Reading E e p (f s)) A a x)
    (hB : ∀ u, B u → (∃ s, u = f s ∧ A s) ∨ (u = .null ∧ f a ≠ .null) ∨ (u ≠ .null ∧ f a = .null)) :
    Tells c (Reading E e) B (f a) x := by
  obtain ⟨r, k, h1, h2, h3, h4⟩ := h
  refine ⟨r, k, h1, h2, h3, fun u hu => ?_⟩
  rcases hB u hu with ⟨s, rfl, hs⟩ | ⟨rfl, ha⟩ | ⟨hu, ha⟩
  · exact h4 s hs
  · exact (reading_or E e r _ ha).resolve_left h3
  · refine (reading_or E e r u hu).resolve_right ?_
    rw [← ha]; exact h3

theorem scalar_tells (all : Bool) (c : Ctx) (t : TypeRules) (s : Scalar) :
    Raises (Tells c (fun p s => Reading E e p (.sc s))
      (fun u => Alike (.sc s) (.sc u) ∧ ScalarOk E e t u ∧ ¬ Exempt t (.sc u)) s)
      (scalarTpl E all c e t s) := by
  have go : ∀ {β : Type} (g : β → Scalar) (b : β) (A : β → Prop) (y : Exec),
      s = g b → Raises (Tells c (fun p b => Reading E e p (.sc (g b))) A b) y →
      (∀ u, Alike (.sc (g b)) (.sc u) ∧ ScalarOk E e t u ∧ ¬ Exempt t (.sc u) → ∃ b', u = g b' ∧ A b') →
      Raises (Tells c (fun p s => Reading E e p (.sc s))
        (fun u => Alike (.sc s) (.sc u) ∧ ScalarOk E e t u ∧ ¬ Exempt t (.sc u)) s) y := by
    rintro β g b A y rfl hy hA
    refine hy.mono fun x ⟨r, k, h1, h2, h3, h4⟩ => ⟨r, k, h1, h2, h3, fun u hu => ?_⟩
    obtain ⟨b', rfl, hb⟩ := hA u hu
    exact h4 b' hb
  unfold scalarTpl
  split
  · rename_i k r n
    refine go .num n _ _ rfl (num_tells E e all c r n) ?_
    rintro u ⟨h1, h2, h3⟩
    cases u with
    | num m => exact ⟨m, rfl, h2.resolve_left h3⟩
    | _ => exact h1.elim
  · rename_i r b
    refine go .bool b _ _ rfl (bool_tells E e all c r b) ?_
    rintro u ⟨h1, h2, h3⟩
    cases u with
    | bool m => exact ⟨m, rfl, h2⟩
    | _ => exact h1.elim
  · rename_i r b
    refine go .str b _ _ rfl (str_tells E e all c r b) ?_
    rintro u ⟨h1, h2, h3⟩
    cases u with
    | str m => exact ⟨m, rfl, h2.resolve_left fun h => h3 ⟨h.1, congrArg some h.2⟩⟩
    | _ => exact h1.elim
  · rename_i r b
    refine go .bytes b _ _ rfl (bytes_tells E e all c r b) ?_
    rintro u ⟨h1, h2, h3⟩
    cases u with
    | bytes m => exact ⟨m, rfl, h2.resolve_left fun h => h3 ⟨h.1, congrArg some h.2⟩⟩
    | _ => exact h1.elim
  · rename_i r i
    split
    · rename_i l
      refine go .enum i _ _ rfl (enum_tells E all c l r i) ?_
      rintro u ⟨h1, h2, h3⟩
      cases u with
      | enum m => exact ⟨m, rfl, h2⟩
      | _ => exact h1.elim
    · exact Raises.skip
  · exact Raises.skip

theorem scalarField_tells (all : Bool) (c : Ctx) (t : TypeRules) (ok : Val → Prop) (s : Scalar)
    (hok : ∀ u, ok (.sc u) → ScalarOk E e t u) :
    Raises (Tells c (Reading E e) (Acc t ok (.sc s)) (.sc s)) (scalarTpl E all c e t s) := by
  refine (scalar_tells E e all c t s).mono fun x hx => hx.lift E e (f := .sc) ?_
  rintro u ⟨h1, h2, h3⟩
  cases u with
  | sc u => exact .inl ⟨u, rfl, h1, hok _ h2, h3⟩
  | null => exact .inr (.inl ⟨rfl, by simp⟩)
  | _ => cases s <;> exact h1.elim

theorem wrapped_tells (all : Bool) (c : Ctx) (t : TypeRules) (ok : Val → Prop) (s : Scalar)
    (hok : ∀ u, ok (.wrapper u) → ScalarOk E e t u) :
    Raises (Tells c (Reading E e) (Acc t ok (.wrapper s)) (.wrapper s)) (scalarTpl E all c e t s) := by
  refine (scalar_tells E e all c t s).mono fun x hx => ?_
  have hx : Tells c (fun p s => Reading E e p (Val.wrapper s))
      (fun u => Alike (.sc s) (.sc u) ∧ ScalarOk E e t u ∧ ¬ Exempt t (.sc u)) s x := by
    obtain ⟨r, k, h1, h2, h3, h4⟩ := hx
    exact ⟨r, k, h1, h2, fun h => h3 ((reading_content E e r _).1 h),
      fun u hu => (reading_content E e r _).2 (h4 u hu)⟩
  refine hx.lift E e (f := .wrapper) ?_
  rintro u ⟨h1, h2, h3⟩
  cases u with
  | wrapper u =>
    refine .inl ⟨u, rfl, ?_, hok _ h2, ?_⟩
    · cases s <;> cases u <;> first | exact h1 | trivial
    · intro h
      apply h3
      unfold Exempt at h ⊢
      cases t <;> simp_all [content]
  | null => exact .inr (.inl ⟨rfl, by simp⟩)
  | _ => cases s <;> exact h1.elim

theorem nil_tells {reason : List Piece} (all : Bool) (c : Ctx) (b : Bool) (B : Val → Prop) (v : Val)
    (hr : ∀ u, Reading E e reason u ↔ content u ≠ .null)
    (hv : b = true → v = .null) (hB : b = true → ∀ u, B u → u ≠ .null) :
    Raises (Tells c (Reading E e) B v) (Exec.when b (report all (err c reason))) := by
  refine Raises.whenIf fun h => Raises.report ⟨_, none, trivial, rfl, ?_, ?_⟩
  · rw [hr, hv h]; simp [content]
  · intro u hu
    exact (hr u).2 (mt (content_null u).1 (hB h u hu))

end

/-! ### Elements -/

/-- Where an element's errors come from, and what their reasons say. -/
def ElemSays (E : Env) (S : Schema) (valid : Val → Prop) (all : Bool) (rec : Rec) (c : Ctx) (e : ElemT)
    (rules : FieldRules) (v : Val) (x : Err) : Prop :=
  Tells c (Reading E e) (Acc rules.type (ValueOk E S valid e rules) v) v x ∨
  (∃ s, v = .wrapper s ∧ Tells { c with index := none, onKey := false } (Reading E e)
    (Acc rules.type (ValueOk E S valid e rules) v) v x) ∨
  (e.isEmbed = true ∧ rules.type = .unset ∧ msgSkip rules.message = false ∧
    Wrapped E S all rec c v x)

theorem elem_says (E : Env) (S : Schema) (valid : Val → Prop) (all : Bool) (rec : Rec) (c : Ctx) (e : ElemT)
    (rules : FieldRules) (v : Val) :
    Raises (ElemSays E S valid all rec c e rules v) (elemTpl E S all rec c e rules v) := by
  have plain : ¬ (e.isEmbed = true ∧ WrapperKind rules.type) → ∀ t, rules.type = t →
      Raises (ElemSays E S valid all rec c e rules v)
      (match t, v with
        | .any r, .any url _ => anyTpl all c r (some url)
        | .any r, .null => anyTpl all c r none
        | .duration r, .dur d => durationTpl all c r (some d)
        | .duration r, .null => durationTpl all c r none
        | .timestamp r, .ts t => timestampTpl E.now all c r (some t)
        | .timestamp r, .null => timestampTpl E.now all c r none
        | t, .sc s => scalarTpl E all c e t s
        | _, _ => skip) := by
    intro hw t ht
    have anyC : ∀ r o, rules.type = .any r → anyVal o = v →
        Raises (ElemSays E S valid all rec c e rules v) (anyTpl all c r (o.map (·.1))) := by
      rintro r o ht rfl
      refine (any_tells E e all c r o).mono fun x hx => .inl (hx.lift E e ?_)
      rintro u ⟨h1, h2, _⟩
      unfold ValueOk at h2
      rw [ht] at h2
      cases o with
      | none =>
        by_cases hu : u = .null
        · subst hu; exact .inl ⟨none, rfl, h2⟩
        · exact .inr (.inr ⟨hu, rfl⟩)
      | some o =>
        cases u with
        | any a b => exact .inl ⟨some (a, b), rfl, h2⟩
        | null => exact .inr (.inl ⟨rfl, by simp [anyVal]⟩)
        | _ => exact h1.elim
    have durC : ∀ r o, rules.type = .duration r → durVal o = v →
        Raises (ElemSays E S valid all rec c e rules v) (durationTpl all c r o) := by
      rintro r o ht rfl
      refine (duration_tells E e all c r o).mono fun x hx => .inl (hx.lift E e ?_)
      rintro u ⟨h1, h2, _⟩
      unfold ValueOk at h2
      rw [ht] at h2
      cases o with
      | none =>
        by_cases hu : u = .null
        · subst hu; exact .inl ⟨none, rfl, h2⟩
        · exact .inr (.inr ⟨hu, rfl⟩)
      | some o =>
        cases u with
        | dur a => exact .inl ⟨some a, rfl, h2⟩
        | null => exact .inr (.inl ⟨rfl, by simp [durVal]⟩)
        | _ => exact h1.elim
    have tsC : ∀ r o, rules.type = .timestamp r → tsVal o = v →
        Raises (ElemSays E S valid all rec c e rules v) (timestampTpl E.now all c r o) := by
      rintro r o ht rfl
      refine (timestamp_tells E e all c r o).mono fun x hx => .inl (hx.lift E e ?_)
      rintro u ⟨h1, h2, _⟩
      unfold ValueOk at h2
      rw [ht] at h2
      cases o with
      | none =>
        by_cases hu : u = .null
        · subst hu; exact .inl ⟨none, rfl, h2⟩
        · exact .inr (.inr ⟨hu, rfl⟩)
      | some o =>
        cases u with
        | ts a => exact .inl ⟨some a, rfl, h2⟩
        | null => exact .inr (.inl ⟨rfl, by simp [tsVal]⟩)
        | _ => exact h1.elim
    split
    · exact anyC _ (some (_, _)) ht rfl
    · exact anyC _ none ht rfl
    · exact durC _ (some _) ht rfl
    · exact durC _ none ht rfl
    · exact tsC _ (some _) ht rfl
    · exact tsC _ none ht rfl
    · subst ht
      refine (scalarField_tells E e all c _ _ _ ?_).mono fun _ h => .inl h
      intro u h
      unfold ValueOk at h
      split at h
      all_goals first
        | exact h.2 hw
        | (rename_i ht; rw [ht]; unfold ScalarOk; trivial)
    · exact Raises.skip
  have wrapped : ∀ t, rules.type = t →
      (∀ u, ValueOk E S valid e rules (.wrapper u) → ScalarOk E e t u) →
      (ValueOk E S valid e rules .null → msgRequired rules.message = false) →
      Raises (ElemSays E S valid all rec c e rules v) (wrapperTpl E all c e t rules.message v) := by
    rintro t rfl hok hnull
    unfold wrapperTpl
    split
    · rename_i s
      exact (wrapped_tells E e all _ _ _ _ hok).mono fun _ h => .inr (.inl ⟨s, rfl, h⟩)
    · refine (nil_tells E e all c (msgRequired rules.message) _ .null (fun u => Iff.rfl) (fun _ => rfl) ?_).mono
        fun _ h => .inl h
      rintro hr u ⟨_, h2, _⟩ rfl
      rw [hnull h2] at hr
      simp at hr
    · exact Raises.skip
  unfold elemTpl
  cases ht : rules.type with
  | unset =>
    cases he : e.isEmbed with
    | false =>
      simp only [resolve, ht, he]
      exact Raises.skip
    | true =>
      simp only [resolve, ht, he, if_true]
      have hreq : Raises (Tells c (Reading E e) (Acc rules.type (ValueOk E S valid e rules) v) v)
          (requiredTpl all c (msgRequired rules.message) (Val.isNull v)) := by
        unfold requiredTpl
        refine nil_tells E e all c _ _ v (fun u => Iff.rfl) ?_ ?_
        · cases v <;> simp [Val.isNull]
        · rintro hb u ⟨_, h2, _⟩
          unfold ValueOk at h2
          rw [ht] at h2
          rw [Bool.and_eq_true] at hb
          exact (h2 he).1 hb.1
      exact (message_raises_of E S all rec c rules.message v hreq).mono fun x h => by
        rcases h with h | ⟨h1, h2⟩
        · exact .inl h
        · exact .inr (.inr ⟨he, ht, h1, h2⟩)
  | num k r =>
    cases he : e.isEmbed <;> cases k <;> simp only [resolve, ht, he, if_true, Bool.false_eq_true, if_false] <;>
      first
        | (refine wrapped _ ht ?_ ?_ <;> simp [ValueOk, ht, he, WrapperKind] <;> done)
        | (refine plain ?_ _ ht; simp [ht, he, WrapperKind]; done)
  | bool r =>
    cases he : e.isEmbed <;> simp only [resolve, ht, he, if_true, Bool.false_eq_true, if_false] <;>
      first
        | (refine wrapped _ ht ?_ ?_ <;> simp [ValueOk, ht, he, WrapperKind] <;> done)
        | (refine plain ?_ _ ht; simp [ht, he, WrapperKind]; done)
  | string r =>
    cases he : e.isEmbed <;> simp only [resolve, ht, he, if_true, Bool.false_eq_true, if_false] <;>
      first
        | (refine wrapped _ ht ?_ ?_ <;> simp [ValueOk, ht, he, WrapperKind] <;> done)
        | (refine plain ?_ _ ht; simp [ht, he, WrapperKind]; done)
  | bytes r =>
    cases he : e.isEmbed <;> simp only [resolve, ht, he, if_true, Bool.false_eq_true, if_false] <;>
      first
        | (refine wrapped _ ht ?_ ?_ <;> simp [ValueOk, ht, he, WrapperKind] <;> done)
        | (refine plain ?_ _ ht; simp [ht, he, WrapperKind]; done)
  | _ =>
    simp only [resolve, ht]
    refine plain ?_ _ ht
    simp [ht, WrapperKind]


end PGV.Go
