import Verif.Lemmas.Exec
import Verif.Lemmas.Known

/-!
Each template against the declarative meaning of its rules.
-/

set_option linter.unusedSimpArgs false

namespace PGV.Go
open PGV Exec PGV.Spec

/-- The error is raised at the given context: same message type, field, index and key flag. -/
def From (c : Ctx) (e : Err) : Prop :=
  ∃ reason cause, e = .viol c.msg ⟨c.field, c.index⟩ reason cause c.onKey

theorem from_err (c : Ctx) (r : List Piece) : From c (err c r) := ⟨r, none, rfl⟩
theorem from_errCause (c : Ctx) (x : Err) (r : List Piece) : From c (errCause c x r) :=
  ⟨r, some x, rfl⟩

theorem numRange_dec (c : Ctx) (r : NumRules) (v : Num) :
    Ok (From c) (fun all => ltgtTpl all c r v)
      (∀ x, numVal v = some x → RangeOk (numUpper r) (numLower r) x) := by
  have V := numVal_eq_key v
  cases hv : v.key with
  | none =>
    rw [hv] at V
    rw [V]
    simp only [reduceCtorEq, false_imp_iff, implies_true]
    unfold ltgtTpl
    repeat' (first
      | (refine ((Ok.check (from_err c _)).iff ?_); simp [Num.le, Num.lt, Num.ge, Num.gt, hv])
      | exact Ok.skip
      | split)
  | some x =>
    rw [hv] at V
    simp only [V, Option.some.injEq, forall_eq']
    unfold ltgtTpl numUpper numLower
    cases r.lt with
    | some lt =>
      have L := numVal_eq_key lt
      cases r.gt with
      | some gt =>
        have G := numVal_eq_key gt
        simp only [L, G]
        cases hl : lt.key <;> cases hg : gt.key <;>
          simp only [Num.tplGt, Num.lt, Num.eq, hl, hg] <;> split <;>
          refine ((Ok.check (from_err c _)).iff ?_) <;>
          simp_all [Num.le, Num.lt, Num.ge, Num.gt, RangeOk, Bound.AsUpper, Bound.AsLower] <;>
          (try split) <;> omega
      | none =>
        cases r.gte with
        | some gt =>
          have G := numVal_eq_key gt
          simp only [L, G]
          cases hl : lt.key <;> cases hg : gt.key <;>
            simp only [Num.tplGt, Num.lt, Num.eq, hl, hg] <;> split <;>
            refine ((Ok.check (from_err c _)).iff ?_) <;>
            simp_all [Num.le, Num.lt, Num.ge, Num.gt, RangeOk, Bound.AsUpper, Bound.AsLower] <;>
            (try split) <;> omega
        | none =>
          simp only [L]
          cases hl : lt.key <;>
            refine ((Ok.check (from_err c _)).iff ?_) <;>
            simp_all [Num.le, Num.lt, Num.ge, Num.gt, RangeOk, Bound.AsUpper, Bound.AsLower]
    | none =>
      cases r.lte with
      | some lt =>
        have L := numVal_eq_key lt
        cases r.gt with
        | some gt =>
          have G := numVal_eq_key gt
          simp only [L, G]
          cases hl : lt.key <;> cases hg : gt.key <;>
            simp only [Num.tplGt, Num.lt, Num.eq, hl, hg] <;> split <;>
            refine ((Ok.check (from_err c _)).iff ?_) <;>
            simp_all [Num.le, Num.lt, Num.ge, Num.gt, RangeOk, Bound.AsUpper, Bound.AsLower] <;>
            (try split) <;> omega
        | none =>
          cases r.gte with
          | some gt =>
            have G := numVal_eq_key gt
            simp only [L, G]
            cases hl : lt.key <;> cases hg : gt.key <;>
              simp only [Num.tplGt, Num.lt, Num.eq, hl, hg] <;> split <;>
              refine ((Ok.check (from_err c _)).iff ?_) <;>
              simp_all [Num.le, Num.lt, Num.ge, Num.gt, RangeOk, Bound.AsUpper, Bound.AsLower] <;>
              (try split) <;> omega
          | none =>
            simp only [L]
            cases hl : lt.key <;>
              refine ((Ok.check (from_err c _)).iff ?_) <;>
              simp_all [Num.le, Num.lt, Num.ge, Num.gt, RangeOk, Bound.AsUpper, Bound.AsLower]
      | none =>
        cases r.gt with
        | some gt =>
          have G := numVal_eq_key gt
          simp only [G]
          cases hg : gt.key <;>
            refine ((Ok.check (from_err c _)).iff ?_) <;>
            simp_all [Num.le, Num.lt, Num.ge, Num.gt, RangeOk, Bound.AsUpper, Bound.AsLower]
        | none =>
          cases r.gte with
          | some gt =>
            have G := numVal_eq_key gt
            simp only [G]
            cases hg : gt.key <;>
              refine ((Ok.check (from_err c _)).iff ?_) <;>
              simp_all [Num.le, Num.lt, Num.ge, Num.gt, RangeOk, Bound.AsUpper, Bound.AsLower]
          | none => exact Ok.skip.iff (by simp [RangeOk])

theorem numConst_ok (c : Ctx) (r : NumRules) (v : Num) :
    Ok (From c) (fun all => numConstTpl all c r v) (∀ k, r.const = some k → numSame v k) := by
  unfold numConstTpl
  cases r.const with
  | none => exact Ok.skip.iff (by simp)
  | some k => exact (Ok.check (from_err c _)).iff (by simp [← Num.eq_iff])

/-- The shape shared by all `in` / `not_in` checks. -/
theorem inTpl_ok {α : Type} {W : Err → Prop} (same : α → α → Prop) (ins notIns : List α) (v : α)
    (memIn memNot : Bool) (e1 e2 : Err) (hW1 : W e1) (hW2 : W e2)
    (h1 : memIn = true ↔ ∃ k ∈ ins, same v k) (h2 : memNot = true ↔ ∃ k ∈ notIns, same v k) :
    Ok W (fun all =>
      if !ins.isEmpty then Exec.when (!memIn) (report all e1)
      else if !notIns.isEmpty then Exec.when memNot (report all e2)
      else skip) (ListOk same ins notIns v) := by
  unfold ListOk
  cases ins with
  | cons a as =>
    refine ((Ok.check hW1).congr (y := fun all => _) (fun _ _ => rfl)).iff ?_
    rw [Bool.not_eq_false', h1]
    simp
  | nil =>
    cases notIns with
    | nil => exact (Ok.skip.congr (y := fun all => _) (fun _ _ => rfl)).iff (by simp)
    | cons b bs =>
      refine ((Ok.check hW2).congr (y := fun all => _) (fun _ _ => rfl)).iff ?_
      rw [← Bool.not_eq_true, h2]
      simp

theorem numIn_ok (c : Ctx) (r : NumRules) (v : Num) :
    Ok (From c) (fun all => numInTpl all c r v) (ListOk numSame r.ins r.notIns v) :=
  inTpl_ok numSame r.ins r.notIns v _ _ _ _ (from_err c _) (from_err c _)
    (by simp [Num.eq_iff]) (by simp [Num.eq_iff])

/-- `ignore_empty` around a body. -/
theorem ignoreEmpty_ok {W : Err → Prop} {x : Bool → Exec} {P : Prop} (ie : Option Bool)
    (nonEmpty : Bool) (Empty : Prop) (h : nonEmpty = false ↔ Empty) (hx : Ok W x P) :
    Ok W (fun all => if optB ie then Exec.when nonEmpty (x all) else x all)
      ((ie = some true ∧ Empty) ∨ P) := by
  by_cases hi : ie = some true
  · subst hi
    refine ((hx.when (b := nonEmpty)).congr (fun _ _ => rfl)).iff ?_
    rw [← h]
    cases nonEmpty <;> simp
  · have : optB ie = false := (optB_false_iff ie).2 hi
    refine (hx.congr (fun _ _ => by simp [this])).iff ?_
    simp [hi]

theorem num_ok (c : Ctx) (r : NumRules) (v : Num) :
    Ok (From c) (fun all => numTpl all c r v) (NumOk r v) :=
  ignoreEmpty_ok r.ignoreEmpty (!v.isZero) (numVal v = some 0) (by simp [← Num.isZero_iff])
    ((numConst_ok c r v).seq ((numRange_dec c r v).seq (numIn_ok c r v)))

theorem bool_ok (c : Ctx) (r : BoolRules) (b : Bool) :
    Ok (From c) (fun all => boolTpl all c r b) (∀ k, r.const = some k → b = k) := by
  unfold boolTpl
  cases r.const with
  | none => exact Ok.skip.iff (by simp)
  | some k => exact (Ok.check (from_err c _)).iff (by simp)

theorem strConst_ok (c : Ctx) (r : StringRules) (s : Bytes) :
    Ok (From c) (fun all => strConstTpl all c r s) (∀ k, r.const = some k → s = k) := by
  unfold strConstTpl
  cases r.const with
  | none => exact Ok.skip.iff (by simp)
  | some k => exact (Ok.check (from_err c _)).iff (by simp)

theorem strIn_ok (c : Ctx) (r : StringRules) (s : Bytes) :
    Ok (From c) (fun all => strInTpl all c r s) (ListOk (· = ·) r.ins r.notIns s) :=
  inTpl_ok (· = ·) r.ins r.notIns s _ _ _ _ (from_err c _) (from_err c _)
    (by simp) (by simp)

/-- The shape shared by the three length checks. -/
theorem len_ok {W : Err → Prop} (len min max : Option Nat) (n : Nat) (e1 e2 e3 e4 e5 : Err)
    (h1 : W e1) (h2 : W e2) (h3 : W e3) (h4 : W e4) (h5 : W e5) :
    Ok W (fun all =>
      if len.isSome || (min.isSome && max.isSome && optN min == optN max) then
        if len.isSome then Exec.when (n != optN len) (report all e1)
        else Exec.when (n != optN min) (report all e2)
      else if min.isSome then
        if max.isSome then
          Exec.when (decide (n < optN min) || decide (n > optN max)) (report all e3)
        else Exec.when (decide (n < optN min)) (report all e4)
      else if max.isSome then Exec.when (decide (n > optN max)) (report all e5)
      else skip) (LenOk len min max n) := by
  cases len with
  | some k =>
    refine ((Ok.check h1).congr (y := fun all => _) (fun _ _ => rfl)).iff ?_
    simp [LenOk, optN]
  | none =>
    cases min with
    | some a =>
      cases max with
      | some b =>
        by_cases hab : a = b
        · subst hab
          refine ((Ok.check (b := n != a) h2).congr (y := fun all => _) (fun _ _ => ?_)).iff ?_
          · simp [optN]
          · simp [LenOk]; omega
        · refine ((Ok.check (b := decide (n < a) || decide (n > b)) h3).congr (y := fun all => _)
            (fun _ _ => ?_)).iff ?_
          · simp [optN, hab]; rfl
          · simp [LenOk]
      | none =>
        refine ((Ok.check h4).congr (y := fun all => _) (fun _ _ => rfl)).iff ?_
        refine decide_eq_false_iff_not.trans ?_
        simp [LenOk, optN]
    | none =>
      cases max with
      | some b =>
        refine ((Ok.check h5).congr (y := fun all => _) (fun _ _ => rfl)).iff ?_
        simp [LenOk, optN]
      | none => exact (Ok.skip.congr (y := fun all => _) (fun _ _ => rfl)).iff (by simp [LenOk])

theorem strLen_ok (c : Ctx) (r : StringRules) (s : Bytes) :
    Ok (From c) (fun all => strLenTpl all c r s)
      (LenOk r.len r.minLen r.maxLen (runeCount s)) :=
  len_ok r.len r.minLen r.maxLen (runeCount s) _ _ _ _ _ (from_err c _) (from_err c _)
    (from_err c _) (from_err c _) (from_err c _)

theorem strLenBytes_ok (c : Ctx) (r : StringRules) (s : Bytes) :
    Ok (From c) (fun all => strLenBytesTpl all c r s)
      (LenOk r.lenBytes r.minBytes r.maxBytes s.length) :=
  len_ok r.lenBytes r.minBytes r.maxBytes s.length _ _ _ _ _ (from_err c _) (from_err c _)
    (from_err c _) (from_err c _) (from_err c _)

theorem optCheck {W : Err → Prop} (k : Option Bytes) (good : Bytes → Bool) (e : Err) (hW : W e)
    (P : Bytes → Prop) (h : ∀ a, good a = true ↔ P a) :
    Ok W (fun all => Exec.when (k.isSome && !good (optS k)) (report all e))
      (∀ a, k = some a → P a) := by
  refine (Ok.check hW).iff ?_
  cases k with
  | none => simp
  | some a => simp [optS, h]

theorem strAffix_ok (c : Ctx) (r : StringRules) (s : Bytes) :
    Ok (From c) (fun all => strAffixTpl all c r s)
      ((∀ p, r.pfx = some p → p <+: s) ∧ (∀ p, r.sfx = some p → p <:+ s) ∧
       (∀ p, r.contains = some p → p <:+: s) ∧ (∀ p, r.notContains = some p → ¬ p <:+: s)) := by
  refine Ok.seq (optCheck r.pfx (fun p => hasPrefix s p) _ (from_err c _) _
    (fun p => hasPrefix_iff s p)) ?_
  refine Ok.seq (optCheck r.sfx (fun p => hasSuffix s p) _ (from_err c _) _
    (fun p => hasSuffix_iff s p)) ?_
  refine Ok.seq (optCheck r.contains (fun p => containsSub s p) _ (from_err c _) _
    (fun p => containsSub_iff s p)) ?_
  refine (Ok.check (from_err c _)).iff ?_
  cases r.notContains with
  | none => simp
  | some a => simp [optS, ← containsSub_iff]

theorem matchErr_ok {W : Err → Prop} (o : Option String) (e : String → Err) (hW : ∀ s, W (e s)) :
    Ok W (fun all => match o with | some s => report all (e s) | none => skip) (o = none) := by
  cases o with
  | none => exact Ok.skip.iff (by simp)
  | some s => exact (Ok.report (hW s)).iff (by simp)

theorem strWellKnown_ok (E : Env) (c : Ctx) (r : StringRules) (s : Bytes) :
    Ok (From c) (fun all => strWellKnownTpl E all c r s) (WellKnownOk E r.wellKnown s) := by
  unfold strWellKnownTpl
  have four : ∀ ip : Bytes, (ipTo4 ip).isNone = false ↔ IPv4Bytes ip := by
    intro ip; rw [← ipTo4_iff]; cases ipTo4 ip <;> simp
  cases hw : r.wellKnown with
  | none =>
    simp only [StringRules.getIp, StringRules.getIpv4, StringRules.getIpv6, StringRules.getEmail,
      StringRules.getHostname, StringRules.getAddress, StringRules.getUri, StringRules.getUriRef,
      StringRules.getUuid, hw]
    exact Ok.skip
  | some w =>
    cases w with
    | regex k =>
      simp only [StringRules.getIp, StringRules.getIpv4, StringRules.getIpv6, StringRules.getEmail,
        StringRules.getHostname, StringRules.getAddress, StringRules.getUri, StringRules.getUriRef,
        StringRules.getUuid, hw]
      exact Ok.skip
    | _ b =>
      cases b
      · simp only [StringRules.getIp, StringRules.getIpv4, StringRules.getIpv6,
          StringRules.getEmail, StringRules.getHostname, StringRules.getAddress,
          StringRules.getUri, StringRules.getUriRef, StringRules.getUuid, hw]
        exact Ok.skip
      · simp only [StringRules.getIp, StringRules.getIpv4, StringRules.getIpv6,
          StringRules.getEmail, StringRules.getHostname, StringRules.getAddress,
          StringRules.getUri, StringRules.getUriRef, StringRules.getUuid, hw, WellKnownOk,
          if_true, if_false, Bool.false_eq_true]
        first
          | exact (matchErr_ok _ _ (fun _ => from_errCause c _ _)).iff (validateEmail_iff E s)
          | exact (matchErr_ok _ _ (fun _ => from_errCause c _ _)).iff (validateHostname_iff E s)
          | exact (matchErr_ok _ _ (fun _ => from_errCause c _ _)).iff (validateUuid_iff s)
          | (refine (Ok.check (from_err c _)).iff ?_
             cases hp : E.parseIP s <;> simp <;> done)
          | (refine (Ok.check (from_err c _)).iff ?_
             cases hp : E.parseIP s with
             | none => simp
             | some ip => simp [four]; done)
          | (refine (Ok.check (from_err c _)).iff ?_
             cases hp : E.parseIP s with
             | none => simp
             | some ip =>
               simp only [Option.some.injEq, exists_eq_left']
               rw [← four]
               cases ipTo4 ip <;> simp <;> done)
          | (rw [← validateHostname_iff]
             cases validateHostname E s with
             | none => exact Ok.skip.iff (by simp)
             | some e =>
               refine (Ok.check (from_err c _)).iff ?_
               cases hp : E.parseIP s <;> simp <;> done)
          | (cases hp : E.parseURL s with
             | error e => exact (Ok.report (from_errCause c _ _)).iff (by simp)
             | ok a =>
               first
                 | exact (Ok.check (from_err c _)).iff (by simp)
                 | exact Ok.skip.iff (by simp))

theorem strPattern_ok (E : Env) (c : Ctx) (r : StringRules) (s : Bytes) :
    Ok (From c) (fun all => strPatternTpl E all c r s)
      (∀ p, r.pattern = some p → E.matchRe p s = true) :=
  optCheck r.pattern (fun p => E.matchRe p s) _ (from_err c _) _ (fun _ => Iff.rfl)

theorem str_ok (E : Env) (c : Ctx) (r : StringRules) (s : Bytes) :
    Ok (From c) (fun all => strTpl E all c r s) (StringOk E r s) := by
  refine (ignoreEmpty_ok r.ignoreEmpty (s != []) (s = []) (by simp)
    ((strConst_ok c r s).seq ((strIn_ok c r s).seq ((strLen_ok c r s).seq ((strLenBytes_ok c r s).seq
      ((strAffix_ok c r s).seq ((strWellKnown_ok E c r s).seq (strPattern_ok E c r s)))))))).iff ?_
  unfold StringOk
  simp only [and_assoc]

theorem bytesCheck {W : Err → Prop} (k : Option Bytes) (good : Bytes → Bool) (e : Err) (hW : W e)
    (P : Bytes → Prop) (h : ∀ a, good a = true ↔ P a) (h0 : P []) :
    Ok W (fun all => Exec.when (!(optS k).isEmpty && !good (optS k)) (report all e))
      (∀ a, k = some a → P a) := by
  refine (Ok.check hW).iff ?_
  cases k with
  | none => simp [optS]
  | some a =>
    cases a with
    | nil => simp [optS, h0]
    | cons b bs => simp [optS, ← h]

theorem bytes_ok (E : Env) (c : Ctx) (r : BytesRules) (s : Bytes) :
    Ok (From c) (fun all => bytesTpl E all c r s) (BytesOk E r s) := by
  have h1 : Ok (From c) (fun all => bytesLenTpl all c r s)
      (LenOk r.len r.minLen r.maxLen s.length) :=
    len_ok r.len r.minLen r.maxLen s.length _ _ _ _ _ (from_err c _) (from_err c _)
      (from_err c _) (from_err c _) (from_err c _)
  have h2 : Ok (From c) (fun all => bytesAffixTpl all c r s)
      ((∀ p, r.pfx = some p → p <+: s) ∧ (∀ p, r.sfx = some p → p <:+ s) ∧
       (∀ p, r.contains = some p → p <:+: s)) := by
    refine Ok.seq (bytesCheck r.pfx (fun p => hasPrefix s p) _ (from_err c _) _
      (fun p => hasPrefix_iff s p) ⟨s, rfl⟩) ?_
    refine Ok.seq (bytesCheck r.sfx (fun p => hasSuffix s p) _ (from_err c _) _
      (fun p => hasSuffix_iff s p) ⟨s, by simp⟩) ?_
    exact bytesCheck r.contains (fun p => containsSub s p) _ (from_err c _) _
      (fun p => containsSub_iff s p) ⟨[], s, by simp⟩
  have h3 : Ok (From c) (fun all => bytesInTpl all c r s) (ListOk (· = ·) r.ins r.notIns s) :=
    inTpl_ok (· = ·) r.ins r.notIns s _ _ _ _ (from_err c _) (from_err c _) (by simp) (by simp)
  have h4 : Ok (From c) (fun all => bytesConstTpl all c r s)
      (∀ k, r.const = some k → k ≠ [] → s = k) := by
    refine (Ok.check (from_err c _)).iff ?_
    cases r.const with
    | none => simp [optS]
    | some a => cases a <;> simp [optS]
  have h5 : Ok (From c) (fun all => bytesIpTpl all c r s)
      (match r.wellKnown with
       | some (.ip true) => IPBytes s
       | some (.ipv4 true) => IPv4Bytes s
       | some (.ipv6 true) => IPBytes s ∧ ¬ IPv4Bytes s
       | _ => True) := by
    unfold bytesIpTpl
    have e4 := ipTo4_iff s
    have e16 := ipTo16_iff s
    cases hw : r.wellKnown with
    | none =>
      simp only [BytesRules.getIp, BytesRules.getIpv4, BytesRules.getIpv6, hw]
      exact Ok.skip
    | some w =>
      cases w with
      | _ b =>
        cases b
        · simp only [BytesRules.getIp, BytesRules.getIpv4, BytesRules.getIpv6, hw]
          exact Ok.skip
        · simp only [BytesRules.getIp, BytesRules.getIpv4, BytesRules.getIpv6, hw, if_true,
            if_false, Bool.false_eq_true]
          refine (Ok.check (from_err c _)).iff ?_
          first
            | rw [← e4, ← e16]
            | rw [← e4]
            | rw [← e16]
          cases ipTo4 s <;> cases ipTo16 s <;> simp
  have h6 : Ok (From c) (fun all => bytesPatternTpl E all c r s)
      (∀ p, r.pattern = some p → E.matchRe p s = true) :=
    optCheck r.pattern (fun p => E.matchRe p s) _ (from_err c _) _ (fun _ => Iff.rfl)
  refine (ignoreEmpty_ok r.ignoreEmpty (decide (s.length > 0)) (s = []) (by simp)
    (h1.seq (h2.seq (h3.seq (h4.seq (h5.seq h6)))))).iff ?_
  unfold BytesOk
  simp only [and_assoc]
  rfl

theorem enum_ok (c : Ctx) (defined : List Int) (r : EnumRules) (v : Int) :
    Ok (From c) (fun all => enumTpl all c defined r v) (EnumOk defined r v) := by
  have h : Ok (From c) (fun all => match r.const with
      | some k => Exec.when (v != k) (report all (err c [.s "value must equal ", .int k]))
      | none => skip) (∀ k, r.const = some k → v = k) := by
    cases r.const with
    | none => exact Ok.skip.iff (by simp)
    | some k => exact (Ok.check (from_err c _)).iff (by simp)
  refine Ok.seq h
    (Ok.seq (inTpl_ok (· = ·) r.ins r.notIns v _ _ _ _ (from_err c _) (from_err c _) (by simp)
      (by simp)) ?_)
  refine (Ok.check (from_err c _)).iff ?_
  rw [← optB_iff]
  cases optB r.definedOnly <;> simp

theorem required_ok (c : Ctx) (req isNil : Bool) :
    Ok (From c) (fun all => requiredTpl all c req isNil) (req = true → isNil = false) :=
  (Ok.check (from_err c _)).iff (by cases req <;> simp)

theorem any_ok (c : Ctx) (r : AnyRules) (a : Option Bytes) :
    Ok (From c) (fun all => anyTpl all c r a) (AnyOk r a) := by
  cases a with
  | none =>
    refine ((required_ok c (optB r.required) true).seq Ok.skip).iff ?_
    rw [optB_iff]; simp [AnyOk]
  | some u =>
    refine ((required_ok c (optB r.required) false).seq
      (inTpl_ok (· = ·) r.ins r.notIns u _ _ _ _ (from_err c _) (from_err c _) (by simp)
        (by simp))).iff ?_
    simp [AnyOk]

theorem durRange_ok (c : Ctx) (r : DurationRules) (x : Int) :
    Ok (From c) (fun all => durRangeTpl all c r x)
      (DurRangeOk (durUpper r) (durLower r) x) := by
  unfold durRangeTpl durUpper durLower
  cases r.lt with
  | some lt =>
    cases r.gt with
    | some gt =>
      simp only [durGt]
      refine (Ok.ite (Ok.check (from_err c _)) (Ok.check (from_err c _))).iff ?_
      simp only [decide_eq_true_eq, Bool.or_eq_false_iff, Bool.and_eq_false_imp,
        decide_eq_false_iff_not]
      simp [DurRangeOk, Bound.AsUpper, Bound.AsLower, PDur.lit] <;>
        (try split) <;> omega
    | none =>
      cases r.gte with
      | some gt =>
        simp only [durGt]
        refine (Ok.ite (Ok.check (from_err c _)) (Ok.check (from_err c _))).iff ?_
        simp only [decide_eq_true_eq, Bool.or_eq_false_iff, Bool.and_eq_false_imp,
          decide_eq_false_iff_not]
        simp [DurRangeOk, Bound.AsUpper, Bound.AsLower, PDur.lit] <;>
          (try split) <;> omega
      | none =>
        refine ((Ok.check (from_err c _)).iff ?_)
        simp [DurRangeOk, Bound.AsUpper, Bound.AsLower, PDur.lit]
  | none =>
    cases r.lte with
    | some lt =>
      cases r.gt with
      | some gt =>
        simp only [durGt]
        refine (Ok.ite (Ok.check (from_err c _)) (Ok.check (from_err c _))).iff ?_
        simp only [decide_eq_true_eq, Bool.or_eq_false_iff, Bool.and_eq_false_imp,
          decide_eq_false_iff_not]
        simp [DurRangeOk, Bound.AsUpper, Bound.AsLower, PDur.lit] <;>
          (try split) <;> omega
      | none =>
        cases r.gte with
        | some gt =>
          simp only [durGt]
          refine (Ok.ite (Ok.check (from_err c _)) (Ok.check (from_err c _))).iff ?_
          simp only [decide_eq_true_eq, Bool.or_eq_false_iff, Bool.and_eq_false_imp,
            decide_eq_false_iff_not]
          simp [DurRangeOk, Bound.AsUpper, Bound.AsLower, PDur.lit] <;>
            (try split) <;> omega
        | none =>
          refine ((Ok.check (from_err c _)).iff ?_)
          simp [DurRangeOk, Bound.AsUpper, Bound.AsLower, PDur.lit]
    | none =>
      cases r.gt with
      | some gt =>
        refine ((Ok.check (from_err c _)).iff (decide_eq_false_iff_not.trans ?_))
        simp [DurRangeOk, Bound.AsUpper, Bound.AsLower, PDur.lit]
      | none =>
        cases r.gte with
        | some gt =>
          refine ((Ok.check (from_err c _)).iff (decide_eq_false_iff_not.trans ?_))
          simp [DurRangeOk, Bound.AsUpper, Bound.AsLower, PDur.lit]
        | none => exact Ok.skip.iff (by simp [DurRangeOk])

theorem durationcmp_ok (c : Ctx) (r : DurationRules) (x : Int) :
    Ok (From c) (fun all => durationcmpTpl all c r x)
      ((∀ k, r.const = some k → x = k.exact) ∧ DurRangeOk (durUpper r) (durLower r) x ∧
       ListOk (fun x k => x = k) (r.ins.map PDur.asDuration) (r.notIns.map PDur.asDuration) x) := by
  have h : Ok (From c) (fun all => match r.const with
      | some k => Exec.when (x != k.lit) (report all (err c [.s "value must equal ", .dur k]))
      | none => skip) (∀ k, r.const = some k → x = k.exact) := by
    cases r.const with
    | none => exact Ok.skip.iff (by simp)
    | some k => exact (Ok.check (from_err c _)).iff (by simp [PDur.lit])
  refine Ok.seq h (Ok.seq (durRange_ok c r x) ?_)
  have := inTpl_ok (W := From c) (fun x k => x = k) (r.ins.map PDur.asDuration)
    (r.notIns.map PDur.asDuration) x (r.ins.any fun k => k.asDuration == x)
    (r.notIns.any fun k => k.asDuration == x)
    (err c [.s "value must be in list ", .durs r.ins])
    (err c [.s "value must not be in list ", .durs r.notIns]) (from_err c _) (from_err c _)
    (by simp only [List.any_eq_true, beq_iff_eq, List.mem_map]
        constructor
        · rintro ⟨k, hk, e⟩; exact ⟨_, ⟨k, hk, rfl⟩, e.symm⟩
        · rintro ⟨_, ⟨k, hk, rfl⟩, e⟩; exact ⟨k, hk, e.symm⟩)
    (by simp only [List.any_eq_true, beq_iff_eq, List.mem_map]
        constructor
        · rintro ⟨k, hk, e⟩; exact ⟨_, ⟨k, hk, rfl⟩, e.symm⟩
        · rintro ⟨_, ⟨k, hk, rfl⟩, e⟩; exact ⟨k, hk, e.symm⟩)
  refine this.congr ?_
  intro a acc
  cases r.ins <;> cases r.notIns <;> rfl

theorem duration_ok (c : Ctx) (r : DurationRules) (d : Option PDur) :
    Ok (From c) (fun all => durationTpl all c r d) (DurationOk r d) := by
  unfold durationTpl
  cases d with
  | none =>
    refine ((required_ok c (optB r.required) true).seq (Ok.skip.congr (y := fun _ => _) ?_)).iff ?_
    · intro a acc; split <;> rfl
    · rw [optB_iff]; simp [DurationOk]
  | some d =>
    have hc : (!r.ins.isEmpty || !r.notIns.isEmpty || r.lt.isSome || r.lte.isSome || r.gt.isSome ||
      r.gte.isSome || r.const.isSome) = true ↔ DurConstrained r := by
      unfold DurConstrained
      simp [Option.isSome_iff_ne_none, or_assoc]
    refine ((required_ok c (optB r.required) false).seq (Ok.ite
      (Ok.ite (Ok.report (from_errCause c _ _)) (durationcmp_ok c r d.asDuration)) Ok.skip)).iff ?_
    rw [hc]
    simp only [DurationOk]
    cases hv : d.valid <;> simp

theorem tsRange_ok (now : Int) (c : Ctx) (r : TimestampRules) (x : Int) :
    Ok (From c) (fun all => tsRangeTpl now all c r x)
      (RangeOk (tsUpper r) (tsLower r) x ∧
        (tsUpper r = none → tsLower r = none → NowOk now r x)) := by
  unfold tsRangeTpl tsUpper tsLower
  cases r.lt with
  | some lt =>
    cases r.gt with
    | some gt =>
      simp only [tsGt]
      refine (Ok.ite (Ok.check (from_err c _)) (Ok.check (from_err c _))).iff ?_
      simp only [decide_eq_true_eq, Bool.or_eq_false_iff, Bool.and_eq_false_imp,
        decide_eq_false_iff_not]
      simp [RangeOk, Bound.AsUpper, Bound.AsLower, sub_lt_zero, sub_le_zero, sub_ge_zero,
          sub_gt_zero, Instant, asTime_eq] <;>
        (try split) <;> omega
    | none =>
      cases r.gte with
      | some gt =>
        simp only [tsGt]
        refine (Ok.ite (Ok.check (from_err c _)) (Ok.check (from_err c _))).iff ?_
        simp only [decide_eq_true_eq, Bool.or_eq_false_iff, Bool.and_eq_false_imp,
          decide_eq_false_iff_not]
        simp [RangeOk, Bound.AsUpper, Bound.AsLower, sub_lt_zero, sub_le_zero, sub_ge_zero,
          sub_gt_zero, Instant, asTime_eq] <;>
          (try split) <;> omega
      | none =>
        refine ((Ok.check (from_err c _)).iff ?_)
        simp [RangeOk, Bound.AsUpper, Bound.AsLower, sub_lt_zero, sub_le_zero, sub_ge_zero,
          sub_gt_zero, Instant, asTime_eq]
  | none =>
    cases r.lte with
    | some lt =>
      cases r.gt with
      | some gt =>
        simp only [tsGt]
        refine (Ok.ite (Ok.check (from_err c _)) (Ok.check (from_err c _))).iff ?_
        simp only [decide_eq_true_eq, Bool.or_eq_false_iff, Bool.and_eq_false_imp,
          decide_eq_false_iff_not]
        simp [RangeOk, Bound.AsUpper, Bound.AsLower, sub_lt_zero, sub_le_zero, sub_ge_zero,
          sub_gt_zero, Instant, asTime_eq] <;>
          (try split) <;> omega
      | none =>
        cases r.gte with
        | some gt =>
          simp only [tsGt]
          refine (Ok.ite (Ok.check (from_err c _)) (Ok.check (from_err c _))).iff ?_
          simp only [decide_eq_true_eq, Bool.or_eq_false_iff, Bool.and_eq_false_imp,
            decide_eq_false_iff_not]
          simp [RangeOk, Bound.AsUpper, Bound.AsLower, sub_lt_zero, sub_le_zero, sub_ge_zero,
          sub_gt_zero, Instant, asTime_eq] <;>
            (try split) <;> omega
        | none =>
          refine ((Ok.check (from_err c _)).iff ?_)
          simp [RangeOk, Bound.AsUpper, Bound.AsLower, sub_lt_zero, sub_le_zero, sub_ge_zero,
          sub_gt_zero, Instant, asTime_eq]
    | none =>
      cases r.gt with
      | some gt =>
        refine ((Ok.check (from_err c _)).iff ?_)
        simp [RangeOk, Bound.AsUpper, Bound.AsLower, sub_lt_zero, sub_le_zero, sub_ge_zero,
          sub_gt_zero, Instant, asTime_eq]
      | none =>
        cases r.gte with
        | some gt =>
          refine ((Ok.check (from_err c _)).iff ?_)
          simp [RangeOk, Bound.AsUpper, Bound.AsLower, sub_lt_zero, sub_le_zero, sub_ge_zero,
          sub_gt_zero, Instant, asTime_eq]
        | none =>
          unfold NowOk
          cases r.ltNow with
          | some b =>
            cases r.within with
            | some w =>
              refine ((Ok.check (from_err c _)).iff ?_)
              simp [RangeOk, sub_lt_zero, sub_le_zero, sub_ge_zero,
                sub_gt_zero, Instant, Instant.add, PDur.lit]
              omega
            | none =>
              refine ((Ok.check (from_err c _)).iff ?_)
              simp [RangeOk, sub_lt_zero, sub_le_zero, sub_ge_zero,
                sub_gt_zero, Instant, Instant.add, PDur.lit]
          | none =>
            cases r.gtNow with
            | some b =>
              cases r.within with
              | some w =>
                refine ((Ok.check (from_err c _)).iff ?_)
                simp [RangeOk, sub_lt_zero, sub_le_zero, sub_ge_zero,
                  sub_gt_zero, Instant, Instant.add, PDur.lit]
              | none =>
                refine ((Ok.check (from_err c _)).iff ?_)
                simp [RangeOk, sub_lt_zero, sub_le_zero, sub_ge_zero,
                  sub_gt_zero, Instant, Instant.add, PDur.lit]
            | none =>
              cases r.within with
              | some w =>
                refine ((Ok.check (from_err c _)).iff ?_)
                simp [RangeOk, sub_lt_zero, sub_le_zero, sub_ge_zero,
                  sub_gt_zero, Instant, Instant.add, PDur.lit]
                omega
              | none => exact Ok.skip.iff (by simp [RangeOk])

theorem timestamp_ok (now : Int) (c : Ctx) (r : TimestampRules) (t : Option PTime) :
    Ok (From c) (fun all => timestampTpl now all c r t) (TimestampOk now r t) := by
  unfold timestampTpl
  cases t with
  | none =>
    refine ((required_ok c (optB r.required) true).seq (Ok.skip.congr (y := fun _ => _) ?_)).iff ?_
    · intro a acc; split <;> rfl
    · rw [optB_iff]; simp [TimestampOk]
  | some t =>
    have hc : (r.lt.isSome || r.lte.isSome || r.gt.isSome || r.gte.isSome || r.ltNow.isSome ||
      r.gtNow.isSome || r.within.isSome || r.const.isSome) = true ↔ TsConstrained r := by
      unfold TsConstrained
      simp [Option.isSome_iff_ne_none, or_assoc]
    have h : Ok (From c) (fun all => match r.const with
        | some k => Exec.when (!decide (t.asTime = k.asTime))
            (report all (err c [.s "value must equal ", .ts k]))
        | none => skip) (∀ k, r.const = some k → instant t = instant k) := by
      cases r.const with
      | none => exact Ok.skip.iff (by simp)
      | some k =>
        refine (Ok.check (from_err c _)).iff ?_
        simp only [asTime_eq, Bool.not_eq_false', Option.some.injEq, forall_eq']
        exact decide_eq_true_iff
    have hcmp : Ok (From c) (fun all => timestampcmpTpl now all c r t.asTime) _ :=
      Ok.seq h (tsRange_ok now c r t.asTime)
    refine ((required_ok c (optB r.required) false).seq (Ok.ite
      (Ok.ite (Ok.report (from_errCause c _ _)) hcmp) Ok.skip)).iff ?_
    rw [hc]
    simp only [TimestampOk, asTime_eq]
    cases hv : t.valid <;> simp

end PGV.Go
