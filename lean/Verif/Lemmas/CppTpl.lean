import Verif.Lemmas.CppNum
import Verif.Lemmas.CppLit
import Verif.Lemmas.Known
import Verif.Lemmas.JavaTpl

/-!
Generated C++ code for strings, bytes, enums and well-known messages.
-/

set_option linter.unusedSimpArgs false
set_option autoImplicit false

namespace PGV.Cpp
open PGV PGV.Spec.Cpp
open PGV.Go (Ctx Env durGt valid_iff)
open PGV.Spec (LenOk ListOk StringOk BytesOk EnumOk AnyOk DurationOk WellKnownOk Utf8 PortDur TimestampOk
  TsConstrained DurConstrained DurRangeOk durUpper durLower Bound goLower HostnameOk Hostname IPBytes
  IPv4Bytes ValidDuration)

theorem len_decides (T : LenText) (c : Ctx) (len min max : Option Nat) (n : Nat) :
    Decides (lenTpl T c len min max n) (LenOk len min max n) := by
  unfold lenTpl
  cases len with
  | some k =>
    simp only [Option.isSome_some, Bool.true_or, if_true]
    exact Decides.check (by simp [LenOk, optN])
  | none =>
    cases min with
    | none =>
      cases max with
      | none => exact Decides.ok.iff (by simp [LenOk])
      | some b =>
        simp only [Option.isSome_none, Option.isSome_some, Bool.false_and, Bool.or_self,
          Bool.false_eq_true, if_false, if_true]
        exact Decides.check (by simp [LenOk, optN])
    | some a =>
      cases max with
      | none =>
        simp only [Option.isSome_none, Option.isSome_some, Bool.false_and, Bool.and_false, Bool.or_self,
          Bool.false_eq_true, if_false, if_true]
        exact Decides.check (by
          simp [LenOk, optN]; exact decide_eq_false_iff_not.trans Nat.not_lt)
      | some b =>
        simp only [Option.isSome_none, Option.isSome_some, Bool.true_and, Bool.and_self, Bool.false_or,
          Bool.false_eq_true, if_false, if_true, optN, Option.getD_some, beq_iff_eq]
        refine Decides.ite (fun h => Decides.check ?_) (fun h => Decides.check ?_)
        · subst h; simp [LenOk]; omega
        · simp [LenOk]; exact fun _ => decide_eq_false_iff_not.trans Nat.not_lt

theorem opt_decides {c : Ctx} {o : Option Bytes} {b : Bytes → Bool} {txt : Bytes → List Go.Piece}
    {p : Bytes → Prop} (h : ∀ a, o = some a → (b a = false ↔ p a)) :
    Decides (withOpt o fun a => when (b a) (fail c (txt a))) (∀ a, o = some a → p a) :=
  Decides.withOpt fun a ha => Decides.check (h a ha)

theorem found_iff {α : Type} [BEq α] [LawfulBEq α] (g : α → α) (l : List α) (s : α)
    (h : ∀ a ∈ l, g a = a) : (l.map g).contains s = true ↔ ∃ k ∈ l, s = k := by
  rw [List.contains_iff_mem, List.mem_map]
  constructor
  · rintro ⟨a, ha, e⟩; exact ⟨a, ha, by rw [← e, h a ha]⟩
  · rintro ⟨a, ha, rfl⟩; exact ⟨s, ha, h s ha⟩

theorem wellKnown_decides {E : Env} {P : CEnv} (c : Ctx) (r : StringRules) (s : Bytes)
    (h : ∀ w, r.wellKnown = some w → FormatAgrees E P w s) :
    Decides (strWellKnownTpl P c r s) (WellKnownOk E r.wellKnown s) := by
  have hip : isIp P s = true ↔ (P.pton4 (upToNul s) = true ∨ P.pton6 (upToNul s) = true) := by
    unfold isIp isIpv4 isIpv6; rw [Bool.or_eq_true]; exact Iff.rfl
  have h4 : isIpv4 P s = true ↔ P.pton4 (upToNul s) = true := Iff.rfl
  have h6 : isIpv6 P s = true ↔ P.pton6 (upToNul s) = true := Iff.rfl
  have neg : ∀ b : Bool, (!b) = false ↔ b = true := by intro b; cases b <;> simp
  unfold strWellKnownTpl StringRules.getEmail StringRules.getAddress
    StringRules.getHostname StringRules.getIp StringRules.getIpv4 StringRules.getIpv6
    StringRules.getUri StringRules.getUriRef StringRules.getUuid
  cases hk : r.wellKnown with
  | none => exact Decides.ok.iff (by simp [WellKnownOk])
  | some w =>
    have ha := h w hk
    cases w with
    | regex k => exact Decides.ok.iff (by simp [WellKnownOk])
    | _ b =>
      cases b with
      | false => exact Decides.ok.iff (by simp [WellKnownOk])
      | true =>
        simp only [if_true, Bool.false_eq_true, if_false]
        first
          | exact False.elim ha
          | exact Decides.check (by rw [neg, hip]; exact ha)
          | exact Decides.check (by rw [neg, h4]; exact ha)
          | exact Decides.check (by rw [neg, h6]; exact ha)
          | exact Decides.check (by
              rw [neg, isHostname_iff]; exact (Go.hostname_iff ha).symm)
          | exact Decides.check (by rw [neg, PGV.matchFull_uuid]; exact Iff.rfl)
          | (refine Decides.check ?_
             rw [← Bool.not_eq_true, Bool.and_eq_true, Bool.not_eq_true', Bool.not_eq_true',
               ← Bool.not_eq_true, ← Bool.not_eq_true, hip, isHostname_iff]
             show _ ↔ HostnameOk (goLower E) s ∨ _
             rw [Go.hostname_iff ha.1, ← ha.2]
             constructor
             · intro h'
               by_cases hh : Hostname s
               · exact .inl hh
               · exact .inr (Classical.byContradiction fun hx => h' ⟨hh, hx⟩)
             · rintro (h' | h') ⟨h1, h2⟩
               · exact h1 h'
               · exact h2 h')

theorem string_decides {E : Env} {P : CEnv} {S : Schema} (hL : LibsAgree E P S) (c : Ctx)
    (r : StringRules) (s : Bytes) (hr : PortString r) (hs : FitsString E P r s) :
    Decides (strTpl P c r s) (StringOk E r s) := by
  obtain ⟨h1, h2, h3, h4⟩ := hr
  obtain ⟨hu, hpat, hwk⟩ := hs
  have lit : ∀ k, CString k → strVal P.isPrint k = k := fun k hk => strVal_eq P.isPrint hL.isPrint hk
  have hl := lit
  unfold strTpl StringOk
  refine Decides.ignore ?_ (by simp)
  refine (Decides.seq (opt_decides (p := fun k => s = k) ?_) fun _ =>
    Decides.seq (in_decides c (· = ·) r.ins r.notIns s _ _ (ListOk (· = ·) r.ins r.notIns s) ?_ ?_ Iff.rfl)
      fun _ =>
    Decides.seq (len_decides _ c _ _ _ _) fun _ => Decides.seq (len_decides _ c _ _ _ _) fun _ =>
    Decides.seq (opt_decides (p := fun p => p <+: s) ?_) fun _ =>
    Decides.seq (opt_decides (p := fun p => p <:+ s) ?_) fun _ =>
    Decides.seq (opt_decides (p := fun p => p <:+: s) ?_) fun _ =>
    Decides.seq (opt_decides (p := fun p => ¬ p <:+: s) ?_) fun _ =>
    Decides.seq (opt_decides (p := fun p => E.matchRe p s = true) ?_) fun _ =>
    wellKnown_decides c r s hwk).iff ?_
  · intro a ha; rw [hl a (h1 a (by simp [ha]))]; simp
  · exact fun _ => found_iff _ _ _ fun a ha => hl a (h2 a ha)
  · exact fun _ => found_iff _ _ _ fun a ha => hl a (h3 a ha)
  · intro a ha; rw [hl a (h1 a (by simp [ha])), Bool.not_eq_false', isPrefix_iff]
  · intro a ha; rw [hl a (h1 a (by simp [ha])), Bool.not_eq_false', isSuffix_iff]
  · intro a ha; rw [hl a (h1 a (by simp [ha])), Bool.not_eq_false', contains_iff]
  · intro a ha; rw [hl a (h1 a (by simp [ha])), ← Bool.not_eq_true, contains_iff]
  · intro a ha
    rw [strChars_eq P.isPrint hL.isPrint (h4 a ha), Bool.not_eq_false', hpat a ha]
  · rw [utf8Len_eq hu]
    constructor
    · rintro ⟨a, b, c, d, e, f, g, h, i, j⟩; exact ⟨a, b, c, d, e, f, g, h, j, i⟩
    · rintro ⟨a, b, c, d, e, f, g, h, j, i⟩; exact ⟨a, b, c, d, e, f, g, h, i, j⟩

theorem withBytes_decides {c : Ctx} {o : Option Bytes} {b : Bytes → Bool} {txt : Bytes → List Go.Piece}
    {p : Bytes → Prop} (h : ∀ a, o = some a → a ≠ [] → (b a = false ↔ p a)) :
    Decides (withBytes o fun a => when (b a) (fail c (txt a))) (∀ a, o = some a → a ≠ [] → p a) := by
  unfold withBytes
  cases o with
  | none => exact Decides.ok.iff (by simp)
  | some a =>
    simp only [optS, Option.getD_some]
    refine Decides.ite (fun e => Decides.ok.iff (by simp [e])) fun e => ?_
    exact Decides.check (by rw [h a rfl e]; simp [e])

theorem bytes_decides {E : Env} {P : CEnv} {S : Schema} (hL : LibsAgree E P S) (c : Ctx)
    (r : BytesRules) (s : Bytes) (hr : PortBytes r)
    (hpat : ∀ p, r.pattern = some p → P.fullMatch p s = E.matchRe p s) :
    Decides (bytesTpl P c r s) (BytesOk E r s) := by
  obtain ⟨h1, h2, h3, h4, h5⟩ := hr
  have hwk : (r.getIp || r.getIpv4 || r.getIpv6) = false ∧
      (match r.wellKnown with
       | some (.ip true) => IPBytes s
       | some (.ipv4 true) => IPv4Bytes s
       | some (.ipv6 true) => IPBytes s ∧ ¬ IPv4Bytes s
       | _ => True) := by
    unfold BytesRules.getIp BytesRules.getIpv4 BytesRules.getIpv6
    cases hw : r.wellKnown with
    | none => simp
    | some w => rcases h5 w hw with rfl | rfl | rfl <;> simp
  unfold bytesTpl BytesOk
  refine Decides.ignore ?_ (by simp)
  refine (Decides.seq (withBytes_decides (p := fun k => s = k) ?_) fun _ =>
    Decides.seq (in_decides c (· = ·) r.ins r.notIns s _ _ (ListOk (· = ·) r.ins r.notIns s) ?_ ?_ Iff.rfl)
      fun _ =>
    Decides.seq (len_decides _ c _ _ _ _) fun _ =>
    Decides.seq (withBytes_decides (p := fun p => p <+: s) ?_) fun _ =>
    Decides.seq (withBytes_decides (p := fun p => p <:+ s) ?_) fun _ =>
    Decides.seq (withBytes_decides (p := fun p => p <:+: s) ?_) fun _ =>
    Decides.seq (opt_decides (p := fun p => E.matchRe p s = true) ?_) fun _ =>
    (?_ : Decides (when (r.getIp || r.getIpv4 || r.getIpv6) _) True)).iff ?_
  · intro a ha _; rw [bytesVal_eq (h1 a (by simp [ha]))]; simp
  · exact fun _ => found_iff _ _ _ fun a ha => bytesKey_eq (h2 a ha)
  · exact fun _ => found_iff _ _ _ fun a ha => bytesKey_eq (h3 a ha)
  · intro a ha _; rw [bytesVal_eq (h1 a (by simp [ha])), Bool.not_eq_false', isPrefix_iff]
  · intro a ha _; rw [bytesVal_eq (h1 a (by simp [ha])), Bool.not_eq_false', isSuffix_iff]
  · intro a ha _; rw [bytesVal_eq (h1 a (by simp [ha])), Bool.not_eq_false', contains_iff]
  · intro a ha
    rw [strChars_eq P.isPrint hL.isPrint (h4 a ha), Bool.not_eq_false', hpat a ha]
  · rw [hwk.1]; exact Decides.ok
  · have e : ∀ (o : Option Bytes) (p : Bytes → Prop), p [] →
        ((∀ a, o = some a → a ≠ [] → p a) ↔ ∀ a, o = some a → p a) := by
      intro o p h0
      refine ⟨fun h a ha => ?_, fun h a ha _ => h a ha⟩
      by_cases he : a = []
      · rw [he]; exact h0
      · exact h a ha he
    rw [e r.pfx (fun p => p <+: s) (List.nil_prefix), e r.sfx (fun p => p <:+ s) (List.nil_suffix),
      e r.contains (fun p => p <:+: s) (List.nil_infix)]
    constructor
    · rintro ⟨a, b, c, d, e, f, g, -⟩; exact ⟨c, d, e, f, b, a, hwk.2, g⟩
    · rintro ⟨c, d, e, f, b, a, -, g⟩; exact ⟨a, b, c, d, e, f, g, trivial⟩

theorem enum_decides (c : Ctx) (declared : List Int) (r : EnumRules) (n : Int) :
    Decides (enumTpl c declared r n) (EnumOk declared r n) := by
  unfold enumTpl EnumOk
  refine Decides.seq ?_ fun _ => Decides.seq
    (in_decides c (· = ·) r.ins r.notIns n _ _ (ListOk (· = ·) r.ins r.notIns n) ?_ ?_ Iff.rfl) fun _ => ?_
  · exact Decides.withOpt fun k _ => Decides.check (by simp)
  · intro _; simp
  · intro _; simp
  · refine Decides.check ?_
    rw [← Bool.not_eq_true, Bool.and_eq_true, optB_iff]
    simp

theorem required_decides (c : Ctx) (b : Option Bool) (has : Bool) :
    Decides (requiredTpl c (optB b) has) (b = some true → has = true) := by
  refine Decides.check ?_
  rw [← Bool.not_eq_true, Bool.and_eq_true, optB_iff]
  cases has <;> simp

theorem any_decides {E : Env} {P : CEnv} {S : Schema} (hL : LibsAgree E P S) (c : Ctx) (r : AnyRules)
    (url : Option Bytes) (hr : PortAny r) : Decides (anyTpl P c r url) (AnyOk r url) := by
  have lit : ∀ k, CString k → strVal P.isPrint k = k := fun k hk => strVal_eq P.isPrint hL.isPrint hk
  unfold anyTpl AnyOk
  cases url with
  | none => exact ((required_decides c _ _).seq fun _ => Decides.ok).iff (by simp)
  | some u =>
    refine ((required_decides c _ _).seq fun _ => ?_).iff (q := ListOk (· = ·) r.ins r.notIns u)
      (p := _ ∧ ListOk (· = ·) r.ins r.notIns u) (by simp)
    have hi : (r.ins.map (strVal P.isPrint)).contains u = true ↔ ∃ k ∈ r.ins, u = k :=
      found_iff _ _ _ fun a ha => lit a (hr.1 a ha)
    have hn : (r.notIns.map (strVal P.isPrint)).contains u = true ↔ ∃ k ∈ r.notIns, u = k :=
      found_iff _ _ _ fun a ha => lit a (hr.2 a ha)
    simp only
    cases hins : r.ins with
    | cons a l =>
      simp only [List.isEmpty_cons, Bool.not_false, if_true]
      refine Decides.check ?_
      rw [← hins, Bool.not_eq_false', hi, hins]
      simp [ListOk]
    | nil =>
      simp only [List.isEmpty_nil, Bool.not_true, Bool.false_eq_true, if_false]
      cases hnot : r.notIns with
      | cons a l =>
        simp only [List.isEmpty_cons, Bool.not_false, if_true]
        refine Decides.check ?_
        rw [← hnot, ← Bool.not_eq_true, hn]
        unfold ListOk
        simp
        exact ⟨fun h k hk e => h (e ▸ hk), fun h hu => h u hu rfl⟩
      | nil => exact Decides.ok.iff (by simp [ListOk])

/-! ### Durations -/

theorem durLit_eq {d : PDur} (h : PortDur d) : durLit d = d := by
  obtain ⟨s, n⟩ := d
  have hv := (valid_iff _).1 h.1
  obtain ⟨-, ⟨h1, h2⟩, h3, h4⟩ := hv
  simp only at h1 h2 h3 h4
  unfold durLit
  simp only
  have key : ∀ s n : Int, 0 ≤ s → 0 ≤ n → n < 1000000000 →
      (s * 1000000000 + n).tdiv 1000000000 = s ∧ (s * 1000000000 + n).tmod 1000000000 = n := by
    intro s n hs hn hn'
    rw [Int.tdiv_eq_ediv_of_nonneg (by omega), Int.tmod_eq_emod_of_nonneg (by omega)]
    omega
  by_cases hs : 0 ≤ s ∧ 0 ≤ n
  · obtain ⟨e1, e2⟩ := key s n hs.1 hs.2 (by omega)
    rw [e1, e2]
  · obtain ⟨e1, e2⟩ := key (-s) (-n) (by omega) (by omega) (by omega)
    have e : s * 1000000000 + n = -(-s * 1000000000 + -n) := by omega
    rw [e, Int.neg_tdiv, Int.neg_tmod, e1, e2]
    simp

theorem durLess_iff {a b : PDur} (ha : a.valid = true) (hb : b.valid = true) :
    durLess a b = decide (a.exact < b.exact) := by
  unfold durLess PDur.exact
  rw [valid_iff] at ha hb
  obtain ⟨⟨-, -⟩, ⟨a1, a2⟩, a3, a4⟩ := ha
  obtain ⟨⟨-, -⟩, ⟨b1, b2⟩, b3, b4⟩ := hb
  split <;> rw [decide_eq_decide] <;> omega

theorem durLe_iff {a b : PDur} (ha : a.valid = true) (hb : b.valid = true) :
    durLe a b = decide (a.exact ≤ b.exact) := by
  unfold durLe
  rw [durLess_iff hb ha, ← decide_not, decide_eq_decide]
  omega

theorem durEq_iff {a b : PDur} (ha : a.valid = true) (hb : b.valid = true) :
    durEq a b = decide (a.exact = b.exact) := by
  unfold durEq
  rw [durLess_iff hb ha, durLess_iff ha hb, ← decide_not, ← decide_not, ← Bool.decide_and,
    decide_eq_decide]
  omega

theorem durInvalid_iff {d : PDur} (h : FitsDuration d) : durInvalid d = false ↔ d.valid = true := by
  obtain ⟨h1, h2, -⟩ := h
  rw [valid_iff]
  unfold durInvalid ValidDuration
  simp only [Bool.or_eq_false_iff, decide_eq_false_iff_not]
  omega

/-- A bound of a duration range. -/
theorem durRange_decides (c : Ctx) (r : DurationRules) (d : PDur) (hd : PortDur d)
    (h : ∀ b, r.lt = some b ∨ r.lte = some b ∨ r.gt = some b ∨ r.gte = some b → PortDur b) :
    Decides (durRangeTpl c r d) (DurRangeOk (durUpper r) (durLower r) d.exact) := by
  have as : ∀ a, PortDur a → a.asDuration = a.exact := fun a ha => Java.portDur_asDuration ha
  have gt : ∀ a b, PortDur a → PortDur b → durGt a b = decide (b.exact < a.exact) := by
    intro a b ha hb
    unfold durGt
    rw [as a ha, as b hb]
  unfold durRangeTpl durUpper durLower
  cases hlt : r.lt with
  | some lt =>
    have pl := h lt (by simp [hlt])
    cases hgt : r.gt with
    | some g =>
      have pg := h g (by simp [hgt])
      simp only [gt lt g pl pg, durLit_eq pl, durLit_eq pg]
      refine Decides.ite (fun hc => Decides.check ?_) (fun hc => Decides.check ?_) <;>
        rw [durLe_iff hd.1 pg.1, durLe_iff pl.1 hd.1] <;>
        simp_all [DurRangeOk, Bound.AsUpper, Bound.AsLower] <;> (try split) <;> omega
    | none =>
      cases hgte : r.gte with
      | some g =>
        have pg := h g (by simp [hgte])
        simp only [gt lt g pl pg, durLit_eq pl, durLit_eq pg]
        refine Decides.ite (fun hc => Decides.check ?_) (fun hc => Decides.check ?_) <;>
          rw [durLess_iff hd.1 pg.1, durLe_iff pl.1 hd.1] <;>
          simp_all [DurRangeOk, Bound.AsUpper, Bound.AsLower] <;> (try split) <;> omega
      | none =>
        refine Decides.check ?_
        rw [durLit_eq pl, durLe_iff pl.1 hd.1]
        simp [DurRangeOk, Bound.AsUpper]
  | none =>
    cases hlte : r.lte with
    | some lt =>
      have pl := h lt (by simp [hlte])
      cases hgt : r.gt with
      | some g =>
        have pg := h g (by simp [hgt])
        simp only [gt lt g pl pg, durLit_eq pl, durLit_eq pg]
        refine Decides.ite (fun hc => Decides.check ?_) (fun hc => Decides.check ?_) <;>
          rw [durLe_iff hd.1 pg.1, durLess_iff pl.1 hd.1] <;>
          simp_all [DurRangeOk, Bound.AsUpper, Bound.AsLower] <;> (try split) <;> omega
      | none =>
        cases hgte : r.gte with
        | some g =>
          have pg := h g (by simp [hgte])
          simp only [gt lt g pl pg, durLit_eq pl, durLit_eq pg]
          refine Decides.ite (fun hc => Decides.check ?_) (fun hc => Decides.check ?_) <;>
            rw [durLess_iff hd.1 pg.1, durLess_iff pl.1 hd.1] <;>
            simp_all [DurRangeOk, Bound.AsUpper, Bound.AsLower] <;> (try split) <;> omega
        | none =>
          refine Decides.check ?_
          rw [durLit_eq pl, durLess_iff pl.1 hd.1]
          simp [DurRangeOk, Bound.AsUpper]
    | none =>
      cases hgt : r.gt with
      | some g =>
        have pg := h g (by simp [hgt])
        refine Decides.check ?_
        rw [durLit_eq pg, durLe_iff hd.1 pg.1]
        simp [DurRangeOk, Bound.AsLower]
      | none =>
        cases hgte : r.gte with
        | some g =>
          have pg := h g (by simp [hgte])
          refine Decides.check ?_
          rw [durLit_eq pg, durLess_iff hd.1 pg.1]
          simp [DurRangeOk, Bound.AsLower]
        | none => exact Decides.ok.iff (by simp [DurRangeOk])

theorem durFind_iff (l : List PDur) (d : PDur) (hd : PortDur d) (hl : ∀ k ∈ l, PortDur k) :
    setFind durLess (l.map durLit) d = true ↔ ∃ k ∈ l, d.asDuration = k.asDuration := by
  unfold setFind
  rw [List.any_map, List.any_eq_true]
  refine exists_congr fun b => and_congr_right fun hb => ?_
  have pb := hl b hb
  simp only [Function.comp, durLit_eq pb, durLess_iff pb.1 hd.1, durLess_iff hd.1 pb.1]
  rw [Java.portDur_asDuration hd, Java.portDur_asDuration pb]
  simp
  omega

theorem duration_decides (c : Ctx) (r : DurationRules) (d : Option PDur) (hr : PortDuration r)
    (hd : ∀ x, d = some x → FitsDuration x) : Decides (durationTpl c r d) (DurationOk r d) := by
  obtain ⟨hb, hi, hn⟩ := hr
  unfold durationTpl DurationOk
  cases d with
  | none =>
    refine ((required_decides c _ _).seq (q := True) fun _ => ?_).iff (by simp)
    exact Decides.ite (fun _ => Decides.ok) (fun _ => Decides.ok)
  | some d =>
    have fd := hd d rfl
    have e : ∀ q : Prop, ((r.required = some true → (some d).isSome = true) ∧ q) ↔ q := by simp
    refine ((required_decides c _ _).seq fun _ => ?_).iff (e _)
    have hc : (!r.ins.isEmpty || !r.notIns.isEmpty || r.lt.isSome || r.lte.isSome || r.gt.isSome ||
        r.gte.isSome || r.const.isSome) = true ↔ DurConstrained r := by
      unfold DurConstrained
      simp only [Bool.or_eq_true, Bool.not_eq_true', List.isEmpty_eq_false_iff, Option.isSome_iff_ne_none]
      simp only [or_assoc]
    refine Decides.ite (fun h => ?_) (fun h => ?_)
    · have hC := hc.1 h
      simp only
      refine (Decides.seq (p := d.valid = true) ?_ fun hv => Decides.seq (p := ∀ k, r.const = some k → d.asDuration = k.exact) ?_ fun _ =>
        Decides.seq (p := DurRangeOk (durUpper r) (durLower r) d.asDuration) ?_ fun _ =>
        in_decides c (fun x (k : PDur) => x = k.asDuration) r.ins r.notIns d.asDuration _ _
          (ListOk (fun x k => x = k) (r.ins.map PDur.asDuration) (r.notIns.map PDur.asDuration)
            d.asDuration) ?_ ?_ ?_).iff ?_
      · refine Decides.when (fun _ => Decides.failIdx _ _ _ _) ?_
        rw [← durInvalid_iff fd]
        cases durInvalid d <;> simp
      · have pd : PortDur d := ⟨hv, fd.2.2 hv⟩
        refine Decides.withOpt fun k hk => Decides.check ?_
        have pk := hb k (.inl hk)
        rw [durLit_eq pk, durEq_iff pd.1 pk.1, Java.portDur_asDuration pd]
        simp
      · have pd : PortDur d := ⟨hv, fd.2.2 hv⟩
        rw [Java.portDur_asDuration pd]
        exact durRange_decides c r d pd fun b h' => hb b (.inr h')
      · have pd : PortDur d := ⟨hv, fd.2.2 hv⟩
        exact fun _ => durFind_iff _ _ pd hi
      · have pd : PortDur d := ⟨hv, fd.2.2 hv⟩
        exact fun _ => durFind_iff _ _ pd hn
      · unfold ListOk
        simp only [List.mem_map, ne_eq, List.map_eq_nil_iff]
        constructor
        · rintro ⟨a, b⟩
          refine ⟨fun h' => ?_, fun h' k ⟨x, hx, e⟩ => e ▸ b h' x hx⟩
          obtain ⟨x, hx, e⟩ := a h'
          exact ⟨_, ⟨x, hx, rfl⟩, e⟩
        · rintro ⟨a, b⟩
          refine ⟨fun h' => ?_, fun h' k hk => b h' _ ⟨k, hk, rfl⟩⟩
          obtain ⟨-, ⟨x, hx, rfl⟩, e⟩ := a h'
          exact ⟨x, hx, e⟩
      · simp [hC]
    · have hC : ¬ DurConstrained r := fun x => h (hc.2 x)
      exact Decides.ok.iff (by simp [hC])

theorem timestamp_decides (now : Int) (c : Ctx) (r : TimestampRules) (t : Option PTime)
    (hr : ¬ TsConstrained r) : Decides (timestampTpl c r t) (TimestampOk now r t) := by
  have hc : (r.lt.isSome || r.lte.isSome || r.gt.isSome || r.gte.isSome || r.ltNow.isSome ||
      r.gtNow.isSome || r.within.isSome || r.const.isSome) = false := by
    rw [← Bool.not_eq_true]
    intro h
    apply hr
    unfold TsConstrained
    simpa only [Bool.or_eq_true, Option.isSome_iff_ne_none, or_assoc] using h
  unfold timestampTpl TimestampOk
  rw [hc]
  refine ((required_decides c _ _).seq (q := True) fun _ => Decides.ok).iff ?_
  cases t <;> simp [hr]

end PGV.Cpp
