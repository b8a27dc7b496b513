import Verif.Lemmas.JavaNum
import Verif.Lemmas.JavaStr
import Verif.Lemmas.JavaLit
import Verif.Lemmas.Times

/-!
Generated Java code accepts a portable value under portable rules exactly when it satisfies them.
-/

set_option linter.unusedSimpArgs false
set_option autoImplicit false

namespace PGV.Java
open PGV PGV.Spec PGV.Checker
open PGV.Go (Env asDuration_eq valid_iff tsValid_iff)

theorem len_ok (len min max : Option Nat) (n : Nat)
    (hc : len = none ∨ (min = none ∧ max = none)) :
    ((∀ k, len = some k → (n == k) = true) ∧
     (∀ k, min = some k → (!decide (n < k)) = true) ∧
     (∀ k, max = some k → (!decide (n > k)) = true)) ↔ LenOk len min max n := by
  unfold LenOk
  cases len with
  | none => simp
  | some k =>
    have : min = none ∧ max = none := by rcases hc with h | h <;> simp_all
    simp [this]

theorem list_ok {α β : Type} [BEq β] [LawfulBEq β] [Shown β] (f : String) (g : α → β) (ins notIns : List α) (v : α)
    (hc : ins.length = 0 ∨ notIns.length = 0) (hi : ∀ a ∈ ins, g v = g a ↔ v = a)
    (hn : ∀ a ∈ notIns, g v = g a ↔ v = a) :
    (when (!ins.isEmpty) (isIn f (g v) (ins.map g) (· == ·)) = .ok () ∧
     when (!notIns.isEmpty) (notIn f (g v) (notIns.map g) (· == ·)) = .ok ()) ↔
      ListOk (· = ·) ins notIns v := by
  simp only [when_ok, isIn, notIn, check_ok, ListOk]
  have h1 : (ins.map g).any (fun i => g v == i) = true ↔ ∃ k ∈ ins, v = k := by
    simp only [List.any_map, List.any_eq_true, Function.comp, beq_iff_eq]
    exact ⟨fun ⟨a, ha, h⟩ => ⟨a, ha, (hi a ha).1 h⟩, fun ⟨a, ha, h⟩ => ⟨a, ha, (hi a ha).2 h⟩⟩
  have h2 : (!(notIns.map g).any (fun i => g v == i)) = true ↔ ∀ k ∈ notIns, ¬ v = k := by
    simp only [List.any_map, Bool.not_eq_true', List.any_eq_false, Function.comp, beq_iff_eq]
    exact ⟨fun h a ha e => h a ha ((hn a ha).2 e), fun h a ha e => h a ha ((hn a ha).1 e)⟩
  rw [h1, h2]
  simp only [List.length_eq_zero_iff] at hc
  cases ins with
  | nil => cases notIns <;> simp
  | cons a l =>
    have : notIns = [] := by rcases hc with h | h <;> simp_all
    simp [this]

/-! ### Strings and bytes -/

theorem strLen_ok (f : String) (r : StringRules) (s : Bytes) (hs : Utf8 s)
    (h1 : checkLen r.len r.minLen r.maxLen = true)
    (h2 : checkLen r.lenBytes r.minBytes r.maxBytes = true) :
    strLen f r (jstr s) = .ok () ↔
      LenOk r.len r.minLen r.maxLen (runeCount s) ∧ LenOk r.lenBytes r.minBytes r.maxBytes s.length := by
  have c1 : r.len = none ∨ (r.minLen = none ∧ r.maxLen = none) := by
    unfold checkLen at h1
    cases hr : r.len <;> simp_all
  have c2 : r.lenBytes = none ∨ (r.minBytes = none ∧ r.maxBytes = none) := by
    unfold checkLen at h2
    cases hr : r.lenBytes <;> simp_all
  rw [← len_ok _ _ _ _ c1, ← len_ok _ _ _ _ c2]
  simp only [strLen, seq_ok, withOpt_ok, check_ok, codePointCount_jstr hs, getBytes_jstr hs, and_assoc]

theorem constStr_eq {s : Bytes} (h : PortText s) : constStr s = jstr s := by
  unfold constStr
  rw [(read_raw s).2 h.2]; rfl

theorem map_constStr {l : List Bytes} (h : ∀ s ∈ l, PortText s) : l.map constStr = l.map jstr :=
  List.map_congr_left fun s hs => constStr_eq (h s hs)

theorem strAffix_ok {C : Common} {E : Env} {J : JEnv} (hL : TextLibs C E J)
    (f : String) (r : StringRules) (s : Bytes) (hs : Utf8 s) (hr : PortString C r) :
    strAffix J f r (jstr s) = .ok () ↔
      (∀ p, r.pfx = some p → p <+: s) ∧ (∀ p, r.sfx = some p → p <:+ s) ∧
      (∀ p, r.contains = some p → p <:+: s) ∧ (∀ p, r.notContains = some p → ¬ p <:+: s) ∧
      (∀ p, r.pattern = some p → E.matchRe p s = true) := by
  obtain ⟨hu, -, -, hp, -⟩ := hr
  simp only [strAffix, seq_ok, withOpt_ok, check_ok]
  have e1 : (∀ a, r.pattern = some a → J.matches_ (patternText J a) (jstr s) = true) ↔
      (∀ p, r.pattern = some p → E.matchRe p s = true) :=
    forall_congr' fun p => imp_congr_right fun h => by rw [hL.pattern p (hp p h) s hs]
  have e2 : (∀ a, r.pfx = some a → startsWith (jstr s) (constStr a) = true) ↔
      (∀ p, r.pfx = some p → p <+: s) :=
    forall_congr' fun p => imp_congr_right fun h => by
      rw [constStr_eq (hu p (by simp [h]))]; exact startsWith_jstr hs (hu p (by simp [h])).1
  have e3 : (∀ a, r.contains = some a → jcontains (constStr a) (jstr s) = true) ↔
      (∀ p, r.contains = some p → p <:+: s) :=
    forall_congr' fun p => imp_congr_right fun h => by
      rw [constStr_eq (hu p (by simp [h]))]; exact contains_jstr hs (hu p (by simp [h])).1
  have e4 : (∀ a, r.notContains = some a → (!jcontains (constStr a) (jstr s)) = true) ↔
      (∀ p, r.notContains = some p → ¬ p <:+: s) :=
    forall_congr' fun p => imp_congr_right fun h => by
      rw [constStr_eq (hu p (by simp [h])), ← contains_jstr hs (hu p (by simp [h])).1]; simp
  have e5 : (∀ a, r.sfx = some a → endsWith (jstr s) (constStr a) = true) ↔
      (∀ p, r.sfx = some p → p <:+ s) :=
    forall_congr' fun p => imp_congr_right fun h => by
      rw [constStr_eq (hu p (by simp [h]))]; exact endsWith_jstr hs (hu p (by simp [h])).1
  rw [e1, e2, e3, e4, e5]
  constructor
  · rintro ⟨a, b, c, d, e⟩; exact ⟨b, e, c, d, a⟩
  · rintro ⟨b, e, c, d, a⟩; exact ⟨a, b, c, d, e⟩

theorem strWellKnown_ok {C : Common} {E : Env} {J : JEnv} (hL : TextLibs C E J)
    (f : String) (r : StringRules) (s : Bytes) (hs : Utf8 s) (hr : PortString C r) :
    strWellKnown J f r (jstr s) = .ok () ↔ WellKnownOk E r.wellKnown s := by
  obtain ⟨-, -, -, -, hw⟩ := hr
  simp only [strWellKnown, seq_ok, when_ok, check_ok, StringRules.getEmail, StringRules.getAddress,
    StringRules.getHostname, StringRules.getIp, StringRules.getIpv4, StringRules.getIpv6,
    StringRules.getUri, StringRules.getUriRef, StringRules.getUuid]
  cases hk : r.wellKnown with
  | none => simp [WellKnownOk]
  | some w =>
    have ha := hL.format w (hw w hk) s hs
    cases w with
    | regex k => simp [WellKnownOk]
    | uuid b => cases b <;> simp [WellKnownOk, uuid_ok]
    | uriRef b =>
      cases b with
      | false => simp [WellKnownOk]
      | true =>
        simp only [FormatAgrees] at ha
        simp [WellKnownOk, Option.isSome_iff_exists, ha]
    | _ b =>
      cases b with
      | false => simp [WellKnownOk]
      | true =>
        simp only [FormatAgrees] at ha
        simp [WellKnownOk, ← ha, hostName]

theorem stringTpl_ok {C : Common} {E : Env} {J : JEnv} (hL : TextLibs C E J)
    (f : String) (r : StringRules) (s : Bytes) (hs : Utf8 s)
    (h1 : checkLen r.len r.minLen r.maxLen = true)
    (h2 : checkLen r.lenBytes r.minBytes r.maxBytes = true)
    (h3 : checkIns r.ins.length r.notIns.length = true) (hr : PortString C r) :
    stringTpl J f r s = .ok () ↔ StringOk E r s := by
  have hbody : (withOpt r.const (fun c => constant f (jstr s) (constStr c) (· == ·)) ⊳
      when (!r.ins.isEmpty) (isIn f (jstr s) (r.ins.map constStr) (· == ·)) ⊳
      when (!r.notIns.isEmpty) (notIn f (jstr s) (r.notIns.map constStr) (· == ·)) ⊳
      strLen f r (jstr s) ⊳ strAffix J f r (jstr s) ⊳ strWellKnown J f r (jstr s)) = .ok () ↔
      ((∀ k, r.const = some k → s = k) ∧ ListOk (· = ·) r.ins r.notIns s ∧
       LenOk r.len r.minLen r.maxLen (runeCount s) ∧
       LenOk r.lenBytes r.minBytes r.maxBytes s.length ∧
       (∀ p, r.pfx = some p → p <+: s) ∧ (∀ p, r.sfx = some p → p <:+ s) ∧
       (∀ p, r.contains = some p → p <:+: s) ∧ (∀ p, r.notContains = some p → ¬ p <:+: s) ∧
       WellKnownOk E r.wellKnown s ∧ (∀ p, r.pattern = some p → E.matchRe p s = true)) := by
    have hlist := list_ok f jstr r.ins r.notIns s ((Go.checkIns_iff _ _).1 h3)
      (fun a ha => jstr_inj hs (hr.2.1 a ha).1) (fun a ha => jstr_inj hs (hr.2.2.1 a ha).1)
    rw [map_constStr hr.2.1, map_constStr hr.2.2.1]
    have hconst : withOpt r.const (fun c => constant f (jstr s) (constStr c) (· == ·)) = .ok () ↔
        ∀ k, r.const = some k → s = k := by
      simp only [withOpt_ok, constant, check_ok, beq_iff_eq]
      exact forall_congr' fun k => imp_congr_right fun h => by
        rw [constStr_eq (hr.1 k (by simp [h]))]; exact jstr_inj hs (hr.1 k (by simp [h])).1
    rw [seq_ok, seq_ok, seq_ok, seq_ok, seq_ok, hconst, strLen_ok f r s hs h1 h2,
      strAffix_ok hL f r s hs hr, strWellKnown_ok hL f r s hs hr, ← hlist]
    constructor
    · rintro ⟨a, b, c, ⟨d, e⟩, ⟨g, h, i, j, k⟩, l⟩; exact ⟨a, ⟨b, c⟩, d, e, g, h, i, j, l, k⟩
    · rintro ⟨a, ⟨b, c⟩, d, e, g, h, i, j, l, k⟩; exact ⟨a, b, c, ⟨d, e⟩, ⟨g, h, i, j, k⟩, l⟩
  have hempty : jstr s = [] ↔ s = [] := jstr_inj hs utf8_nil
  unfold stringTpl StringOk
  simp only
  cases hie : r.ignoreEmpty with
  | none => simpa only [optB, Option.getD_none, Bool.false_eq_true, if_false, reduceCtorEq, false_and, false_or] using hbody
  | some b =>
    cases b with
    | false => simpa only [optB, Option.getD_some, Bool.false_eq_true, if_false, Option.some.injEq, false_and, false_or] using hbody
    | true =>
      simp only [optB, Option.getD_some, if_true, true_and]
      rw [when_ok, hbody]
      by_cases hz : s = []
      · simp [hz, jstr, runes_nil]
      · have : ¬ jstr s = [] := fun h => hz (hempty.1 h)
        simp [hz, this]

theorem bytesTpl_ok (E : Env) (J : JEnv) (f : String) (r : BytesRules) (b : Bytes)
    (hc : checkBytes (fun _ => true) r = true) (hr : PortBytes r) :
    bytesTpl J f r b = .ok () ↔ BytesOk E r b := by
  obtain ⟨hpat, hwk, hlen⟩ := hr
  have hin : r.ins.length = 0 ∨ r.notIns.length = 0 := by
    simp only [checkBytes, Bool.and_eq_true, Go.checkIns_iff] at hc
    exact hc.1.1.2
  have hlist := list_ok f id r.ins r.notIns b hin (fun _ _ => Iff.rfl) (fun _ _ => Iff.rfl)
  simp only [List.map_id, id_eq] at hlist
  have hconst : ((if optS r.const = [] then (.ok () : Run) else
      constant f b (optS r.const) (· == ·)) = .ok ()) ↔ ∀ k, r.const = some k → k ≠ [] → b = k := by
    cases r.const with
    | none => simp [optS]
    | some k =>
      by_cases hk : k = []
      · simp [optS, hk]
      · simp [optS, hk, constant]
  have hpfx : ((if optS r.pfx = [] then (.ok () : Run) else
      check ((optS r.pfx).isPrefixOf b) f [.s "should start with ", shown (optS r.pfx)]) = .ok ()) ↔
        ∀ p, r.pfx = some p → p <+: b := by
    cases r.pfx with
    | none => simp [optS]
    | some k =>
      by_cases hk : k = []
      · simp [optS, hk]
      · simp [optS, hk, isPrefixOf_iff]
  have hsfx : ((if optS r.sfx = [] then (.ok () : Run) else
      check ((optS r.sfx).reverse.isPrefixOf b.reverse) f [.s "should end with ", shown (optS r.sfx)]) = .ok ()) ↔
        ∀ p, r.sfx = some p → p <:+ b := by
    cases r.sfx with
    | none => simp [optS]
    | some k =>
      by_cases hk : k = []
      · simp [optS, hk]
      · simp [optS, hk, isPrefixOf_iff, List.reverse_prefix]
  have hcon : ((if optS r.contains = [] then (.ok () : Run) else
      check (jcontains (optS r.contains) b) f [.s "should contain ", shown (optS r.contains)]) = .ok ()) ↔
        ∀ p, r.contains = some p → p <:+: b := by
    cases r.contains with
    | none => simp [optS]
    | some k =>
      by_cases hk : k = []
      · simp [optS, hk]
      · simp [optS, hk, jcontains_iff]
  have hip : ((when r.getIp (check (b.length == 4 || b.length == 16) f [.s "should be valid ip address ", shown b]) =
      .ok ()) ∧ (when r.getIpv4 (check (b.length == 4) f [.s "should be valid ipv4 address ", shown b]) = .ok ()) ∧
      (when r.getIpv6 (check (b.length == 16) f [.s "should be valid ipv6 address ", shown b]) = .ok ())) ↔
      (match r.wellKnown with
    | some (.ip true) => IPBytes b
    | some (.ipv4 true) => IPv4Bytes b
    | some (.ipv6 true) => IPBytes b ∧ ¬ IPv4Bytes b
    | _ => True) := by
    unfold BytesRules.getIp BytesRules.getIpv4 BytesRules.getIpv6
    cases hw : r.wellKnown with
    | none => simp
    | some w =>
      obtain ⟨v, rfl⟩ := hwk w hw
      cases v <;> simp [IPBytes]
  have hl := len_ok r.len r.minLen r.maxLen b.length hlen
  unfold bytesTpl BytesOk
  simp only
  generalize hconstR : (if optS r.const = [] then (.ok () : Run) else
      constant f b (optS r.const) (· == ·)) = A at *
  generalize (if optS r.pfx = [] then (.ok () : Run) else
      check ((optS r.pfx).isPrefixOf b) f [.s "should start with ", shown (optS r.pfx)]) = B at *
  generalize (if optS r.sfx = [] then (.ok () : Run) else
      check ((optS r.sfx).reverse.isPrefixOf b.reverse) f [.s "should end with ", shown (optS r.sfx)]) = D at *
  generalize (if optS r.contains = [] then (.ok () : Run) else
      check (jcontains (optS r.contains) b) f [.s "should contain ", shown (optS r.contains)]) = F at *
  have hbody : ∀ R : Run, R = (A ⊳
      withOpt r.len (fun n => check (b.length == n) f [.s "length must be ", .nat n]) ⊳
      withOpt r.minLen (fun n => check (!decide (b.length < n)) f [.s "length must be at least ", .nat n]) ⊳
      withOpt r.maxLen (fun n => check (!decide (b.length > n)) f [.s "length must be at most ", .nat n]) ⊳
      withOpt r.pattern (fun p => check (J.matches_ (patternText J p) (jstr b)) f
        [.s "must match pattern ", .item (.bytes (patternText J p))]) ⊳
      B ⊳ F ⊳ D ⊳
      when r.getIp (check (b.length == 4 || b.length == 16) f [.s "should be valid ip address ", shown b]) ⊳
      when r.getIpv4 (check (b.length == 4) f [.s "should be valid ipv4 address ", shown b]) ⊳
      when r.getIpv6 (check (b.length == 16) f [.s "should be valid ipv6 address ", shown b]) ⊳
      when (!r.ins.isEmpty) (isIn f b r.ins (· == ·)) ⊳
      when (!r.notIns.isEmpty) (notIn f b r.notIns (· == ·))) → (R = .ok () ↔
      (LenOk r.len r.minLen r.maxLen b.length ∧
       (∀ p, r.pfx = some p → p <+: b) ∧
       (∀ p, r.sfx = some p → p <:+ b) ∧
       (∀ p, r.contains = some p → p <:+: b) ∧
       ListOk (· = ·) r.ins r.notIns b ∧
       (∀ k, r.const = some k → k ≠ [] → b = k) ∧
       (match r.wellKnown with
        | some (.ip true) => IPBytes b
        | some (.ipv4 true) => IPv4Bytes b
        | some (.ipv6 true) => IPBytes b ∧ ¬ IPv4Bytes b
        | _ => True) ∧
       (∀ p, r.pattern = some p → E.matchRe p b = true))) := by
    rintro R rfl
    rw [← hip, ← hlist, ← hconst, ← hpfx, ← hsfx, ← hcon, ← hl]
    simp only [seq_ok, withOpt_ok, check_ok, hpat, reduceCtorEq, false_implies, implies_true,
      true_and, and_true]
    constructor
    · rintro ⟨a, l1, l2, l3, b, c, d, i1, i2, i3, n1, n2⟩
      exact ⟨⟨l1, l2, l3⟩, b, d, c, ⟨n1, n2⟩, a, i1, i2, i3⟩
    · rintro ⟨⟨l1, l2, l3⟩, b, d, c, ⟨n1, n2⟩, a, i1, i2, i3⟩
      exact ⟨a, l1, l2, l3, b, c, d, i1, i2, i3, n1, n2⟩
  cases hie : r.ignoreEmpty with
  | none =>
    simp only [optB, Option.getD_none, Bool.false_eq_true, if_false, reduceCtorEq, false_and, false_or]
    exact hbody _ rfl
  | some v =>
    cases v with
    | false =>
      simp only [optB, Option.getD_some, Bool.false_eq_true, if_false, Option.some.injEq, false_and, false_or]
      exact hbody _ rfl
    | true =>
      simp only [optB, Option.getD_some, if_true, true_and]
      rw [when_ok, hbody _ rfl]
      exact ⟨fun h => if hz : b = [] then .inl hz else .inr (h (by simp [hz])),
        fun h hne => h.resolve_left (by rintro rfl; simp at hne)⟩

/-! ### Enums and Any -/

theorem jenum_eq {declared : List Int} {a b : Int} (hb : b ∈ declared) :
    jenum declared a = jenum declared b ↔ a = b := by
  unfold jenum
  rw [if_pos (by simpa using hb : declared.contains b = true)]
  by_cases ha : a ∈ declared
  · rw [if_pos (by simpa using ha)]; simp
  · rw [if_neg (by simpa using ha)]
    simp only [reduceCtorEq, false_iff]
    rintro rfl
    exact ha hb

theorem enumEq_iff {declared : List Int} {n c : Int} (hc : c ∈ declared) :
    enumEq (jenum declared n) (forNumber declared c) = true ↔ n = c := by
  have h1 : forNumber declared c = some (jenum declared c) := by
    unfold forNumber jenum
    simp [hc]
  rw [h1, enumEq, beq_iff_eq, Option.some.injEq, eq_comm, jenum_eq hc]

theorem enumTpl_ok (f : String) (declared : List Int) (r : EnumRules) (n : Int)
    (hc : checkIns r.ins.length r.notIns.length = true) (hr : PortEnum declared r) :
    enumTpl f declared r n = .ok () ↔ EnumOk declared r n := by
  obtain ⟨h1, h2, h3⟩ := hr
  rw [Go.checkIns_iff] at hc
  have e1 : (∀ a, r.const = some a →
      enumConstant f (jenum declared n) (forNumber declared a) = .ok ()) ↔
      ∀ k, r.const = some k → n = k := by
    refine forall_congr' fun k => imp_congr_right fun h => ?_
    rw [← enumEq_iff (h1 k h)]
    unfold enumConstant
    cases enumEq (jenum declared n) (forNumber declared k) with
    | true => simp
    | false => cases forNumber declared k <;> simp
  have e2 : (r.ins.map (forNumber declared)).any (enumEq (jenum declared n)) = true ↔
      ∃ k ∈ r.ins, n = k := by
    simp only [List.any_map, List.any_eq_true, Function.comp]
    exact ⟨fun ⟨a, ha, h⟩ => ⟨a, ha, (enumEq_iff (h2 a ha)).1 h⟩,
      fun ⟨a, ha, h⟩ => ⟨a, ha, (enumEq_iff (h2 a ha)).2 h⟩⟩
  have e3 : (!(r.notIns.map (forNumber declared)).any (enumEq (jenum declared n))) = true ↔
      ∀ k ∈ r.notIns, ¬ n = k := by
    simp only [List.any_map, Bool.not_eq_true', List.any_eq_false, Function.comp]
    exact ⟨fun h a ha e => h a ha ((enumEq_iff (h3 a ha)).2 e),
      fun h a ha e => h a ha ((enumEq_iff (h3 a ha)).1 e)⟩
  have e4 : definedOnly f (jenum declared n) = .ok () ↔ n ∈ declared := by
    rw [definedOnly, check_ok]
    unfold jenum
    by_cases hd : n ∈ declared <;> simp [hd]
  simp only [List.length_eq_zero_iff] at hc
  have hl : (((!r.ins.isEmpty) = true → ∃ k ∈ r.ins, n = k) ∧
      ((!r.notIns.isEmpty) = true → ∀ k ∈ r.notIns, ¬ n = k)) ↔ ListOk (· = ·) r.ins r.notIns n := by
    unfold ListOk
    cases hi : r.ins with
    | nil => cases hn : r.notIns <;> simp
    | cons a l =>
      have : r.notIns = [] := by rcases hc with h | h <;> simp_all
      simp [this]
  unfold enumTpl EnumOk
  rw [← hl]
  simp only [seq_ok, withOpt_ok, when_ok, check_ok, e1, e2, e3, e4, optB_iff]
  constructor
  · rintro ⟨a, b, c, d⟩; exact ⟨a, ⟨c, d⟩, b⟩
  · rintro ⟨a, ⟨c, d⟩, b⟩; exact ⟨a, b, c, d⟩

theorem anyTpl_ok (f : String) (r : AnyRules) (url : Option Bytes) (hu : ∀ u, url = some u → Utf8 u)
    (hc : checkIns r.ins.length r.notIns.length = true) (hr : PortAny r) :
    anyTpl f r url = .ok () ↔ AnyOk r url := by
  unfold anyTpl AnyOk
  cases url with
  | none =>
    simp only [seq_ok, when_ok, required, check_ok, Option.isSome_none, and_true, optB_iff,
      Bool.false_eq_true, imp_false, ne_eq]
  | some u =>
    have h := list_ok f jstr r.ins r.notIns u ((Go.checkIns_iff _ _).1 hc)
      (fun a ha => jstr_inj (hu u rfl) (hr.1 a ha).1) (fun a ha => jstr_inj (hu u rfl) (hr.2 a ha).1)
    rw [map_constStr hr.1, map_constStr hr.2]
    simp only [seq_ok, ← h]
    simp [required]

/-! ### Durations -/

theorem portDur_asDuration {d : PDur} (h : PortDur d) : d.asDuration = d.exact := by
  obtain ⟨hv, h1, h2⟩ := h
  rw [asDuration_eq ((valid_iff d).1 hv)]
  rw [if_neg (by omega), if_neg (by omega)]

theorem lex_icmp {s t n m : Int} (h : s < t → s * 1000000000 + n < t * 1000000000 + m)
    (h' : t < s → t * 1000000000 + m < s * 1000000000 + n) :
    (if icmp s t != 0 then icmp s t else icmp n m) =
      icmp (s * 1000000000 + n) (t * 1000000000 + m) := by
  rcases Int.lt_trichotomy s t with hlt | heq | hgt
  · have := h hlt
    simp [icmp, hlt, this]
  · subst heq
    simp only [icmp, Int.lt_irrefl, if_false, if_true, bne_self_eq_false, Bool.false_eq_true]
    by_cases h1 : n < m
    · rw [if_pos h1, if_pos (by omega)]
    · by_cases h2 : n = m
      · rw [if_neg h1, if_pos h2, if_neg (by omega), if_pos (by omega)]
      · rw [if_neg h1, if_neg h2, if_neg (by omega), if_neg (by omega)]
  · have := h' hgt
    have e1 : icmp s t = 1 := by unfold icmp; rw [if_neg (by omega), if_neg (by omega)]
    have e2 : icmp (s * 1000000000 + n) (t * 1000000000 + m) = 1 := by
      unfold icmp; rw [if_neg (by omega), if_neg (by omega)]
    rw [e1, e2]; rfl

theorem dur_orders {a b : PDur} (ha : a.valid = true) (hb : b.valid = true) :
    Orders durCmp PDur.exact a b := by
  unfold Orders durCmp PDur.exact
  rw [ha, hb]
  simp only [Bool.not_true, Bool.or_self, Bool.false_eq_true, if_false]
  rw [valid_iff] at ha hb
  obtain ⟨⟨-, -⟩, ⟨a1, a2⟩, a3, a4⟩ := ha
  obtain ⟨⟨-, -⟩, ⟨b1, b2⟩, b3, b4⟩ := hb
  rw [lex_icmp] <;> omega

theorem dur_eq {a b : PDur} (ha : a.valid = true) (hb : b.valid = true) :
    a = b ↔ a.exact = b.exact := by
  refine ⟨fun h => by rw [h], fun h => ?_⟩
  unfold PDur.exact at h
  rw [valid_iff] at ha hb
  obtain ⟨⟨-, -⟩, ⟨a1, a2⟩, a3, a4⟩ := ha
  obtain ⟨⟨-, -⟩, ⟨b1, b2⟩, b3, b4⟩ := hb
  obtain ⟨s, n⟩ := a
  obtain ⟨t, m⟩ := b
  simp only at *
  have : s = t := by omega
  have : n = m := by omega
  simp_all

theorem listOk_map {α β : Type} (g : α → β) (ins notIns : List α) (v : α)
    (hi : ∀ a ∈ ins, v = a ↔ g v = g a) (hn : ∀ a ∈ notIns, v = a ↔ g v = g a) :
    ListOk (fun x k => x = k) ins notIns v ↔
      ListOk (fun x k => x = k) (ins.map g) (notIns.map g) (g v) := by
  unfold ListOk
  have e : ins.map g = [] ↔ ins = [] := List.map_eq_nil_iff
  rw [ne_eq, ne_eq, e]
  constructor
  · rintro ⟨h1, h2⟩
    refine ⟨fun h => ?_, fun h k hk e => ?_⟩
    · obtain ⟨a, ha, e⟩ := h1 h
      exact ⟨g a, List.mem_map_of_mem ha, (hi a ha).1 e⟩
    · obtain ⟨a, ha, rfl⟩ := List.mem_map.1 hk
      exact h2 h a ha ((hn a ha).2 e)
  · rintro ⟨h1, h2⟩
    refine ⟨fun h => ?_, fun h a ha e => ?_⟩
    · obtain ⟨k, hk, e⟩ := h1 h
      obtain ⟨a, ha, rfl⟩ := List.mem_map.1 hk
      exact ⟨a, ha, (hi a ha).2 e⟩
    · exact h2 h _ (List.mem_map_of_mem ha) ((hn a ha).1 e)

/-- A duration bound, open or closed. -/
def durB (o c : Option PDur) : Option (Bool × PDur) :=
  match o with | some b => some (true, b) | none => c.map fun b => (false, b)

theorem bound_cases (lt lte : Option PDur) :
    (upper PDur.exact lt lte = none ∧ durB lt lte = none) ∨
    ∃ s d, upper PDur.exact lt lte = some ⟨s, d.exact⟩ ∧ durB lt lte = some (s, d) ∧
      (lt = some d ∨ lte = some d) := by
  cases lt with
  | some b => exact .inr ⟨true, b, rfl, rfl, .inl rfl⟩
  | none =>
    cases lte with
    | some b => exact .inr ⟨false, b, rfl, rfl, .inr rfl⟩
    | none => exact .inl ⟨rfl, rfl⟩

theorem durRange_eq (r : DurationRules) (x : Int)
    (h : ∀ d, r.lt = some d ∨ r.lte = some d ∨ r.gt = some d ∨ r.gte = some d → PortDur d) :
    RangeOk (upper PDur.exact r.lt r.lte) (upper PDur.exact r.gt r.gte) x ↔
      DurRangeOk (durUpper r) (durLower r) x := by
  have eu : durUpper r = durB r.lt r.lte := rfl
  have el : durLower r = durB r.gt r.gte := rfl
  rw [eu, el]
  rcases bound_cases r.lt r.lte with ⟨h1, h2⟩ | ⟨s, d, h1, h2, h3⟩ <;>
  rcases bound_cases r.gt r.gte with ⟨g1, g2⟩ | ⟨s', d', g1, g2, g3⟩ <;>
  rw [h1, h2, g1, g2] <;> simp only [RangeOk, DurRangeOk]
  rw [portDur_asDuration (h d (by rcases h3 with h | h <;> simp [h])),
    portDur_asDuration (h d' (by rcases g3 with h | h <;> simp [h]))]

theorem durationTpl_ok (f : String) (r : DurationRules) (d : Option PDur)
    (hd : ∀ x, d = some x → PortDur x) (hc : checkDuration r = true) (hr : PortDuration r) :
    durationTpl f r d = .ok () ↔ DurationOk r d := by
  unfold durationTpl DurationOk
  cases d with
  | none =>
    simp only [seq_ok, when_ok, required, check_ok, Option.isSome_none, and_true, optB_iff,
      Bool.false_eq_true, imp_false, ne_eq]
  | some d =>
    have pd := hd d rfl
    obtain ⟨hb, hi, hn⟩ := hr
    simp only [checkDuration, Bool.and_eq_true, Go.checkNums_iff] at hc
    obtain ⟨⟨⟨-, ⟨hin, -, -, hlt, hgt, hne⟩⟩, -⟩, -⟩ := hc
    simp only [Option.map_eq_none_iff] at hlt hgt
    have hrange := ltgt_ok f durCmp PDur.exact r.lt r.lte r.gt r.gte d hlt hgt
      (by
        intro u l hu hl he
        have pu := hb u (by rcases hu with h | h <;> simp [h])
        have pl := hb l (by rcases hl with h | h <;> simp [h])
        have := hne u.asDuration l.asDuration (by rcases hu with h | h <;> simp [h])
          (by rcases hl with h | h <;> simp [h])
        rw [portDur_asDuration pu, portDur_asDuration pl, he] at this
        simp at this)
      (by
        intro b h
        exact dur_orders pd.1 (hb b (by rcases h with h | h | h | h <;> simp [h])).1)
      (by
        intro u l hu hl
        exact dur_orders (hb l (by rcases hl with h | h <;> simp [h])).1
          (hb u (by rcases hu with h | h <;> simp [h])).1)
    have hlist := list_ok f id r.ins r.notIns d hin (fun _ _ => Iff.rfl) (fun _ _ => Iff.rfl)
    simp only [List.map_id, id_eq] at hlist
    have hl2 := listOk_map PDur.asDuration r.ins r.notIns d
      (fun a ha => by
        rw [portDur_asDuration pd, portDur_asDuration (hi a ha)]; exact dur_eq pd.1 (hi a ha).1)
      (fun a ha => by
        rw [portDur_asDuration pd, portDur_asDuration (hn a ha)]; exact dur_eq pd.1 (hn a ha).1)
    have hr2 := durRange_eq r d.exact
      (fun x hx => hb x (by rcases hx with h | h | h | h <;> simp [h]))
    have hconst : withOpt r.const (fun c => constant f d c (· == ·)) = .ok () ↔
        ∀ k, r.const = some k → d.asDuration = k.exact := by
      simp only [withOpt_ok, constant, check_ok, beq_iff_eq]
      refine forall_congr' fun k => imp_congr_right fun h => ?_
      rw [portDur_asDuration pd]
      exact dur_eq pd.1 (hb k (by simp [h])).1
    rw [seq_ok, seq_ok, seq_ok, seq_ok, hconst, hrange, hlist, hl2, hr2]
    have hreq : when (optB r.required) (required f (some d).isSome) = .ok () := by
      simp [required]
    simp only [hreq, true_and]
    rw [show d.valid = true from pd.1]
    simp only [true_and]
    rw [show d.exact = d.asDuration from (portDur_asDuration pd).symm]
    refine ⟨fun h _ => h, fun h => ?_⟩
    by_cases hcon : DurConstrained r
    · exact h hcon
    · simp only [DurConstrained, not_or, ne_eq, Decidable.not_not] at hcon
      obtain ⟨h1, h2, h3, h4, h5, h6, h7⟩ := hcon
      simp [h1, h2, h3, h4, h5, h6, h7, durUpper, durLower, DurRangeOk, ListOk]

/-! ### Timestamps -/

theorem ts_orders {a b : PTime} (ha : a.valid = true) (hb : b.valid = true) :
    Orders tsCmp instant a b := by
  unfold Orders tsCmp instant
  rw [ha, hb]
  simp only [Bool.not_true, Bool.or_self, Bool.false_eq_true, if_false]
  rw [tsValid_iff] at ha hb
  obtain ⟨⟨-, -⟩, a1, a2⟩ := ha
  obtain ⟨⟨-, -⟩, b1, b2⟩ := hb
  rw [lex_icmp] <;> omega

theorem ts_eq {a b : PTime} (ha : a.valid = true) (hb : b.valid = true) :
    a = b ↔ instant a = instant b := by
  refine ⟨fun h => by rw [h], fun h => ?_⟩
  unfold instant at h
  rw [tsValid_iff] at ha hb
  obtain ⟨⟨-, -⟩, a1, a2⟩ := ha
  obtain ⟨⟨-, -⟩, b1, b2⟩ := hb
  obtain ⟨s, n⟩ := a
  obtain ⟨t, m⟩ := b
  simp only at *
  have : s = t := by omega
  have : n = m := by omega
  simp_all

theorem instant_fromMillis (ms : Int) : instant (fromMillis ms) = ms * 1000000 := by
  unfold instant fromMillis
  simp only
  omega

theorem timestampTpl_ok {C : Common} {E : Env} {J : JEnv} {S : Schema} (hL : LibsAgree C E J S)
    (f : String) (r : TimestampRules) (t : Option PTime) (ht : ∀ x, t = some x → x.valid = true)
    (hc : checkTimestamp r = true) (hw : r.within = none) :
    timestampTpl J f r t = .ok () ↔ TimestampOk E.now r t := by
  unfold timestampTpl TimestampOk
  cases t with
  | none =>
    simp only [seq_ok, when_ok, required, check_ok, Option.isSome_none, and_true, optB_iff,
      Bool.false_eq_true, imp_false, ne_eq]
  | some t =>
    have vt := ht t rfl
    have hnow : E.now = instant (fromMillis J.nowMs) := by rw [instant_fromMillis, hL.clock]
    have vn := hL.clock_valid
    simp only [checkTimestamp, Bool.and_eq_true, Go.checkNums_iff, tsOk, Bool.or_eq_true,
      Option.isNone_iff_eq_none] at hc
    obtain ⟨⟨⟨⟨⟨⟨⟨⟨⟨⟨v0, v1⟩, v2⟩, v3⟩, v4⟩, ⟨-, -, -, hlt, hgt, hne⟩⟩, hx1⟩, -⟩, hx3⟩, -⟩, -⟩ := hc
    simp only [Option.map_eq_none_iff] at hlt hgt
    have hb : ∀ b, r.const = some b ∨ r.lt = some b ∨ r.lte = some b ∨ r.gt = some b ∨
        r.gte = some b → b.valid = true := by
      intro b h
      rcases h with h | h | h | h | h <;> simp_all
    have hrange := ltgt_ok f tsCmp instant r.lt r.lte r.gt r.gte t hlt hgt
      (by
        intro u l hu hl he
        have := hne (tsNano u) (tsNano l) (by rcases hu with h | h <;> simp [h])
          (by rcases hl with h | h <;> simp [h])
        have e : tsNano u = tsNano l := by
          unfold tsNano
          unfold instant at he
          unfold PTime.asTime
          rw [he]
        rw [e] at this
        simp at this)
      (by
        intro b h
        exact ts_orders vt (hb b (by rcases h with h | h | h | h <;> simp [h])))
      (by
        intro u l hu hl
        exact ts_orders (hb l (by rcases hl with h | h <;> simp [h]))
          (hb u (by rcases hu with h | h <;> simp [h])))
    have hu : upper instant r.lt r.lte = tsUpper r := by
      unfold upper tsUpper; cases r.lt <;> rfl
    have hl : upper instant r.gt r.gte = tsLower r := by
      unfold upper tsLower; cases r.gt <;> rfl
    have hconst : withOpt r.const (fun c => constant f t c (· == ·)) = .ok () ↔
        ∀ k, r.const = some k → instant t = instant k := by
      simp only [withOpt_ok, constant, check_ok, beq_iff_eq]
      refine forall_congr' fun k => imp_congr_right fun h => ?_
      exact ts_eq vt (hb k (by simp [h]))
    have hless : lessThan f t (fromMillis J.nowMs) tsCmp = .ok () ↔ instant t < E.now := by
      have e := ts_orders vt vn
      unfold Orders at e
      simp [lessThan, withCmp, e, icmp_lt, hnow]
    have hgreat : greaterThan f t (fromMillis J.nowMs) tsCmp = .ok () ↔ E.now < instant t := by
      have e := ts_orders vt vn
      unfold Orders at e
      simp [greaterThan, withCmp, e, icmp_gt, hnow]
    have hreq : when (optB r.required) (required f (some t).isSome) = .ok () := by
      simp [required]
    rw [hu, hl] at hrange
    simp only [seq_ok, hreq, true_and, hconst, hrange, when_ok, hless, hgreat, withOpt_ok, hw,
      reduceCtorEq, false_implies, implies_true, and_true, vt]
    have hN : ((r.ltNow.isSome = true → instant t < E.now) ∧ (r.gtNow.isSome = true → E.now < instant t))
        ↔ (tsUpper r = none → tsLower r = none → NowOk E.now r (instant t)) := by
      unfold NowOk
      rw [hw]
      have none_of : (r.lt = none ∧ r.lte = none ∧ r.gt = none ∧ r.gte = none) →
          tsUpper r = none ∧ tsLower r = none := by
        rintro ⟨a, b, c, d⟩; simp [tsUpper, tsLower, a, b, c, d]
      cases h1 : r.ltNow with
      | some a =>
        have h2 : r.gtNow = none := by rcases hx3 with h | h <;> simp_all
        have h3 := none_of (by rcases hx1 with h | h <;> simp_all)
        simp [h2, h3]
      | none =>
        cases h2 : r.gtNow with
        | some a =>
          have h3 := none_of (by rcases hx1 with h | h <;> simp_all)
          simp [h3]
        | none => simp
    rw [hN]
    refine ⟨fun h _ => h, fun h => ?_⟩
    by_cases hcon : TsConstrained r
    · exact h hcon
    · simp only [TsConstrained, not_or, ne_eq, Decidable.not_not] at hcon
      obtain ⟨h1, h2, h3, h4, h5, h6, h7, h8⟩ := hcon
      simp [h1, h2, h3, h4, h5, h6, h7, h8, tsUpper, tsLower, RangeOk, NowOk]

theorem between_ok {a b : PTime} (ha : a.valid = true) (hb : b.valid = true) :
    ∃ d, tsBetween a b = .ok d ∧ d.valid = true ∧ d.exact = instant b - instant a := by
  unfold tsBetween instant
  rw [ha, hb]
  rw [tsValid_iff] at ha hb
  obtain ⟨⟨a1, a2⟩, a3, a4⟩ := ha
  obtain ⟨⟨b1, b2⟩, b3, b4⟩ := hb
  simp only [Bool.not_true, Bool.or_self, Bool.false_eq_true, if_false]
  split
  · refine ⟨_, rfl, ?_, ?_⟩
    · rw [valid_iff]; unfold ValidDuration; simp only; omega
    · unfold PDur.exact; simp only; omega
  · split
    · refine ⟨_, rfl, ?_, ?_⟩
      · rw [valid_iff]; unfold ValidDuration; simp only; omega
      · unfold PDur.exact; simp only; omega
    · refine ⟨_, rfl, ?_, ?_⟩
      · rw [valid_iff]; unfold ValidDuration; simp only; omega
      · unfold PDur.exact; simp only; omega

theorem toNanos_ok {d : PDur} (h : d.valid = true) :
    (minInt64 ≤ d.exact ∧ d.exact ≤ maxInt64 → toNanos d = .ok d.exact) ∧
    (¬ (minInt64 ≤ d.exact ∧ d.exact ≤ maxInt64) → ∃ e, toNanos d = .error e) := by
  unfold toNanos
  rw [h]
  rw [valid_iff] at h
  obtain ⟨-, ⟨h1, h2⟩, h3, h4⟩ := h
  unfold PDur.exact minInt64 maxInt64
  simp only [Bool.not_true, Bool.false_eq_true, if_false]
  refine ⟨fun hx => ?_, fun hx => ?_⟩
  · rw [if_neg (by omega), if_neg (by omega)]
  · by_cases hp : d.seconds * 1000000000 < -9223372036854775808 ∨
        9223372036854775807 < d.seconds * 1000000000
    · rw [if_pos hp]; exact ⟨_, rfl⟩
    · rw [if_neg hp, if_pos (by omega)]; exact ⟨_, rfl⟩

theorem labs_of {x : Int} (h1 : minInt64 < x) (h2 : x ≤ maxInt64) :
    labs x = if x < 0 then -x else x := by
  unfold labs minInt64 maxInt64 at *
  split
  · rw [wrap64_of_range] <;> simp only [minInt64, maxInt64] <;> omega
  · rfl

/-- What `within` accepts, when the window is portable and the distance is not the one whose
absolute value overflows. -/
theorem within_ok (f : String) {t n : PTime} {w : PDur} (ht : t.valid = true) (hn : n.valid = true)
    (hw : PortDur w) (hpos : 0 ≤ w.exact) (hx : instant t - instant n ≠ minInt64) :
    within f t w n = .ok () ↔
      instant n - w.exact ≤ instant t ∧ instant t ≤ instant n + w.exact := by
  obtain ⟨d, e1, hv, hd⟩ := between_ok hn ht
  unfold within
  rw [e1]
  simp only
  have ew := (toNanos_ok hw.1).1 hw.2
  obtain ⟨-, w1, w2⟩ := hw
  by_cases hr : minInt64 ≤ d.exact ∧ d.exact ≤ maxInt64
  · rw [(toNanos_ok hv).1 hr, ew]
    simp only [withCmp, check_ok, Bool.not_eq_true', beq_eq_false_iff_ne, ne_eq]
    rw [labs_of (by omega) hr.2, labs_of (by unfold minInt64; omega) w2, if_neg (by omega : ¬ w.exact < 0)]
    unfold icmp
    split <;> split <;> (try split) <;> simp <;> omega
  · obtain ⟨e, he⟩ := (toNanos_ok hv).2 hr
    rw [he]
    simp only [withCmp, reduceCtorEq, false_iff]
    unfold minInt64 maxInt64 at *
    omega

theorem timestampTpl_within {E : Env} {J : JEnv} (hclock : E.now = J.nowMs * 1000000)
    (vn : (fromMillis J.nowMs).valid = true) (f : String) (r : TimestampRules) (w : PDur)
    (hw : r.within = some w) (pw : PortDur w) (t : PTime) (vt : t.valid = true)
    (hc : checkTimestamp r = true) (hx : instant t - E.now ≠ minInt64) :
    0 < w.exact ∧ tsUpper r = none ∧ tsLower r = none ∧ (r.ltNow = none ∨ r.gtNow = none) ∧
    (timestampTpl J f r (some t) = .ok () ↔
      (∀ k, r.const = some k → instant t = instant k) ∧
      (r.ltNow ≠ none → instant t < E.now) ∧ (r.gtNow ≠ none → E.now < instant t) ∧
      E.now - w.exact ≤ instant t ∧ instant t ≤ E.now + w.exact) := by
  have hnow : E.now = instant (fromMillis J.nowMs) := by rw [instant_fromMillis, hclock]
  simp only [checkTimestamp, Bool.and_eq_true, Go.checkNums_iff, tsOk, Bool.or_eq_true,
    Option.isNone_iff_eq_none, hw, decide_eq_true_eq, reduceCtorEq, false_or] at hc
  obtain ⟨⟨⟨⟨⟨⟨⟨⟨⟨⟨v0, -⟩, -⟩, -⟩, -⟩, -⟩, -⟩, ⟨⟨h1, h2⟩, h3⟩, h4⟩, hx3⟩, -⟩, hpos⟩ := hc
  rw [portDur_asDuration pw] at hpos
  refine ⟨hpos, by simp [tsUpper, h1, h2], by simp [tsLower, h3, h4], hx3, ?_⟩
  have hconst : withOpt r.const (fun c => constant f t c (· == ·)) = .ok () ↔
      ∀ k, r.const = some k → instant t = instant k := by
    simp only [withOpt_ok, constant, check_ok, beq_iff_eq]
    refine forall_congr' fun k => imp_congr_right fun h => ?_
    rw [h] at v0
    exact ts_eq vt v0
  have hless : lessThan f t (fromMillis J.nowMs) tsCmp = .ok () ↔ instant t < E.now := by
    have e := ts_orders vt vn
    unfold Orders at e
    simp [lessThan, withCmp, e, icmp_lt, hnow]
  have hgreat : greaterThan f t (fromMillis J.nowMs) tsCmp = .ok () ↔ E.now < instant t := by
    have e := ts_orders vt vn
    unfold Orders at e
    simp [greaterThan, withCmp, e, icmp_gt, hnow]
  have hreq : when (optB r.required) (required f (some t).isSome) = .ok () := by simp [required]
  have hwin := within_ok f vt vn pw (by omega) (by rw [← hnow]; exact hx)
  have hl : ltgt f r.lt r.lte r.gt r.gte tsCmp t = .ok () := by simp [ltgt, h1, h2, h3, h4]
  have hs : ∀ (o : Option Bool), o.isSome = true ↔ o ≠ none := by intro o; cases o <;> simp
  unfold timestampTpl
  simp only [seq_ok, hreq, true_and, hconst, hl, when_ok, hless, hgreat, withOpt_ok, hw,
    Option.some.injEq, forall_eq', hwin, hs, ← hnow]

end PGV.Java
