import Verif.Lemmas.PyRound
import Verif.Lemmas.JavaMsg

/-!
Generated Python code for one value against the declarative meaning of its rules.
-/

set_option linter.unusedSimpArgs false
set_option autoImplicit false

namespace PGV.Py
open PGV PGV.Spec.Python PGV.Checker Code
open PGV.Spec hiding Common FormatAgrees TextLibs LibsAgree PortString PortBytes PortEnum PortDuration
  PortType FitsScalar FitsVal FitsItem PortField Portable
open PGV.Go (Env)
open PGV.Code (utf8_synced prefix_iff suffix_iff infix_iff)

variable {nm : String} {why : Text}

/-! ### Python strings -/

theorem pstr_encode {cs : List Nat} (h : ∀ c ∈ cs, ScalarValue c) : pstr (cs.flatMap encodeRune) = cs :=
  runes_encode cs h

theorem pstr_inj {s t : Bytes} (hs : Utf8 s) (ht : Utf8 t) : pstr s = pstr t ↔ s = t := by
  refine ⟨fun h => ?_, fun h => by rw [h]⟩
  obtain ⟨cs, hc, rfl⟩ := hs
  obtain ⟨ds, hd, rfl⟩ := ht
  rw [pstr_encode hc, pstr_encode hd] at h
  rw [h]

theorem pstr_empty {s : Bytes} (hs : Utf8 s) : pstr s = [] ↔ s = [] :=
  pstr_inj hs Java.utf8_nil

theorem startswith_pstr {s p : Bytes} (hs : Utf8 s) (hp : Utf8 p) :
    startswith (pstr s) (pstr p) = true ↔ p <+: s := by
  obtain ⟨cs, hc, rfl⟩ := hs
  obtain ⟨ds, hd, rfl⟩ := hp
  rw [startswith, Java.isPrefixOf_iff, pstr_encode hc, pstr_encode hd, prefix_iff utf8_synced ds cs hd hc]

theorem endswith_pstr {s p : Bytes} (hs : Utf8 s) (hp : Utf8 p) :
    endswith (pstr s) (pstr p) = true ↔ p <:+ s := by
  obtain ⟨cs, hc, rfl⟩ := hs
  obtain ⟨ds, hd, rfl⟩ := hp
  rw [endswith, Java.isPrefixOf_iff, List.reverse_prefix, pstr_encode hc, pstr_encode hd,
    suffix_iff utf8_synced ds cs hd hc]

theorem contains_iff {α : Type} [BEq α] [LawfulBEq α] (p s : List α) :
    contains p s = true ↔ p <:+: s := by
  induction s with
  | nil => simp [contains]
  | cons c s ih => rw [contains, Bool.or_eq_true, ih, Java.isPrefixOf_iff, List.infix_cons_iff]

theorem contains_pstr {s p : Bytes} (hs : Utf8 s) (hp : Utf8 p) :
    contains (pstr p) (pstr s) = true ↔ p <:+: s := by
  obtain ⟨cs, hc, rfl⟩ := hs
  obtain ⟨ds, hd, rfl⟩ := hp
  rw [contains_iff, pstr_encode hc, pstr_encode hd, infix_iff utf8_synced ds cs hd hc]

theorem byteLen_pstr {s : Bytes} (hs : Utf8 s) : byteLen (pstr s) = s.length := by
  obtain ⟨cs, hc, rfl⟩ := hs
  rw [pstr_encode hc, byteLen, if_pos]
  rw [List.all_eq_true]
  intro c h
  have := hc c h
  unfold ScalarValue at this
  unfold encodable
  simp only [Bool.and_eq_true, decide_eq_true_eq, Bool.not_eq_true', Bool.and_eq_false_iff,
    decide_eq_false_iff_not]
  omega

theorem plain_of_safe {s : Bytes} (h : SafeText s) : plainText s = true := by
  unfold plainText
  rw [List.all_eq_true]
  intro c hc
  obtain ⟨h1, h2⟩ := h.2 c hc
  simp only [List.mem_cons, List.not_mem_nil, or_false, not_or] at h2
  simp [unsafeChars]
  omega

theorem literal_safe (P : PEnv) {s : Bytes} (h : SafeText s) : literal P s = some (pstr s) := by
  rw [literal, if_pos (plain_of_safe h)]

/-! ### Limits -/

theorem genPos_len {α : Type} (o : Option Nat) (k : Nat → Code α) (x : α) (Q : Nat → Prop)
    (hk : ∀ n, (k n).run x = .ok () ↔ Q n) (h0 : o = some 0 → Q 0) :
    (genPos o k).run x = .ok () ↔ ∀ n, o = some n → Q n := by
  simp only [genPos, run_gen, hk]
  cases o with
  | none => simp [optN]
  | some n =>
    cases n with
    | zero => simp [optN, h0 rfl]
    | succ n => simp [optN]

theorem limits_ok {α : Type} (nm : String) (w1 w2 w3 : Nat → Text) (len min max : Option Nat) (size : α → Nat) (x : α)
    (hc : len = none ∨ (min = none ∧ max = none)) (h1 : len ≠ some 0) (h2 : max ≠ some 0) :
    (((genPos len fun n => raiseIf nm (w1 n) fun x => size x != n).run x = .ok ()) ∧
     ((genPos min fun n => raiseIf nm (w2 n) fun x => decide (size x < n)).run x = .ok ()) ∧
     ((genPos max fun n => raiseIf nm (w3 n) fun x => decide (size x > n)).run x = .ok ())) ↔
      LenOk len min max (size x) := by
  rw [genPos_len len _ x (fun n => size x = n) (by simp) (fun h => absurd h h1),
    genPos_len min _ x (fun n => n ≤ size x) (by simp) (by simp),
    genPos_len max _ x (fun n => size x ≤ n) (by simp) (fun h => absurd h h2)]
  unfold LenOk
  cases len with
  | none => simp
  | some k =>
    have : min = none ∧ max = none := by rcases hc with h | h <;> simp_all
    simp [this]

theorem checkLen_cases {len min max : Option Nat} (h : checkLen len min max = true) :
    len = none ∨ (min = none ∧ max = none) := by
  unfold checkLen at h
  cases len <;> simp_all

/-! ### Strings -/

theorem strLen_ok {C : Common} (r : StringRules) (s : Bytes) (hs : Utf8 s) (hp : PortString C r) :
    (strLen nm r).run (pstr s) = .ok () ↔
      LenOk r.len r.minLen r.maxLen (runeCount s) ∧ LenOk r.lenBytes r.minBytes r.maxBytes s.length := by
  obtain ⟨c1, c2, -, z1, z2, z3, z4, -⟩ := hp
  have e1 := limits_ok (α := PStr) nm (fun n => [.s "length does not equal ", .nat n])
    (fun n => [.s "length is less than ", .nat n]) (fun n => [.s "length is more than ", .nat n])
    r.len r.minLen r.maxLen (·.length) (pstr s) (checkLen_cases c1) z1 z2
  have e2 := limits_ok (α := PStr) nm (fun n => [.s "length does not equal ", .nat n])
    (fun n => [.s "length is less than ", .nat n]) (fun n => [.s "length is greater than ", .nat n])
    r.lenBytes r.minBytes r.maxBytes byteLen (pstr s) (checkLen_cases c2) z3 z4
  rw [byteLen_pstr hs] at e2
  rw [← e2]
  unfold runeCount
  change _ ↔ LenOk r.len r.minLen r.maxLen (pstr s).length ∧ _
  rw [← e1]
  simp only [strLen, run_seq, and_assoc]

theorem genText_ok {P : PEnv} (o : Option Bytes) (k : PStr → Code PStr) (x : PStr) (Q : Bytes → Prop)
    (hsafe : ∀ s, o = some s → SafeText s)
    (hk : ∀ s, o = some s → ((k (pstr s)).run x = .ok () ↔ Q s)) (h0 : o = some [] → Q []) :
    (genText P o k).run x = .ok () ↔ ∀ s, o = some s → Q s := by
  simp only [genText, run_gen]
  cases o with
  | none => simp [optS]
  | some s =>
    by_cases hz : s = []
    · subst hz; simp [optS, h0 rfl]
    · simp [optS, hz, literal_safe P (hsafe s rfl), hk s rfl]

theorem strAffix_ok {C : Common} {P : PEnv} (r : StringRules) (s : Bytes) (hs : Utf8 s)
    (hp : PortString C r) :
    (strAffix P nm r).run (pstr s) = .ok () ↔
      (∀ p, r.pfx = some p → p <+: s) ∧ (∀ p, r.sfx = some p → p <:+ s) ∧
      (∀ p, r.contains = some p → p <:+: s) ∧ (∀ p, r.notContains = some p → ¬ p <:+: s) := by
  obtain ⟨-, -, -, -, -, -, -, hsafe, hne, -⟩ := hp
  have u : ∀ p, r.pfx = some p ∨ r.sfx = some p ∨ r.contains = some p ∨ r.notContains = some p →
      SafeText p := fun p h => hsafe p (by rcases h with h | h | h | h <;> simp [h])
  simp only [strAffix, run_seq]
  rw [genText_ok r.pfx _ _ (fun p => p <+: s) (fun p h => u p (by simp [h]))
      (fun p h => by
        rw [run_raiseIf, ← startswith_pstr hs (u p (by simp [h])).1]; simp) (by simp),
    genText_ok r.sfx _ _ (fun p => p <:+ s) (fun p h => u p (by simp [h]))
      (fun p h => by
        rw [run_raiseIf, ← endswith_pstr hs (u p (by simp [h])).1]; simp) (by simp),
    genText_ok r.contains _ _ (fun p => p <:+: s) (fun p h => u p (by simp [h]))
      (fun p h => by
        rw [run_raiseIf, ← contains_pstr hs (u p (by simp [h])).1]; simp) (by simp),
    genText_ok r.notContains _ _ (fun p => ¬ p <:+: s) (fun p h => u p (by simp [h]))
      (fun p h => by
        rw [run_raiseIf, ← contains_pstr hs (u p (by simp [h])).1]; simp) (fun h => absurd h hne)]

theorem strPattern_ok {C : Common} {E : Env} {P : PEnv} (hL : TextLibs C E P) (r : StringRules)
    (hsome : (strPattern P nm r).isSome = true) (s : Bytes) (hs : Utf8 s) (hp : PortString C r) :
    (strPattern P nm r).run (pstr s) = .ok () ↔ (∀ p, r.pattern = some p → E.matchRe p s = true) := by
  obtain ⟨-, -, -, -, -, -, -, -, -, -, -, hpat, hreg⟩ := hp
  have hkr : knownRegex r.getRegex r.strict = some none := by rw [hreg]; rfl
  simp only [strPattern, hkr] at hsome ⊢
  cases h : r.pattern with
  | none => simp [optS]
  | some p =>
    obtain ⟨hne, hm⟩ := hL.pattern p (hpat p h)
    have hq : optS r.pattern = p := by simp [optS, h]
    rw [hq, some_gen] at hsome
    have this : (p != []) = true := by simpa using hne
    have hok := hsome this
    rw [← h, hq, run_gen]
    simp only [h, Option.some.injEq, forall_eq', this, true_implies]
    by_cases hpk : patternOk P p = true
    · rw [if_pos hpk, run_stmt, hm s hs]
      cases E.matchRe p s <;> simp
    · rw [if_neg hpk] at hok; simp at hok

theorem strFormat_ok {C : Common} {E : Env} {P : PEnv} (hL : TextLibs C E P) (r : StringRules) (s : Bytes)
    (hf : ∀ w, r.wellKnown = some w → C.format w s) :
    (strFormat P nm r).run (pstr s) = .ok () ↔ WellKnownOk E r.wellKnown s := by
  simp only [strFormat, run_seq, run_gen, run_raiseIf, run_stmt, StringRules.getEmail,
    StringRules.getAddress, StringRules.getHostname, StringRules.getIp, StringRules.getIpv4,
    StringRules.getIpv6, StringRules.getUri, StringRules.getUriRef, StringRules.getUuid]
  cases hk : r.wellKnown with
  | none => simp [WellKnownOk]
  | some w =>
    have ha := hL.format w s (hf w hk)
    cases w with
    | regex k => simp [WellKnownOk]
    | email b =>
      cases b with
      | false => simp [WellKnownOk]
      | true =>
        simp only [FormatAgrees] at ha
        simp only [WellKnownOk, ← ha]
        cases validateEmail P (pstr s) with
        | none => simp
        | some b => cases b <;> simp
    | uri b =>
      cases b with
      | false => simp [WellKnownOk]
      | true =>
        simp only [FormatAgrees] at ha
        simp only [WellKnownOk, ← ha]
        cases P.urlparse (pstr s) with
        | none => simp
        | some u => obtain ⟨a, b, c, d⟩ := u; cases a <;> cases b <;> cases c <;> simp
    | uriRef b =>
      cases b with
      | false => simp [WellKnownOk]
      | true =>
        simp only [FormatAgrees] at ha
        simp only [WellKnownOk, ← ha]
        cases P.urlparse (pstr s) with
        | none => simp
        | some u => obtain ⟨a, b, c, d⟩ := u; cases a <;> cases c <;> cases d <;> simp
    | _ b =>
      cases b with
      | false => simp [WellKnownOk]
      | true =>
        simp only [FormatAgrees] at ha
        simp [WellKnownOk, ← ha]
        try (cases P.ipAddress (pstr s) <;> simp)

theorem inCode_ok {α β : Type} [BEq β] [LawfulBEq β] {sh : β → PItem} {printable : Bool} (g : α → β) (ins notIns : List α)
    (v : α) (hs : (inCode nm sh printable (ins.map g) (notIns.map g)).isSome = true)
    (hc : checkIns ins.length notIns.length = true) (hi : ∀ a ∈ ins, g v = g a ↔ v = a)
    (hn : ∀ a ∈ notIns, g v = g a ↔ v = a) :
    (inCode nm sh printable (ins.map g) (notIns.map g)).run (g v) = .ok () ↔ ListOk (· = ·) ins notIns v := by
  have h1 : (ins.map g).contains (g v) = true ↔ ∃ k ∈ ins, v = k := by
    simp only [List.contains_iff_mem, List.mem_map]
    exact ⟨fun ⟨a, ha, h⟩ => ⟨a, ha, (hi a ha).1 h.symm⟩, fun ⟨a, ha, h⟩ => ⟨a, ha, ((hi a ha).2 h).symm⟩⟩
  have h2 : (notIns.map g).contains (g v) = false ↔ ∀ k ∈ notIns, ¬ v = k := by
    rw [← Bool.not_eq_true, List.contains_iff_mem, List.mem_map]
    exact ⟨fun h a ha e => h ⟨a, ha, ((hn a ha).2 e).symm⟩,
      fun h ⟨a, ha, e⟩ => h a ha ((hn a ha).1 e.symm)⟩
  rw [← listOk_of hc h1 h2]
  unfold inCode at *
  simp only [some_seq, some_gen, List.isEmpty_map] at hs
  simp only [run_seq, run_gen, List.isEmpty_map]
  obtain ⟨s1, s2⟩ := hs
  refine and_congr (imp_congr_right fun h => ?_) (imp_congr_right fun h => ?_)
  · have := s1 h
    cases printable <;> simp at this ⊢
  · have := s2 h
    cases printable <;> simp at this ⊢

theorem run_ignore {α : Type} {o : Option Bool} {e : α → Bool} {c : Code α}
    (h : (if optB o then block (fun x => !e x) c else c).isSome = true) (x : α) {Q R : Prop}
    (hQ : e x = true ↔ Q) (hP : c.isSome = true → (c.run x = .ok () ↔ R)) :
    (if optB o then block (fun x => !e x) c else c).run x = .ok () ↔ (o = some true ∧ Q) ∨ R :=
  run_ignoreBlock (o := o) (e := e) (c := c) h x hQ hP

theorem strCode_ok {C : Common} {E : Env} {P : PEnv} (hL : TextLibs C E P) {r : StringRules}
    (hsome : (strCode P nm r).isSome = true) (hp : PortString C r) (s : Bytes) (hs : Utf8 s)
    (hf : ∀ w, r.wellKnown = some w → C.format w s) :
    (strCode P nm r).run (pstr s) = .ok () ↔ StringOk E r s := by
  unfold strCode at *
  simp only at hsome ⊢
  refine run_ignore hsome (pstr s) (by rw [List.isEmpty_iff, pstr_empty hs]) fun hb => ?_
  simp only [some_seq, some_genOpt] at hb
  obtain ⟨b1, b2, b3, b4, -⟩ := hb
  have hc := hp.2.2.1
  have hsafe := hp.2.2.2.2.2.2.2.1
  have hu1 := hp.2.2.2.2.2.2.2.2.2.1
  have hu2 := hp.2.2.2.2.2.2.2.2.2.2.1
  simp only [run_seq, run_genOpt]
  rw [inCode_ok pstr r.ins r.notIns s b2 hc (fun a ha => pstr_inj hs (hu1 a ha))
    (fun a ha => pstr_inj hs (hu2 a ha)), strLen_ok r s hs hp, strPattern_ok hL r b4 s hs hp,
    strAffix_ok r s hs hp, strFormat_ok hL r s hf]
  have hconst : (∀ a, r.const = some a → Code.run (match literal P a with
      | some l => raiseIf nm [.s "not equal to ", .item (.str l)] fun x => x != l
      | none => none) (pstr s) = .ok ()) ↔ ∀ k, r.const = some k → s = k := by
    refine forall_congr' fun k => imp_congr_right fun h => ?_
    have hk := hsafe k (.inl h)
    rw [literal_safe P hk, ← pstr_inj hs hk.1]
    simp
  refine (and_congr hconst Iff.rfl).trans ?_
  constructor
  · rintro ⟨a, b, ⟨c, d⟩, e, ⟨f1, f2, f3, f4⟩, g⟩; exact ⟨a, b, c, d, f1, f2, f3, f4, g, e⟩
  · rintro ⟨a, b, c, d, f1, f2, f3, f4, g, e⟩; exact ⟨a, b, ⟨c, d⟩, e, ⟨f1, f2, f3, f4⟩, g⟩

/-! ### Bytes and enums -/

theorem affixB_ok {P : PEnv} (o : Option Bytes) (k : Bytes → Bytes → Bool) (x : Bytes) (Q : Bytes → Prop)
    (hs : (gen (optS o != []) (if listOk P [optS o] then raiseIf nm why fun x => !k (optS o) x else none :
      Code Bytes)).isSome = true)
    (hk : ∀ p, k p x = true ↔ Q p) (h0 : Q []) :
    (gen (optS o != []) (if listOk P [optS o] then raiseIf nm why fun x => !k (optS o) x else none :
      Code Bytes)).run x = .ok () ↔ ∀ p, o = some p → Q p := by
  rw [some_gen] at hs
  rw [run_gen]
  cases o with
  | none => simp [optS]
  | some p =>
    by_cases hz : p = []
    · subst hz; simp [optS, h0]
    · have hz' : (optS (some p) != []) = true := by simpa [optS] using hz
      have := hs hz'
      cases hl : listOk P [optS (some p)] with
      | false => simp [hl] at this
      | true =>
        simp only [hz', true_implies, hl, if_true, run_raiseIf, Option.some.injEq, forall_eq']
        rw [← hk]
        simp [optS]

theorem bytesCode_ok (E : Env) {P : PEnv} {r : BytesRules} (hsome : (bytesCode P nm r).isSome = true)
    (hp : PortBytes r) (s : Bytes) : (bytesCode P nm r).run s = .ok () ↔ BytesOk E r s := by
  obtain ⟨hc, hpat, hwk, hlen, z1, z2, hcn⟩ := hp
  unfold bytesCode at *
  simp only at hsome ⊢
  refine run_ignore hsome s (by rw [List.isEmpty_iff]) fun hb => ?_
  simp only [some_seq, some_genOpt] at hb
  obtain ⟨b1, b2, -, -, -, -, -, -, -, b3, b4, b5⟩ := hb
  have e2 := inCode_ok (fun x : Bytes => x) r.ins r.notIns s (by rw [List.map_id', List.map_id']; exact b2) hc
    (fun _ _ => Iff.rfl) (fun _ _ => Iff.rfl)
  simp only [List.map_id'] at e2
  have e3 := limits_ok nm (fun n => [.s "length does not equal ", .nat n])
    (fun n => [.s "length is less than ", .nat n]) (fun n => [.s "length is more than ", .nat n])
    r.len r.minLen r.maxLen List.length s hlen z1 z2
  have e4 := affixB_ok (P := P) r.contains (fun p x => contains p x) s (fun p => p <:+: s) b3
    (fun p => contains_iff p s) (by simp)
  have e5 := affixB_ok (P := P) r.pfx (fun p x => startswith x p) s (fun p => p <+: s) b4
    (fun p => by rw [startswith, Java.isPrefixOf_iff]) (by simp)
  have e6 := affixB_ok (P := P) r.sfx (fun p x => endswith x p) s (fun p => p <:+ s) b5
    (fun p => by rw [endswith, Java.isPrefixOf_iff, List.reverse_prefix]) (by simp)
  simp only [run_seq]
  rw [e2, e4, e5, e6]
  have e1 : (genOpt r.const (fun c =>
      if listOk P (r.ins ++ r.notIns ++ r.const.toList) = true then
        raiseIf nm [.s "not equal to ", .item (.bytes c)] fun x => x != c
      else (none : Code Bytes))).run s = .ok () ↔ ∀ k, r.const = some k → k ≠ [] → s = k := by
    rw [run_genOpt]
    refine forall_congr' fun k => imp_congr_right fun h => ?_
    have h1 := b1 k h
    have hk : k ≠ [] := fun e => hcn (by rw [h, e])
    by_cases hl : listOk P (r.ins ++ r.notIns ++ r.const.toList) = true
    · rw [if_pos hl]; simp [hk]
    · rw [if_neg hl] at h1; simp at h1
  rw [e1]
  have e7 : (((gen r.getIp (raiseIf nm [.s "is not a valid ip"] fun x : Bytes => !(x.length == 4 || x.length == 16))).run s = .ok ()) ∧
      ((gen r.getIpv4 (raiseIf nm [.s "is not a valid ipv4"] fun x : Bytes => x.length != 4)).run s = .ok ()) ∧
      ((gen r.getIpv6 (raiseIf nm [.s "is not a valid ipv6"] fun x : Bytes => x.length != 16)).run s = .ok ())) ↔
      (match r.wellKnown with
    | some (.ip true) => IPBytes s
    | some (.ipv4 true) => IPv4Bytes s
    | some (.ipv6 true) => IPBytes s ∧ ¬ IPv4Bytes s
    | _ => True) := by
    unfold BytesRules.getIp BytesRules.getIpv4 BytesRules.getIpv6
    cases hw : r.wellKnown with
    | none => simp
    | some w =>
      obtain ⟨v, rfl⟩ := hwk w hw
      cases v with
      | false => simp
      | true => simp [IPBytes]; omega
  rw [← e3]
  have hq : optS r.pattern = [] := by simp [optS, hpat]
  constructor
  · rintro ⟨a, b, c, d, e, f, g, h, -, i, j, k⟩
    exact ⟨⟨c, d, e⟩, j, k, i, b, a, e7.1 ⟨f, g, h⟩, by simp [hpat]⟩
  · rintro ⟨⟨c, d, e⟩, j, k, i, b, a, m, -⟩
    obtain ⟨f, g, h⟩ := e7.2 m
    exact ⟨a, b, c, d, e, f, g, h, by rw [hq]; rfl, i, j, k⟩

theorem enumCode_ok {r : EnumRules} (hp : PortEnum r) (defined : List Int) (i : Int) :
    (enumCode nm defined r).run i = .ok () ↔ EnumOk defined r i := by
  obtain ⟨hc, hz⟩ := hp
  have e := inCode_ok (nm := nm) (sh := .enum) (printable := true) (fun x : Int => x) r.ins r.notIns i (by
      simp only [inCode, some_seq, some_gen, if_true]
      exact ⟨fun _ => rfl, fun _ => rfl⟩) hc
    (fun _ _ => Iff.rfl) (fun _ _ => Iff.rfl)
  simp only [List.map_id'] at e
  unfold enumCode EnumOk
  simp only [run_seq, e, run_gen, run_raiseIf, optB_iff]
  refine and_congr ?_ (and_congr_right fun _ => imp_congr_right fun _ => by simp)
  cases h : r.const with
  | none => simp
  | some c =>
    have : c ≠ 0 := fun e => hz (by rw [h, e])
    simp [this]

theorem boolCode_ok (r : BoolRules) (b : Bool) :
    (boolCode nm r).run b = .ok () ↔ ∀ k, r.const = some k → b = k := by
  obtain ⟨c⟩ := r
  cases c with
  | none => simp [boolCode]
  | some c => simp [boolCode, optB]

/-! ### Well-known messages -/

theorem run_required (req : Option Bool) (present : Val → Bool) (v : Val) :
    (requiredCode nm req present).run v = .ok () ↔ (req = some true → present v = true) := by
  simp only [requiredCode, run_gen, run_raiseIf, optB_iff, Bool.not_eq_false']

theorem anyCode_null {P : PEnv} {r : AnyRules} (hs : (anyCode P nm .field r).isSome = true) :
    (anyCode P nm .field r).run .null = .ok () ↔ AnyOk r none := by
  unfold anyCode at *
  simp only [some_seq, some_gen] at hs
  simp only [run_seq, run_gen, run_required, AnyOk]
  obtain ⟨-, s1, s2⟩ := hs
  have h1 : ∀ (why : Text) (t : Bool), ((if listOk P (r.ins ++ r.notIns) = true then
      raiseIf nm why fun v => Place.field.guard v && t else (none : Code Val)).isSome = true →
      (if listOk P (r.ins ++ r.notIns) = true then
      raiseIf nm why fun v => Place.field.guard v && t else (none : Code Val)).run .null = .ok ()) := by
    intro why t ht
    cases hl : listOk P (r.ins ++ r.notIns) <;> simp [hl, Place.guard, isNull] at ht ⊢
  constructor
  · rintro ⟨h, -⟩ e
    have := h e
    simp [Place.has, isNull] at this
  · intro h
    refine ⟨fun e => absurd e h, fun hi => ?_, fun hi => ?_⟩
    · have := s1 hi
      cases hl : listOk P (r.ins ++ r.notIns) <;> simp [hl, raiseUrl, run_stmt, Place.guard, isNull] at this ⊢
    · have := s2 hi
      cases hl : listOk P (r.ins ++ r.notIns) <;> simp [hl, raiseUrl, run_stmt, Place.guard, isNull] at this ⊢

theorem anyCode_some {P : PEnv} {r : AnyRules} (pl : Place) (hs : (anyCode P nm pl r).isSome = true)
    (hreq : pl = .element → r.required ≠ some true) (hc : checkIns r.ins.length r.notIns.length = true)
    (hi : ∀ s ∈ r.ins, Utf8 s) (hn : ∀ s ∈ r.notIns, Utf8 s) (u b : Bytes) (hu : Utf8 u) :
    (anyCode P nm pl r).run (.any u b) = .ok () ↔ AnyOk r (some u) := by
  have h1 : (r.ins.map pstr).contains (pstr u) = true ↔ ∃ k ∈ r.ins, u = k := by
    simp only [List.contains_iff_mem, List.mem_map]
    exact ⟨fun ⟨a, ha, h⟩ => ⟨a, ha, (pstr_inj hu (hi a ha)).1 h.symm⟩,
      fun ⟨a, ha, h⟩ => ⟨a, ha, ((pstr_inj hu (hi a ha)).2 h).symm⟩⟩
  have h2 : (r.notIns.map pstr).contains (pstr u) = false ↔ ∀ k ∈ r.notIns, ¬ u = k := by
    rw [← Bool.not_eq_true, List.contains_iff_mem, List.mem_map]
    exact ⟨fun h a ha e => h ⟨a, ha, ((pstr_inj hu (hn a ha)).2 e).symm⟩,
      fun h ⟨a, ha, e⟩ => h a ha ((pstr_inj hu (hn a ha)).1 e.symm)⟩
  show _ ↔ ListOk (fun x k => x = k) r.ins r.notIns u
  rw [← listOk_of (same := fun x k => x = k) hc h1 h2]
  unfold anyCode at *
  simp only [some_seq, some_gen] at hs
  obtain ⟨-, s1, s2⟩ := hs
  have hg : pl.guard (.any u b) = true := by cases pl <;> rfl
  have hreq' : (requiredCode nm r.required pl.has).run (.any u b) = .ok () := by
    rw [run_required]
    cases pl with
    | field => intro; rfl
    | element => exact fun h => absurd h (hreq rfl)
  simp only [run_seq, run_gen, hreq', true_and]
  refine and_congr (imp_congr_right fun hh => ?_) (imp_congr_right fun hh => ?_)
  · have := s1 hh
    cases hl : listOk P (r.ins ++ r.notIns) <;> simp [hl, hg, raiseUrl, run_stmt] at this ⊢
  · have := s2 hh
    cases hl : listOk P (r.ins ++ r.notIns) <;> simp [hl, hg, raiseUrl, run_stmt] at this ⊢

/-! ### Durations and timestamps -/

theorem dur_secs {d : PDur} (h : WholeDur d) : d.seconds.natAbs < 2 ^ 53 ∧ d.nanos = 0 := by
  have hv := (Go.valid_iff d).1 h.1.1
  obtain ⟨⟨h1, h2⟩, -⟩ := hv
  exact ⟨by omega, h.2⟩

theorem time_secs {t : PTime} (h : WholeTime t) : t.seconds.natAbs < 2 ^ 53 ∧ t.nanos = 0 := by
  have hv := (Go.tsValid_iff t).1 h.1
  obtain ⟨⟨h1, h2⟩, -⟩ := hv
  exact ⟨by omega, h.2⟩

theorem durLit_whole {d : PDur} (h : WholeDur d) : durLit d = d.seconds * scale := by
  obtain ⟨h1, h2⟩ := dur_secs h
  rw [durLit, h2, litSecs_whole _ h1]

theorem exact_whole {d : PDur} (h : WholeDur d) : d.exact = d.seconds * 1000000000 := by
  rw [PDur.exact, h.2, Int.add_zero]

theorem instant_whole {t : PTime} (h : WholeTime t) : instant t = t.seconds * 1000000000 := by
  rw [instant, h.2, Int.add_zero]

theorem dur_parts {d : PDur} (h : PortDur d) : d.seconds.natAbs < 2 ^ 53 ∧ d.nanos.natAbs < 1000000000 := by
  have hv := (Go.valid_iff d).1 h.1
  obtain ⟨⟨h1, h2⟩, h3, -⟩ := hv
  exact ⟨by omega, by omega⟩

theorem time_parts {t : PTime} (h : t.valid = true) :
    t.seconds.natAbs < 2 ^ 53 ∧ t.nanos.natAbs < 1000000000 := by
  have hv := (Go.tsValid_iff t).1 h
  obtain ⟨⟨h1, h2⟩, h3⟩ := hv
  exact ⟨by omega, by omega⟩

theorem comparable_value {s n s' n' : Int} (h : Comparable s n s' n')
    (hs : s.natAbs < 2 ^ 53 ∧ n.natAbs < 1000000000) (hs' : s'.natAbs < 2 ^ 53 ∧ n'.natAbs < 1000000000) :
    Faithful (valueSecs s n) (s * 1000000000 + n) (litSecs s' n') (s' * 1000000000 + n') := by
  rcases h with ⟨rfl, rfl⟩ | ⟨k, hk, h1, h2, h3⟩
  · rw [valueSecs_whole s hs.1, litSecs_whole s' hs'.1, Int.add_zero, Int.add_zero]
    exact faithful_whole
  · exact faithful_far hk (valueSecs_near s n k h1 hs.1 hs.2) (litSecs_near s' n' k h2 hs'.1 hs'.2) h3

theorem comparable_lits {s n s' n' : Int} (h : Comparable s n s' n')
    (hs : s.natAbs < 2 ^ 53 ∧ n.natAbs < 1000000000) (hs' : s'.natAbs < 2 ^ 53 ∧ n'.natAbs < 1000000000) :
    Faithful (litSecs s n) (s * 1000000000 + n) (litSecs s' n') (s' * 1000000000 + n') := by
  rcases h with ⟨rfl, rfl⟩ | ⟨k, hk, h1, h2, h3⟩
  · rw [litSecs_whole s hs.1, litSecs_whole s' hs'.1, Int.add_zero, Int.add_zero]
    exact faithful_whole
  · exact faithful_far hk (litSecs_near s n k h1 hs.1 hs.2) (litSecs_near s' n' k h2 hs'.1 hs'.2) h3

theorem durRange_bounds (r : DurationRules) (x : Int)
    (h : ∀ d, r.const = some d ∨ r.lt = some d ∨ r.lte = some d ∨ r.gt = some d ∨ r.gte = some d →
      PortDur d) :
    DurRangeOk (durUpper r) (durLower r) x ↔
      RangeOk (boundOf PDur.exact r.lt r.lte) (boundOf PDur.exact r.gt r.gte) x := by
  unfold durUpper durLower boundOf DurRangeOk RangeOk
  cases h1 : r.lt <;> cases h2 : r.lte <;> cases h3 : r.gt <;> cases h4 : r.gte <;>
    simp only [Option.map_some, Option.map_none] <;>
    (repeat (first
      | rw [Java.portDur_asDuration (h _ (.inr (.inl h1)))]
      | rw [Java.portDur_asDuration (h _ (.inr (.inr (.inl h2))))]
      | rw [Java.portDur_asDuration (h _ (.inr (.inr (.inr (.inl h3)))))]
      | rw [Java.portDur_asDuration (h _ (.inr (.inr (.inr (.inr h4)))))]))

theorem tsRange_bounds (r : TimestampRules) :
    tsUpper r = boundOf instant r.lt r.lte ∧ tsLower r = boundOf instant r.gt r.gte := by
  unfold tsUpper tsLower boundOf
  constructor
  · cases r.lt <;> rfl
  · cases r.gt <;> rfl

theorem durBody_ok {r : DurationRules} (hs : (durBody nm r).isSome = true) (hp : PortDuration r) (d : PDur)
    (hd : ClearDur r d) : (durBody nm r).run (secsOf (.dur d)) = .ok () ↔ DurationOk r (some d) := by
  obtain ⟨hc, hk, hi, hn, hul⟩ := hp
  obtain ⟨hd, hcl⟩ := hd
  have hxa : d.asDuration = d.exact := Java.portDur_asDuration hd
  have hcin : checkIns r.ins.length r.notIns.length = true := by
    unfold checkDuration at hc
    simp only [Bool.and_eq_true] at hc
    exact checkNums_ins hc.1.1.2
  have hval : ∀ b, PortDur b → Comparable d.seconds d.nanos b.seconds b.nanos →
      Faithful (secsOf (.dur d)) d.exact (durLit b) b.exact := fun b hb h =>
    comparable_value h (dur_parts hd) (dur_parts hb)
  generalize secsOf (.dur d) = x at *
  unfold durBody at *
  simp only [some_seq] at hs
  have hrange := timeRange_near durLit PDur.exact (x := x) (a := d.exact) hs.2.2.2.2
    (fun b hb => hval b (hk b (.inr hb)) (hcl b (.inl (.inr hb))))
    (fun u l hu hl => comparable_lits (hul u l hu hl)
      (dur_parts (hk u (by rcases hu with h | h <;> simp [h])))
      (dur_parts (hk l (by rcases hl with h | h <;> simp [h]))))
  simp only [run_seq, run_genOpt, run_gen, run_stmt, true_and, run_raiseIf]
  rw [hrange, ← durRange_bounds r _ hk]
  have e1 : (∀ a, r.const = some a → (x != durLit a) = false) ↔
      ∀ k, r.const = some k → d.asDuration = k.exact := by
    refine forall_congr' fun k => imp_congr_right fun h => ?_
    rw [hxa, ← (hval k (hk k (.inl h)) (hcl k (.inl (.inl h)))).eq]
    simp
  have e2 : (((!r.ins.isEmpty) = true → (!(r.ins.map durLit).contains x) = false) ∧
      ((!r.notIns.isEmpty) = true → (r.notIns.map durLit).contains x = false)) ↔
      ListOk (fun x k => x = k) (r.ins.map PDur.asDuration) (r.notIns.map PDur.asDuration)
        d.asDuration := by
    have f : ∀ a : PDur, PortDur a → Comparable d.seconds d.nanos a.seconds a.nanos →
        (durLit a = x ↔ d.asDuration = a.asDuration) := by
      intro a ha hc
      rw [hxa, Java.portDur_asDuration ha, ← (hval a ha hc).eq]
      exact eq_comm
    have := listOk_of (same := fun x k => x = k) (ins := r.ins.map PDur.asDuration)
      (notIns := r.notIns.map PDur.asDuration) (v := d.asDuration)
      (I := (!(r.ins.map durLit).contains x) = false)
      (N := (r.notIns.map durLit).contains x = false)
      (by simpa using hcin)
      (by
        simp only [Bool.not_eq_false', List.contains_iff_mem, List.mem_map]
        constructor
        · rintro ⟨a, ha, e⟩; exact ⟨a.asDuration, ⟨a, ha, rfl⟩, (f a (hi a ha) (hcl a (.inr (.inl ha)))).1 e⟩
        · rintro ⟨_, ⟨a, ha, rfl⟩, e⟩; exact ⟨a, ha, (f a (hi a ha) (hcl a (.inr (.inl ha)))).2 e⟩)
      (by
        rw [← Bool.not_eq_true, List.contains_iff_mem, List.mem_map]
        constructor
        · rintro h k hk e
          obtain ⟨a, ha, rfl⟩ := List.mem_map.1 hk
          exact h ⟨a, ha, (f a (hn a ha) (hcl a (.inr (.inr ha)))).2 e⟩
        · rintro h ⟨a, ha, e⟩
          exact h a.asDuration (List.mem_map_of_mem ha) ((f a (hn a ha) (hcl a (.inr (.inr ha)))).1 e))
    simpa only [List.isEmpty_map] using this
  rw [e1, ← hxa]
  unfold DurationOk
  simp only [hd.1, true_and]
  rw [← e2]
  constructor
  · rintro ⟨a, b, c, e⟩ -; exact ⟨a, e, b, c⟩
  · intro h
    by_cases hcon : DurConstrained r
    · obtain ⟨a, e, b, c⟩ := h hcon
      exact ⟨a, b, c, e⟩
    · simp only [DurConstrained, not_or, ne_eq, Decidable.not_not] at hcon
      obtain ⟨c1, c2, c3, c4, c5, c6, c7⟩ := hcon
      simp [c1, c2, c3, c4, c5, c6, c7, durUpper, durLower, DurRangeOk]

theorem durationCode_null {r : DurationRules} (hs : (durationCode nm .field r).isSome = true) :
    (durationCode nm .field r).run .null = .ok () ↔ DurationOk r none := by
  unfold durationCode at *
  simp only [some_seq] at hs
  simp only [run_seq, run_required, run_block hs.2, DurationOk]
  simp [Place.has, Place.guard, isNull]

theorem durationCode_element_null {r : DurationRules} (hs : (durationCode nm .element r).isSome = true)
    (hr : r.required ≠ some true) : (durationCode nm .element r).run .null = .ok () := by
  unfold durationCode at *
  simp only [some_seq] at hs
  simp only [run_seq, run_required, run_block hs.2]
  simp [Place.has, Place.guard, isNull, hr]

theorem durationCode_some {r : DurationRules} (pl : Place) (hs : (durationCode nm pl r).isSome = true)
    (hreq : pl = .element → r.required ≠ some true) (hp : PortDuration r) (d : PDur) (hd : ClearDur r d) :
    (durationCode nm pl r).run (.dur d) = .ok () ↔ DurationOk r (some d) := by
  unfold durationCode at *
  simp only [some_seq] at hs
  have h1 := some_block hs.2
  rw [some_onSecs] at h1
  simp only [run_seq, run_required, run_block hs.2, run_onSecs_dur, durBody_ok h1 hp d hd]
  cases pl with
  | field => simp [Place.has, Place.guard, isNull]
  | element => simp [Place.has, Place.guard, isNull, hreq rfl]

theorem track_lt {x y a b : Int} (h1 : x * 1000000000 = a * scale) (h2 : y * 1000000000 = b * scale) :
    (x < y ↔ a < b) := by
  rw [← scale_lt a b, ← h1, ← h2]; omega

theorem tsBody_ok {E : Env} {P : PEnv} (hclock : P.now * 1000000000 = E.now * scale)
    {r : TimestampRules} (hs : (tsBody P nm r).isSome = true) (hp : PortTimestamp r) (t : PTime)
    (hd : ClearTime r t) : (tsBody P nm r).run (secsOf (.ts t)) = .ok () ↔ TimestampOk E.now r (some t) := by
  obtain ⟨hc, hw, hk, hul⟩ := hp
  obtain ⟨hd, hcl, hwh⟩ := hd
  have hval : ∀ b, b.valid = true → Comparable t.seconds t.nanos b.seconds b.nanos →
      Faithful (secsOf (.ts t)) (instant t) (tsLit b) (instant b) := fun b hb h =>
    comparable_value h (time_parts hd) (time_parts hb)
  have htr : r.ltNow ≠ none ∨ r.gtNow ≠ none → secsOf (.ts t) * 1000000000 = instant t * scale := by
    intro h
    have hn := hwh h
    rw [instant, secsOf, hn, valueSecs_whole _ (time_parts hd).1, Int.add_zero, Int.mul_assoc, Int.mul_assoc,
      Int.mul_comm scale]
  generalize secsOf (.ts t) = x at *
  have e1 : (∀ a, r.const = some a → (x != tsLit a) = false) ↔
      ∀ k, r.const = some k → instant t = instant k := by
    refine forall_congr' fun k => imp_congr_right fun h => ?_
    rw [← (hval k (hk k (.inl h)) (hcl k (.inl h))).eq]
    simp
  have hT := tsRange_bounds r
  unfold tsBody at *
  simp only [some_seq] at hs
  simp only [run_seq, run_genOpt, run_stmt, true_and, run_raiseIf]
  rw [e1]
  have hcore : (if r.lt.isSome || r.lte.isSome || r.gt.isSome || r.gte.isSome then
      timeRange nm false (r.lt.map tsLit) (r.lte.map tsLit) (r.gt.map tsLit) (r.gte.map tsLit)
      else tsNow P nm r).run x = .ok () ↔
      (RangeOk (tsUpper r) (tsLower r) (instant t) ∧
      (tsUpper r = none → tsLower r = none → NowOk E.now r (instant t))) := by
    have hs2 := hs.2.2
    by_cases hb : (r.lt.isSome || r.lte.isSome || r.gt.isSome || r.gte.isSome) = true
    · rw [if_pos hb] at hs2 ⊢
      rw [timeRange_near tsLit instant hs2 (fun b hb => hval b (hk b (.inr hb)) (hcl b (.inr hb)))
        (fun u l hu hl => comparable_lits (hul u l hu hl)
          (time_parts (hk u (by rcases hu with h | h <;> simp [h])))
          (time_parts (hk l (by rcases hl with h | h <;> simp [h])))), ← hT.1, ← hT.2]
      refine ⟨fun h => ⟨h, fun h1 h2 => ?_⟩, fun h => h.1⟩
      exfalso
      unfold tsUpper at h1
      unfold tsLower at h2
      cases q1 : r.lt <;> cases q2 : r.lte <;> cases q3 : r.gt <;> cases q4 : r.gte <;> simp_all
    · rw [if_neg hb]
      simp only [Bool.or_eq_true, not_or, Bool.not_eq_true, Option.isSome_eq_false_iff,
        Option.isNone_iff_eq_none] at hb
      obtain ⟨⟨⟨q1, q2⟩, q3⟩, q4⟩ := hb
      have u1 : tsUpper r = none := by simp [tsUpper, q1, q2]
      have u2 : tsLower r = none := by simp [tsLower, q3, q4]
      simp only [u1, u2, RangeOk, true_and, true_implies]
      unfold tsNow NowOk
      rw [hw]
      cases h1 : r.ltNow with
      | some b =>
        have htr := htr (.inl (by simp [h1]))
        have l1 := track_lt htr hclock
        have l2 := track_lt hclock htr
        simp; omega
      | none =>
        cases h2 : r.gtNow with
        | some b =>
          have htr := htr (.inr (by simp [h2]))
          have l1 := track_lt htr hclock
          have l2 := track_lt hclock htr
          simp; omega
        | none => simp
  rw [hcore]
  unfold TimestampOk
  simp only [hd, true_and]
  constructor
  · rintro ⟨a, b⟩ -; exact ⟨a, b⟩
  · intro h
    by_cases hcon : TsConstrained r
    · exact h hcon
    · simp only [TsConstrained, not_or, ne_eq, Decidable.not_not] at hcon
      obtain ⟨c1, c2, c3, c4, c5, c6, c7, c8⟩ := hcon
      simp [c1, c2, c3, c4, c5, c6, c7, c8, tsUpper, tsLower, RangeOk, NowOk]

theorem timestampCode_null {E : Env} {P : PEnv} {r : TimestampRules}
    (hs : (timestampCode P nm .field r).isSome = true) :
    (timestampCode P nm .field r).run .null = .ok () ↔ TimestampOk E.now r none := by
  unfold timestampCode at *
  simp only [some_seq] at hs
  simp only [run_seq, run_required, run_block hs.2, TimestampOk]
  simp [Place.has, Place.guard, isNull]

theorem timestampCode_element_null {P : PEnv} {r : TimestampRules}
    (hs : (timestampCode P nm .element r).isSome = true)
    (hr : r.required ≠ some true) : (timestampCode P nm .element r).run .null = .ok () := by
  unfold timestampCode at *
  simp only [some_seq] at hs
  simp only [run_seq, run_required, run_block hs.2]
  simp [Place.has, Place.guard, isNull, hr]

theorem timestampCode_some {E : Env} {P : PEnv} (hclock : P.now * 1000000000 = E.now * scale)
    {r : TimestampRules} (pl : Place) (hs : (timestampCode P nm pl r).isSome = true)
    (hreq : pl = .element → r.required ≠ some true) (hp : PortTimestamp r) (t : PTime)
    (hd : ClearTime r t) :
    (timestampCode P nm pl r).run (.ts t) = .ok () ↔ TimestampOk E.now r (some t) := by
  unfold timestampCode at *
  simp only [some_seq] at hs
  have h1 := some_block hs.2
  rw [some_onSecs] at h1
  simp only [run_seq, run_required, run_block hs.2, run_onSecs_ts, tsBody_ok hclock h1 hp t hd]
  cases pl with
  | field => simp [Place.has, Place.guard, isNull]
  | element => simp [Place.has, Place.guard, isNull, hreq rfl]

end PGV.Py
