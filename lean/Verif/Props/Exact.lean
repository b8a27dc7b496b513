import Verif.Lemmas.LitText
import Verif.Props.Strings
import Verif.Props.WellKnown
import Verif.Lemmas.AcceptedKinds

/-!
C15, C19, C24, C26: what is accepted exactly, also where it is not what the rule says.
-/

set_option linter.unusedSimpArgs false

namespace PGV.Props
open PGV PGV.Go PGV.Spec PGV.Checker
open PGV.Cpp (encode_bytes encode_small)

/-! ### C15 -/

/-- The Kelvin sign as a `k`, the dotted capital I as an `i`, other characters as they are. -/
def foldOdd (c : Nat) : Nat := if c = 0x212A then 0x6B else if c = 0x0130 then 0x69 else c

/-- `goLower` without its shortcut for ASCII. -/
theorem goLower_utf8 (E : Env) {cs : List Nat} (hcs : ∀ c ∈ cs, CodePoint c) :
    goLower E (utf8 cs) = cs.flatMap fun r =>
      encodeRune (if r < 0x80 then (if 0x41 ≤ r ∧ r ≤ 0x5A then r + 0x20 else r) else E.lowerRune r) := by
  unfold goLower
  split
  · rename_i hasc
    unfold utf8 at hasc ⊢
    induction cs with
    | nil => rfl
    | cons c cs ih =>
      simp only [List.flatMap_cons, List.map_append]
      rw [ih (fun x hx => hcs x (by simp [hx])) (fun b hb => hasc b (by simp [hb]))]
      congr 1
      have hc : IsScalar c := hcs c (by simp)
      have hsmall : c < 0x80 := by
        obtain ⟨b, hb⟩ := List.exists_mem_of_ne_nil _ (encodeRune_ne_nil c)
        rcases encode_bytes hc b hb with h | ⟨-, h⟩
        · exact h.1
        · have := hasc b (by simp [hb])
          rw [UInt8.lt_iff_toNat] at this
          have h8 : (0x80 : UInt8).toNat = 128 := rfl
          omega
      rw [encode_small hsmall, if_pos hsmall]
      have hb : (UInt8.ofNat c).toNat = c := ofNat_toNat (by omega)
      simp only [List.map_cons, List.map_nil, UInt8.le_iff_toNat, hb]
      rw [show (0x41 : UInt8).toNat = 0x41 from rfl, show (0x5A : UInt8).toNat = 0x5A from rfl]
      split
      · rw [encode_small (by omega)]
        congr 1
        apply UInt8.toNat.inj
        rw [UInt8.toNat_add, hb, ofNat_toNat (by omega)]
        show (c + 32) % 256 = c + 32
        omega
      · rw [encode_small hsmall]
  · rw [show runes (utf8 cs) = cs from runes_encode cs hcs]

theorem fold_point {c : Nat} (h : CodePoint c) : CodePoint (foldOdd c) := by
  unfold foldOdd
  split
  · unfold CodePoint; omega
  · split
    · unfold CodePoint; omega
    · exact h

theorem goLower_fold (E : Env) (hk : E.lowerRune 0x212A = 0x6B) (hi : E.lowerRune 0x0130 = 0x69) {cs : List Nat}
    (hcs : ∀ c ∈ cs, CodePoint c) : goLower E (utf8 (cs.map foldOdd)) = goLower E (utf8 cs) := by
  rw [goLower_utf8 E hcs, goLower_utf8 E (by
    intro c hc
    obtain ⟨c', hc', rfl⟩ := List.mem_map.1 hc
    exact fold_point (hcs c' hc'))]
  rw [List.flatMap_map]
  congr 1
  funext c
  unfold foldOdd
  split
  · rename_i h; subst h; simp [hk]
  · split
    · rename_i h; subst h; simp [hi]
    · rfl

/-- Ending in a dot, for text and for characters. -/
theorem utf8_dot {cs : List Nat} (hcs : ∀ c ∈ cs, CodePoint c) {core : Bytes} :
    utf8 cs = core ++ [0x2E] ↔ ∃ cs', cs = cs' ++ [0x2E] ∧ core = utf8 cs' := by
  constructor
  · intro h
    rcases List.eq_nil_or_concat cs with rfl | ⟨cs', c, rfl⟩
    · simp [utf8] at h
    · have hc : IsScalar c := hcs c (by simp)
      unfold utf8 at h
      rw [List.concat_eq_append, List.flatMap_append] at h
      simp only [List.flatMap_cons, List.flatMap_nil, List.append_nil] at h
      have hmem : (0x2E : UInt8) ∈ encodeRune c := by
        have hl : (cs'.flatMap encodeRune ++ encodeRune c).getLast? = some 0x2E := by rw [h]; simp
        rw [List.getLast?_append] at hl
        cases hq : (encodeRune c).getLast? with
        | none => exact absurd (List.getLast?_eq_none_iff.1 hq) (encodeRune_ne_nil c)
        | some b =>
          rw [hq] at hl
          simp at hl
          subst hl
          exact List.mem_of_getLast? hq
      have hceq : c = 0x2E := by
        rcases encode_bytes hc _ hmem with ⟨-, h⟩ | ⟨-, h⟩
        · exact h.symm
        · exact absurd h (by decide)
      subst hceq
      refine ⟨cs', by rw [List.concat_eq_append], ?_⟩
      have : encodeRune 0x2E = [0x2E] := rfl
      rw [this] at h
      exact (List.append_inj_left' h rfl).symm
  · rintro ⟨cs', rfl, rfl⟩
    simp [utf8, List.flatMap_append, encodeRune]

theorem fold_dot (c : Nat) : foldOdd c = 0x2E ↔ c = 0x2E := by
  unfold foldOdd
  split
  · omega
  · split <;> omega

theorem length_fold_le (cs : List Nat) : (utf8 (cs.map foldOdd)).length ≤ (utf8 cs).length := by
  induction cs with
  | nil => simp [utf8]
  | cons c cs ih =>
    unfold utf8 at ih ⊢
    simp only [List.map_cons, List.flatMap_cons, List.length_append]
    have : (encodeRune (foldOdd c)).length ≤ (encodeRune c).length := by
      unfold foldOdd
      split
      · rename_i h; subst h; decide
      · split
        · rename_i h; subst h; decide
        · exact Nat.le_refl _
    omega

/-- **C15** What is accepted exactly, for every text: at most 253 bytes that are a hostname when each Kelvin sign
is read as `k` and each dotted capital I as `i`. The hypotheses on `unicode.ToLower` say that it maps these two to
`k` and `i` and no other non-ASCII character to ASCII. -/
theorem C15_exact (E : Env) (S : Schema) (typ : String) (f : FieldDesc)
    (h : OnlyField S typ f) (m : Option MessageRules) (hT : f.typ = .one .string)
    (hr : f.rules = .mk m (.string { wellKnown := some (.hostname true) }))
    (hlow : ∀ r, 0x80 ≤ r → r ∉ OddCase → 0x80 ≤ E.lowerRune r)
    (hk : E.lowerRune 0x212A = 0x6B) (hi : E.lowerRune 0x0130 = 0x69)
    (cs : List Nat) (hcs : ∀ c ∈ cs, CodePoint c) :
    Accepts E S typ f (.sc (.str (utf8 cs))) ↔
      (utf8 cs).length ≤ 253 ∧ Hostname (utf8 (cs.map foldOdd)) := by
  have hfold : ∀ c ∈ cs.map foldOdd, CodePoint c := by
    intro c hc
    obtain ⟨c', hc', rfl⟩ := List.mem_map.1 hc
    exact fold_point (hcs c' hc')
  have hodd : ∀ r ∈ runes (utf8 (cs.map foldOdd)), 0x80 ≤ r → 0x80 ≤ E.lowerRune r := by
    rw [show runes (utf8 (cs.map foldOdd)) = cs.map foldOdd from runes_encode _ hfold]
    intro r hr h80
    refine hlow r h80 ?_
    obtain ⟨c', -, rfl⟩ := List.mem_map.1 hr
    unfold foldOdd OddCase
    simp only [List.mem_cons, List.not_mem_nil, or_false]
    split
    · omega
    · split <;> omega
  rw [accepts_string h hT hr, ← hostname_iff hodd]
  have hok : StringOk E { wellKnown := some (.hostname true) } (utf8 cs) ↔ HostnameOk (goLower E) (utf8 cs) := by
    simp [StringOk, ListOk, LenOk, WellKnownOk]
  rw [hok]
  unfold HostnameOk
  have hle := length_fold_le cs
  have core : (∃ core : Bytes, (utf8 cs = core ++ [0x2E] ∨ (utf8 cs = core ∧ ¬ [0x2E] <:+ utf8 cs)) ∧
      ∃ labels : List Bytes, labels ≠ [] ∧ goLower E core = List.intercalate [0x2E] labels ∧ ∀ l ∈ labels, LabelOk l) ↔
    (∃ core : Bytes, (utf8 (cs.map foldOdd) = core ++ [0x2E] ∨
        (utf8 (cs.map foldOdd) = core ∧ ¬ [0x2E] <:+ utf8 (cs.map foldOdd))) ∧
      ∃ labels : List Bytes, labels ≠ [] ∧ goLower E core = List.intercalate [0x2E] labels ∧ ∀ l ∈ labels, LabelOk l) := by
    have suf : [(0x2E : UInt8)] <:+ utf8 cs ↔ [(0x2E : UInt8)] <:+ utf8 (cs.map foldOdd) := by
      constructor
      · rintro ⟨t, ht⟩
        obtain ⟨cs', rfl, -⟩ := (utf8_dot hcs).1 ht.symm
        exact ⟨utf8 (cs'.map foldOdd), ((utf8_dot hfold).2 ⟨cs'.map foldOdd, by simp [foldOdd], rfl⟩).symm⟩
      · rintro ⟨t, ht⟩
        obtain ⟨cs', hcs', -⟩ := (utf8_dot hfold).1 ht.symm
        rw [List.map_eq_append_iff] at hcs'
        obtain ⟨l1, l2, rfl, -, h2⟩ := hcs'
        rw [List.map_eq_cons_iff] at h2
        obtain ⟨c, l3, rfl, hc, h3⟩ := h2
        rw [List.map_eq_nil_iff] at h3
        subst h3
        rw [fold_dot] at hc
        subst hc
        exact ⟨utf8 l1, ((utf8_dot hcs).2 ⟨l1, rfl, rfl⟩).symm⟩
    constructor
    · rintro ⟨core, hc, hl⟩
      rcases hc with hc | ⟨hc, hs⟩
      · obtain ⟨cs', rfl, rfl⟩ := (utf8_dot hcs).1 hc
        refine ⟨utf8 (cs'.map foldOdd), .inl ((utf8_dot hfold).2 ⟨_, by simp [foldOdd], rfl⟩), ?_⟩
        rw [goLower_fold E hk hi (fun c hc => hcs c (by simp [hc]))]
        exact hl
      · subst hc
        refine ⟨_, .inr ⟨rfl, fun h => hs (suf.2 h)⟩, ?_⟩
        rw [goLower_fold E hk hi hcs]
        exact hl
    · rintro ⟨core, hc, hl⟩
      rcases hc with hc | ⟨hc, hs⟩
      · have hdot : [(0x2E : UInt8)] <:+ utf8 cs := suf.2 ⟨core, hc.symm⟩
        obtain ⟨t, ht⟩ := hdot
        obtain ⟨cs', rfl, rfl⟩ := (utf8_dot hcs).1 ht.symm
        refine ⟨utf8 cs', .inl ht.symm, ?_⟩
        obtain ⟨cs2, h1, rfl⟩ := (utf8_dot hfold).1 hc
        have : cs2 = cs'.map foldOdd := by
          rw [List.map_append] at h1
          exact (List.append_inj_left' h1 rfl).symm
        rw [this, goLower_fold E hk hi (fun c hc => hcs c (by simp [hc]))] at hl
        exact hl
      · subst hc
        refine ⟨_, .inr ⟨rfl, fun h => hs (suf.1 h)⟩, ?_⟩
        rw [goLower_fold E hk hi hcs] at hl
        exact hl
  rw [core]
  constructor
  · rintro ⟨h1, h2⟩; exact ⟨h1, by omega, h2⟩
  · rintro ⟨h1, -, h2⟩; exact ⟨h1, h2⟩

/-- C15_exact's hypotheses are met by Go's lower-casing of the two characters, for a text with both. -/
example : ∃ E : Env, E.lowerRune 0x212A = 0x6B ∧ E.lowerRune 0x0130 = 0x69 ∧
    (∀ r, 0x80 ≤ r → r ∉ OddCase → 0x80 ≤ E.lowerRune r) ∧
    (∀ c ∈ [0x212A, 0x2E, 0x0130], CodePoint c) ∧ utf8 ([0x212A, 0x2E, 0x0130].map foldOdd) = asc "k.i" := by
  refine ⟨{ Fixtures.env with lowerRune := fun r => if r = 0x212A then 0x6B else if r = 0x0130 then 0x69 else r },
    by decide, by decide, ?_, ?_, by decide⟩
  · intro r h1 h2
    simp only [OddCase, List.mem_cons, List.not_mem_nil, or_false, not_or] at h2
    simp [h2.1, h2.2, h1]
  · unfold CodePoint; decide

/-! ### C19 -/

/-- **C19** What is accepted exactly, for all rule sets the generator accepts: `len` hides `min_len` and `max_len`,
an empty `const` counts for nothing, and with `ignore_empty` the empty value is accepted. -/
theorem C19_exact (E : Env) (S : Schema) (typ : String) (f : FieldDesc)
    (h : OnlyField S typ f) (m : Option MessageRules) (r : BytesRules) (hT : f.typ = .one .bytes)
    (hr : f.rules = .mk m (.bytes r)) (hc : Checked f) (s : Bytes) :
    Accepts E S typ f (.sc (.bytes s)) ↔ (r.ignoreEmpty = some true ∧ s = []) ∨
      ((∀ k, r.len = some k → s.length = k) ∧
      (r.len = none → WithinLimits none r.minLen r.maxLen s.length) ∧
      (∀ p, r.pfx = some p → ∃ rest, s = p ++ rest) ∧
      (∀ p, r.sfx = some p → ∃ rest, s = rest ++ p) ∧
      (∀ p, r.contains = some p → ∃ a b, s = a ++ p ++ b) ∧
      (r.ins ≠ [] → s ∈ r.ins) ∧ s ∉ r.notIns ∧
      (∀ c, r.const = some c → c ≠ [] → s = c) ∧
      (r.wellKnown = some (.ip true) → IPBytes s) ∧
      (r.wellKnown = some (.ipv4 true) → IPv4Bytes s) ∧
      (r.wellKnown = some (.ipv6 true) → IPBytes s ∧ ¬ IPv4Bytes s) ∧
      (∀ p, r.pattern = some p → E.matchRe p s = true)) := by
  have hck := checked_bytes hc (by rw [hr]; rfl)
  simp only [checkBytes, Bool.and_eq_true, checkIns_iff, List.length_eq_zero_iff] at hck
  have hins := hck.1.1.2
  rw [accepts_bytes h hT hr]
  have e0 : LenOk r.len r.minLen r.maxLen s.length ↔ (∀ k, r.len = some k → s.length = k) ∧
      (r.len = none → WithinLimits none r.minLen r.maxLen s.length) := by
    cases r.len <;> simp [LenOk, WithinLimits]
  simp only [BytesOk, e0, List.IsPrefix, List.IsSuffix, List.IsInfix, eq_comm (b := s), and_assoc]
  refine or_congr_right ?_
  refine and_congr_right fun _ => and_congr_right fun _ => and_congr_right fun _ =>
    and_congr_right fun _ => and_congr_right fun _ => ?_
  have e1 : ListOk (· = ·) r.ins r.notIns s ↔ (r.ins ≠ [] → s ∈ r.ins) ∧ s ∉ r.notIns := by
    unfold ListOk
    constructor
    · rintro ⟨h1, h2⟩
      refine ⟨fun hne => ?_, ?_⟩
      · obtain ⟨k, hk, rfl⟩ := h1 hne; exact hk
      · rcases hins with h4 | h4
        · exact fun hmem => h2 h4 s hmem rfl
        · simp [h4]
    · rintro ⟨h1, h2⟩
      exact ⟨fun hne => ⟨s, h1 hne, rfl⟩, fun _ k hk he => h2 (he ▸ hk)⟩
  rw [e1, and_assoc]
  refine and_congr_right fun _ => and_congr_right fun _ => and_congr_right fun _ => ?_
  rw [← and_assoc, ← and_assoc]
  refine and_congr_left fun _ => ?_
  cases hw : r.wellKnown with
  | none => simp
  | some w => cases w <;> rename_i b <;> cases b <;> simp

/-- C19_exact's hypotheses are met by rules outside `C19_bytes_partial`. -/
example : Checked (Fixtures.fieldOf .bytes (.bytes { len := some 3, minLen := some 5 })) ∧
    Checked (Fixtures.fieldOf .bytes (.bytes { const := some [] })) :=
  ⟨by unfold Checked; decide, by unfold Checked; decide⟩

/-! ### C24 -/

theorem durRange_held {r : DurationRules} (n4 : r.lt = none ∨ r.lte = none) (n5 : r.gt = none ∨ r.gte = none)
    (hb : ∀ k, r.lt = some k ∨ r.lte = some k ∨ r.gt = some k ∨ r.gte = some k → k.asDuration = length k) (x : Int) :
    DurRangeOk (durUpper r) (durLower r) x ↔ RangeOk (upperOf (durLimits r)) (lowerOf (durLimits r)) x := by
  obtain ⟨rq, const, lt, lte, gt, gte, ins, notIns⟩ := r
  simp only at n4 n5 hb
  unfold DurRangeOk RangeOk durUpper durLower upperOf lowerOf durLimits
  have ex : ∀ d : PDur, d.exact = length d := fun _ => rfl
  cases lt <;> cases lte <;> cases gt <;> cases gte <;> simp at n4 n5 <;>
    simp only [Option.map_some, Option.map_none, ex] <;>
    first
      | done
      | (rw [hb _ (by simp), hb _ (by simp)]; done)
      | (rename_i u l; rw [hb u (by simp), hb l (by simp)]; rfl)
      | rfl

/-- **C24** What is accepted exactly: rules are compared with the nearest length that 64-bit nanoseconds hold. Bounds and constant are within
64-bit nanoseconds, as they must be for the code to compile (C42, C72). -/
theorem C24_exact (E : Env) (S : Schema) (typ : String) (f : FieldDesc)
    (h : OnlyField S typ f) (m : Option MessageRules) (r : DurationRules) (e : ElemT)
    (hT : f.typ = .one e) (hr : f.rules = .mk m (.duration r)) (hc : Checked f)
    (hcon : DurConstrained r) (ho : ∀ k, DurBound r k → InInt64 (length k)) (d : PDur) :
    Accepts E S typ f (.dur d) ↔
      ValidDuration d ∧ (∀ k, r.const = some k → heldLength d = length k) ∧
      (durLimits r).Admits (heldLength d) ∧
      (r.ins ≠ [] → ∃ k ∈ r.ins, heldLength d = heldLength k) ∧
      (∀ k ∈ r.notIns, heldLength d ≠ heldLength k) := by
  have hck := checked_duration hc (r := r) (by rw [hr]; rfl)
  rw [checkDuration_iff] at hck
  obtain ⟨hv, n1, n2, n3, n4, n5, n6⟩ := hck
  rw [accepts_value h hT, hr]
  show DurationOk r (some d) ↔ _
  simp only [DurationOk, hcon, forall_const, valid_iff]
  refine and_congr_right fun hd => ?_
  have hh : ∀ k, DurBound r k → heldLength k = length k := by
    intro k hk
    have := ho k hk
    unfold InInt64 at this
    unfold heldLength
    omega
  have hb : ∀ k, r.lt = some k ∨ r.lte = some k ∨ r.gt = some k ∨ r.gte = some k → k.asDuration = length k := by
    intro k hk
    rw [asDuration_held (hv k (by rcases hk with h | h | h | h <;> simp [h])),
      hh k (by unfold DurBound; rcases hk with h | h | h | h <;> simp [h])]
  rw [asDuration_held hd, durRange_held n4 n5 hb]
  refine and_congr Iff.rfl (and_congr ?_ ?_)
  · refine rangeOk_admits (durLimits r) (by simpa [durLimits] using n4) (by simpa [durLimits] using n5) ?_ _
    intro u l hu hl he
    simp only [durLimits] at hu hl
    obtain ⟨du, hdu, rfl⟩ := some_of_map hu
    obtain ⟨dl, hdl, rfl⟩ := some_of_map hl
    refine n6 du dl hdu hdl ?_
    rw [hh du (by unfold DurBound; rcases hdu with h | h <;> simp [h]),
      hh dl (by unfold DurBound; rcases hdl with h | h <;> simp [h])]
    exact he
  · unfold ListOk
    constructor
    · rintro ⟨h1, h2⟩
      refine ⟨fun hne => ?_, fun k hk he => ?_⟩
      · obtain ⟨y, hy, hye⟩ := h1 (by simpa using hne)
        obtain ⟨k, hk, rfl⟩ := List.mem_map.1 hy
        exact ⟨k, hk, by rw [hye, asDuration_held (hv k (by simp [hk]))]⟩
      · have hin : r.ins = [] := by
          rcases n1 with h | h
          · exact h
          · simp [h] at hk
        exact h2 (by simp [hin]) k.asDuration (List.mem_map.2 ⟨k, hk, rfl⟩)
          (by rw [he, asDuration_held (hv k (by simp [hk]))])
    · rintro ⟨h1, h2⟩
      refine ⟨fun hne => ?_, fun _ y hy he => ?_⟩
      · obtain ⟨k, hk, hke⟩ := h1 (by simpa using hne)
        exact ⟨k.asDuration, List.mem_map.2 ⟨k, hk, rfl⟩, by rw [hke, asDuration_held (hv k (by simp [hk]))]⟩
      · obtain ⟨k, hk, rfl⟩ := List.mem_map.1 hy
        exact h2 k hk (by rw [he, asDuration_held (hv k (by simp [hk]))])

/-- C24_exact's hypotheses are met by the rules of `C24_saturation`. -/
example : Checked (durField { lte := some ⟨9223372036, 854775807⟩ }) ∧
    DurConstrained { lte := some ⟨9223372036, 854775807⟩ } ∧
    InInt64 (length ⟨9223372036, 854775807⟩) ∧
    heldLength ⟨9223372036, 854775808⟩ = length ⟨9223372036, 854775807⟩ :=
  ⟨by unfold Checked; decide, by simp [DurConstrained], by unfold InInt64; decide, by decide⟩

/-! ### C26 -/

/-- **C26** What is accepted exactly: `lt_now` and `gt_now` count when they are given, whatever their value. -/
theorem C26_exact (E : Env) (S : Schema) (typ : String) (f : FieldDesc)
    (h : OnlyField S typ f) (m : Option MessageRules) (req lt gt : Option Bool) (w : Option PDur)
    (e : ElemT) (hT : f.typ = .one e)
    (hr : f.rules = .mk m (.timestamp { required := req, ltNow := lt, gtNow := gt, within := w }))
    (hc : Checked f) (hcon : lt ≠ none ∨ gt ≠ none ∨ w ≠ none) (t : PTime) :
    Accepts E S typ f (.ts t) ↔
      ValidTimestamp t ∧ (lt ≠ none → instant t < E.now) ∧ (gt ≠ none → E.now < instant t) ∧
      (∀ d, w = some d → if lt ≠ none ∨ gt ≠ none
        then E.now - length d ≤ instant t ∧ instant t ≤ E.now + length d
        else E.now - length d < instant t ∧ instant t < E.now + length d) := by
  have hck := checked_timestamp hc (r := { required := req, ltNow := lt, gtNow := gt, within := w })
    (by rw [hr]; rfl)
  rw [checkTimestamp_iff] at hck
  have hone := hck.oneNow
  have hpos : ∀ d, w = some d → 0 < length d := fun d hd => (hck.withinPos d hd).2
  rw [accepts_value h hT, hr]
  show TimestampOk E.now _ (some t) ↔ _
  have hlen : ∀ d : PDur, d.exact = length d := fun _ => rfl
  have hcon' : TsConstrained { required := req, ltNow := lt, gtNow := gt, within := w } := by
    unfold TsConstrained
    rcases hcon with h | h | h <;> simp [h]
  simp only [TimestampOk, hcon', forall_const, tsValid_iff, tsUpper, tsLower, RangeOk, NowOk]
  refine and_congr_right fun _ => ?_
  cases lt with
  | some b =>
    have hg : gt = none := by simpa using hone
    subst hg
    cases w with
    | none => simp
    | some d =>
      have := hpos d rfl
      simp [hlen]
      omega
  | none =>
    cases gt with
    | some b =>
      cases w with
      | none => simp
      | some d =>
        have := hpos d rfl
        simp [hlen]
        exact fun h1 _ => Int.le_trans (Int.sub_le_self _ (Int.le_of_lt this)) (Int.le_of_lt h1)
    | none =>
      cases w with
      | none => simp
      | some d => simp [hlen]

/-- C26_exact's hypotheses are met by rules outside `C26_relative_partial`. -/
example : Checked (tsField { ltNow := some false, within := some ⟨60, 0⟩ }) := by unfold Checked; decide

end PGV.Props
