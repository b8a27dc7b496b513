import Verif.Lemmas.Java
import Verif.Spec.Portable

/-!
Java numbers: when Java's order and equality are the numeric ones.
-/

set_option linter.unusedSimpArgs false

namespace PGV.Java
open PGV PGV.Spec PGV.Checker

/-! ### A float's value determines its bits, up to the sign of zero -/

/-- Magnitude of an IEEE number with exponent `e` and `p` mantissa bits `m`. -/
def mag (p e m : Nat) : Nat := if e = 0 then m else (p + m) * 2 ^ (e - 1)

theorem mag_step (p n : Nat) (hp : 0 < p) :
    mag p (n / p) (n % p) < mag p ((n + 1) / p) ((n + 1) % p) := by
  have hlt := Nat.mod_lt n hp
  have hdm := Nat.div_add_mod n p
  by_cases hc : n % p + 1 = p
  · have hn : n + 1 = p * (n / p + 1) := by rw [Nat.mul_add]; omega
    have h1 : (n + 1) / p = n / p + 1 := by rw [hn, Nat.mul_div_cancel_left _ hp]
    have h2 : (n + 1) % p = 0 := by rw [hn, Nat.mul_mod_right]
    rw [h1, h2]
    unfold mag
    simp only [Nat.add_eq_zero_iff, Nat.one_ne_zero, and_false, if_false, Nat.add_zero,
      Nat.add_sub_cancel]
    split
    · rename_i h0; rw [h0]; simp; omega
    · rename_i h0
      obtain ⟨q, hq⟩ := Nat.exists_eq_succ_of_ne_zero h0
      rw [hq]
      simp only [Nat.succ_eq_add_one, Nat.add_sub_cancel]
      rw [show p * 2 ^ (q + 1) = (p + p) * 2 ^ q by rw [Nat.pow_succ, ← Nat.mul_assoc, Nat.mul_right_comm]; rw [← Nat.mul_two]]
      exact Nat.mul_lt_mul_of_pos_right (by omega) (Nat.pow_pos (by decide))
  · have hsm : (n + 1) = p * (n / p) + (n % p + 1) := by omega
    have h1 : (n + 1) / p = n / p := by
      have hq : n % p + 1 < p := by omega
      have h5 := Nat.mul_add_div hp (n / p) (n % p + 1)
      rw [← hsm, Nat.div_eq_of_lt hq, Nat.add_zero] at h5
      exact h5
    have h2 : (n + 1) % p = n % p + 1 := by
      have hq : n % p + 1 < p := by omega
      have h5 := Nat.mul_add_mod p (n / p) (n % p + 1)
      rw [← hsm, Nat.mod_eq_of_lt hq] at h5
      exact h5
    rw [h1, h2]
    unfold mag
    split
    · omega
    · exact Nat.mul_lt_mul_of_pos_right (by omega) (Nat.pow_pos (by decide))

theorem mag_mono (p : Nat) (hp : 0 < p) (a d : Nat) :
    mag p (a / p) (a % p) < mag p ((a + d + 1) / p) ((a + d + 1) % p) := by
  induction d with
  | zero => exact mag_step p a hp
  | succ d ih => exact Nat.lt_trans ih (mag_step p (a + d + 1) hp)

theorem mag_inj (p : Nat) (hp : 0 < p) (a b : Nat)
    (h : mag p (a / p) (a % p) = mag p (b / p) (b % p)) : a = b := by
  rcases Nat.lt_trichotomy a b with hlt | heq | hgt
  · obtain ⟨d, rfl⟩ := Nat.exists_eq_add_of_lt hlt
    have := mag_mono p hp a d
    omega
  · exact heq
  · obtain ⟨d, rfl⟩ := Nat.exists_eq_add_of_lt hgt
    have := mag_mono p hp b d
    omega

theorem mag_pos (p : Nat) (hp : 0 < p) (a : Nat) (h : mag p (a / p) (a % p) = 0) : a = 0 :=
  mag_inj p hp a 0 (by rw [h]; simp [mag])

theorem f32Key_eq_val (b : BitVec 32) : f32Key b = f32Val b := rfl
theorem f64Key_eq_val (b : BitVec 64) : f64Key b = f64Val b := rfl

theorem f32Key_some {b : BitVec 32} {x : Int} (h : f32Key b = some x) :
    x = if b.toNat / 2147483648 = 1 then
      -(mag 8388608 (b.toNat % 2147483648 / 8388608) (b.toNat % 2147483648 % 8388608) : Int)
      else mag 8388608 (b.toNat % 2147483648 / 8388608) (b.toNat % 2147483648 % 8388608) := by
  unfold f32Key at h
  simp only at h
  split at h
  · cases h
  · have e1 : b.toNat / 8388608 % 256 = b.toNat % 2147483648 / 8388608 := by omega
    have e2 : b.toNat % 8388608 = b.toNat % 2147483648 % 8388608 := by omega
    rw [e1, e2] at h
    simp only [Option.some.injEq] at h
    rw [← h]
    rfl

theorem f64Key_some {b : BitVec 64} {x : Int} (h : f64Key b = some x) :
    x = if b.toNat / 9223372036854775808 = 1 then
      -(mag 4503599627370496 (b.toNat % 9223372036854775808 / 4503599627370496)
        (b.toNat % 9223372036854775808 % 4503599627370496) : Int)
      else mag 4503599627370496 (b.toNat % 9223372036854775808 / 4503599627370496)
        (b.toNat % 9223372036854775808 % 4503599627370496) := by
  unfold f64Key at h
  simp only at h
  split at h
  · cases h
  · have e1 : b.toNat / 4503599627370496 % 2048 = b.toNat % 9223372036854775808 / 4503599627370496 := by
      omega
    have e2 : b.toNat % 4503599627370496 = b.toNat % 9223372036854775808 % 4503599627370496 := by omega
    rw [e1, e2] at h
    simp only [Option.some.injEq] at h
    rw [← h]
    rfl

/-- Two float32 values other than NaN and negative zero are equal only if their bits are. -/
theorem f32Key_inj {a b : BitVec 32} {x : Int} (ha : f32Key a = some x) (hb : f32Key b = some x)
    (na : a ≠ 0x80000000#32) (nb : b ≠ 0x80000000#32) : a = b := by
  have h1 := f32Key_some ha
  have h2 := f32Key_some hb
  have la := a.isLt
  have lb := b.isLt
  have na' : a.toNat ≠ 2147483648 := fun h => na (BitVec.eq_of_toNat_eq (by simpa using h))
  have nb' : b.toNat ≠ 2147483648 := fun h => nb (BitVec.eq_of_toNat_eq (by simpa using h))
  apply BitVec.eq_of_toNat_eq
  have key := mag_inj 8388608 (by decide) (a.toNat % 2147483648) (b.toNat % 2147483648)
  have za := mag_pos 8388608 (by decide) (a.toNat % 2147483648)
  have zb := mag_pos 8388608 (by decide) (b.toNat % 2147483648)
  generalize hma : mag 8388608 (a.toNat % 2147483648 / 8388608) (a.toNat % 2147483648 % 8388608) = ma at *
  generalize hmb : mag 8388608 (b.toNat % 2147483648 / 8388608) (b.toNat % 2147483648 % 8388608) = mb at *
  split at h1 <;> split at h2
  · have := key (by omega); omega
  · have h3 : ma = 0 := by omega
    have := za h3; omega
  · have h3 : mb = 0 := by omega
    have := zb h3; omega
  · have := key (by omega); omega

/-- Two float64 values other than NaN and negative zero are equal only if their bits are. -/
theorem f64Key_inj {a b : BitVec 64} {x : Int} (ha : f64Key a = some x) (hb : f64Key b = some x)
    (na : a ≠ 0x8000000000000000#64) (nb : b ≠ 0x8000000000000000#64) : a = b := by
  have h1 := f64Key_some ha
  have h2 := f64Key_some hb
  have la := a.isLt
  have lb := b.isLt
  have na' : a.toNat ≠ 9223372036854775808 := fun h => na (BitVec.eq_of_toNat_eq (by simpa using h))
  have nb' : b.toNat ≠ 9223372036854775808 := fun h => nb (BitVec.eq_of_toNat_eq (by simpa using h))
  apply BitVec.eq_of_toNat_eq
  have key := mag_inj 4503599627370496 (by decide) (a.toNat % 9223372036854775808)
    (b.toNat % 9223372036854775808)
  have za := mag_pos 4503599627370496 (by decide) (a.toNat % 9223372036854775808)
  have zb := mag_pos 4503599627370496 (by decide) (b.toNat % 9223372036854775808)
  generalize hma : mag 4503599627370496 (a.toNat % 9223372036854775808 / 4503599627370496)
    (a.toNat % 9223372036854775808 % 4503599627370496) = ma at *
  generalize hmb : mag 4503599627370496 (b.toNat % 9223372036854775808 / 4503599627370496)
    (b.toNat % 9223372036854775808 % 4503599627370496) = mb at *
  split at h1 <;> split at h2
  · have := key (by omega); omega
  · have h3 : ma = 0 := by omega
    have := za h3; omega
  · have h3 : mb = 0 := by omega
    have := zb h3; omega
  · have := key (by omega); omega

/-! ### Plain numbers -/

/-- The value of a Java number other than NaN. -/
def jval : JNum → Int
  | .int i => i
  | .long i => i
  | .float b => (f32Key b).getD 0
  | .double b => (f64Key b).getD 0

theorem wrap32_id {i : Int} (h1 : -2147483648 ≤ i) (h2 : i ≤ 2147483647) : wrap32 i = i := by
  unfold wrap32; rw [Int.bmod_eq_of_le] <;> omega
theorem wrap64_id {i : Int} (h1 : -9223372036854775808 ≤ i) (h2 : i ≤ 9223372036854775807) :
    wrap64 i = i := by
  unfold wrap64; rw [Int.bmod_eq_of_le] <;> omega

/-- The Java representation of a plain number. -/
inductive Repr (k : NumKind) : Num → Prop
  | narrow {i} : Spec.narrow k → jnum k (.int i) = .int i → Repr k (.int i)
  | wide {i} : Spec.wide k → jnum k (.int i) = .long i → Repr k (.int i)
  | float {b x} : k = .float → f32Key b = some x → b ≠ 0x80000000#32 → Repr k (.f32 b)
  | double {b x} : k = .double → f64Key b = some x → b ≠ 0x8000000000000000#64 → Repr k (.f64 b)

theorem repr_of_plain {k : NumKind} {n : Num} (h : Plain k n) : Repr k n := by
  cases n with
  | int i =>
    rcases h with ⟨hk, h1, h2⟩ | ⟨hk, h1, h2⟩
    · refine .narrow hk ?_
      simp only [narrow, List.mem_cons, List.not_mem_nil, or_false] at hk
      rcases hk with rfl | rfl | rfl | rfl | rfl <;> simp [jnum, wrap32_id h1 h2]
    · refine .wide hk ?_
      simp only [wide, List.mem_cons, List.not_mem_nil, or_false] at hk
      rcases hk with rfl | rfl | rfl | rfl | rfl <;> simp [jnum, wrap64_id h1 h2]
  | f32 b =>
    obtain ⟨hk, hv, hz⟩ := h
    cases hx : f32Key b with
    | none => exact absurd hx hv
    | some x => exact .float hk hx hz
  | f64 b =>
    obtain ⟨hk, hv, hz⟩ := h
    cases hx : f64Key b with
    | none => exact absurd hx hv
    | some x => exact .double hk hx hz

theorem not_both {k : NumKind} (h1 : narrow k) (h2 : wide k) : False := by
  simp only [narrow, List.mem_cons, List.not_mem_nil, or_false] at h1
  rcases h1 with rfl | rfl | rfl | rfl | rfl <;> simp [wide] at h2

theorem jnum_f32 (k : NumKind) (b : BitVec 32) : jnum k (.f32 b) = .float b := by cases k <;> rfl
theorem jnum_f64 (k : NumKind) (b : BitVec 64) : jnum k (.f64 b) = .double b := by cases k <;> rfl

theorem repr_val {k : NumKind} {n : Num} (h : Repr k n) : numVal n = some (jval (jnum k n)) := by
  cases h with
  | narrow hk h => rw [h]; rfl
  | wide hk h => rw [h]; rfl
  | float hk hx hz => rw [jnum_f32]; simp only [numVal, jval, ← f32Key_eq_val, hx]; rfl
  | double hk hx hz => rw [jnum_f64]; simp only [numVal, jval, ← f64Key_eq_val, hx]; rfl

theorem icmp_self (a : Int) : icmp a a = 0 := by simp [icmp]

theorem fcmp_icmp {x y a b : Int} (h : x = y → a = b) :
    (if x < y then -1 else if y < x then 1 else icmp a b) = icmp x y := by
  rcases Int.lt_trichotomy x y with hlt | heq | hgt
  · simp [icmp, hlt]
  · subst heq; rw [h rfl]; simp [icmp]
  · have : ¬ x < y := by omega
    have : ¬ x = y := by omega
    simp [icmp, *]

theorem repr_orders {k : NumKind} {a b : Num} (ha : Repr k a) (hb : Repr k b) :
    Orders numCmp jval (jnum k a) (jnum k b) := by
  unfold Orders numCmp
  congr 1
  cases ha with
  | narrow hk h =>
    cases hb with
    | narrow hk' h' => rw [h, h']; rfl
    | wide hk' h' => exact (not_both hk hk').elim
    | float hk' => subst hk'; simp [narrow] at hk
    | double hk' => subst hk'; simp [narrow] at hk
  | wide hk h =>
    cases hb with
    | narrow hk' h' => exact (not_both hk' hk).elim
    | wide hk' h' => rw [h, h']; rfl
    | float hk' => subst hk'; simp [wide] at hk
    | double hk' => subst hk'; simp [wide] at hk
  | float hk hx hz =>
    subst hk
    cases hb with
    | narrow hk' h' => simp [narrow] at hk'
    | wide hk' h' => simp [wide] at hk'
    | float hk' hx' hz' =>
      simp only [jnum_f32, jcmp, jval, hx, hx', fcmp, Option.getD]
      exact fcmp_icmp (fun h => by rw [f32Key_inj hx (h ▸ hx') hz hz'])
    | double hk' => cases hk'
  | double hk hx hz =>
    subst hk
    cases hb with
    | narrow hk' h' => simp [narrow] at hk'
    | wide hk' h' => simp [wide] at hk'
    | float hk' => cases hk'
    | double hk' hx' hz' =>
      simp only [jnum_f64, jcmp, jval, hx, hx', fcmp, Option.getD]
      exact fcmp_icmp (fun h => by rw [f64Key_inj hx (h ▸ hx') hz hz'])

theorem repr_eq {k : NumKind} {a b : Num} (ha : Repr k a) (hb : Repr k b) :
    jeq (jnum k a) (jnum k b) = true ↔ numSame a b := by
  have e1 := repr_val ha
  have e2 := repr_val hb
  have hs : numSame a b ↔ jval (jnum k a) = jval (jnum k b) := by
    unfold numSame
    rw [e1, e2]
    constructor
    · rintro ⟨x, h1, h2⟩; exact (Option.some.inj h1).trans (Option.some.inj h2).symm
    · intro h; exact ⟨_, rfl, by rw [h]⟩
  rw [hs]
  cases ha with
  | narrow hk h =>
    cases hb with
    | narrow hk' h' => rw [h, h']; simp [jeq, jval]
    | wide hk' h' => exact (not_both hk hk').elim
    | float hk' => subst hk'; simp [narrow] at hk
    | double hk' => subst hk'; simp [narrow] at hk
  | wide hk h =>
    cases hb with
    | narrow hk' h' => exact (not_both hk' hk).elim
    | wide hk' h' => rw [h, h']; simp [jeq, jval]
    | float hk' => subst hk'; simp [wide] at hk
    | double hk' => subst hk'; simp [wide] at hk
  | float hk hx hz =>
    subst hk
    cases hb with
    | narrow hk' h' => simp [narrow] at hk'
    | wide hk' h' => simp [wide] at hk'
    | float hk' hx' hz' =>
      simp only [jnum_f32, jeq, jval, hx, hx', fbits, Option.getD, reduceCtorEq, if_false,
        beq_iff_eq]
      constructor
      · intro h
        have := BitVec.toInt_inj.1 h
        subst this
        rw [hx] at hx'
        exact Option.some.inj hx'
      · intro h
        subst h
        rw [f32Key_inj hx hx' hz hz']
    | double hk' => cases hk'
  | double hk hx hz =>
    subst hk
    cases hb with
    | narrow hk' h' => simp [narrow] at hk'
    | wide hk' h' => simp [wide] at hk'
    | float hk' => cases hk'
    | double hk' hx' hz' =>
      simp only [jnum_f64, jeq, jval, hx, hx', dbits, Option.getD, reduceCtorEq, if_false,
        beq_iff_eq]
      constructor
      · intro h
        have := BitVec.toInt_inj.1 h
        subst this
        rw [hx] at hx'
        exact Option.some.inj hx'
      · intro h
        subst h
        rw [f64Key_inj hx hx' hz hz']

theorem repr_nonzero {k : NumKind} {a : Num} (ha : Repr k a) :
    jnonzero (jnum k a) = true ↔ numVal a ≠ some 0 := by
  rw [repr_val ha]
  cases ha with
  | narrow hk h => rw [h]; simp [jnonzero, jval]
  | wide hk h => rw [h]; simp [jnonzero, jval]
  | float hk hx hz => rw [jnum_f32]; simp [jnonzero, jval, hx]
  | double hk hx hz => rw [jnum_f64]; simp [jnonzero, jval, hx]

/-! ### The numeric template -/

theorem any_map_eq {k : NumKind} {n : Num} (hn : Repr k n) (l : List Num)
    (hl : ∀ b ∈ l, Plain k b) :
    (l.map (jnum k)).any (fun i => jeq (jnum k n) i) = true ↔ ∃ b ∈ l, numSame n b := by
  simp only [List.any_map, List.any_eq_true, Function.comp]
  constructor
  · rintro ⟨b, hb, h⟩; exact ⟨b, hb, (repr_eq hn (repr_of_plain (hl b hb))).1 h⟩
  · rintro ⟨b, hb, h⟩; exact ⟨b, hb, (repr_eq hn (repr_of_plain (hl b hb))).2 h⟩

theorem upper_num {k : NumKind} (r : NumRules)
    (h : ∀ b, r.lt = some b ∨ r.lte = some b → Plain k b) :
    upper jval (r.lt.map (jnum k)) (r.lte.map (jnum k)) = numUpper r := by
  unfold numUpper
  cases hl : r.lt with
  | some b => simp [upper, repr_val (repr_of_plain (h b (.inl hl)))]
  | none =>
    cases hle : r.lte with
    | some b => simp [upper, repr_val (repr_of_plain (h b (.inr hle)))]
    | none => rfl

theorem lower_num {k : NumKind} (r : NumRules)
    (h : ∀ b, r.gt = some b ∨ r.gte = some b → Plain k b) :
    upper jval (r.gt.map (jnum k)) (r.gte.map (jnum k)) = numLower r := by
  unfold numLower
  cases hl : r.gt with
  | some b => simp [upper, repr_val (repr_of_plain (h b (.inl hl)))]
  | none =>
    cases hle : r.gte with
    | some b => simp [upper, repr_val (repr_of_plain (h b (.inr hle)))]
    | none => rfl

/-- Generated Java code accepts a plain number under plain numeric rules exactly when it satisfies
them. -/
theorem numTpl_ok (f : String) (k : NumKind) (r : NumRules) (n : Num) (hc : checkNum r = true)
    (hr : PlainRules k r) (hn : Plain k n) : numTpl f k r n = .ok () ↔ NumOk r n := by
  rw [checkNum, Go.checkNums_iff] at hc
  obtain ⟨hin, -, -, hlt, hgt, hne⟩ := hc
  obtain ⟨hb, hins, hnot⟩ := hr
  have rn := repr_of_plain hn
  have rb : ∀ b, r.const = some b ∨ r.lt = some b ∨ r.lte = some b ∨ r.gt = some b ∨
    r.gte = some b → Repr k b := fun b h => repr_of_plain (hb b h)
  have hrange := ltgt_ok f numCmp jval (r.lt.map (jnum k)) (r.lte.map (jnum k))
    (r.gt.map (jnum k)) (r.gte.map (jnum k)) (jnum k n)
    (by rcases hlt with h | h <;> simp [h]) (by rcases hgt with h | h <;> simp [h])
    (by
      intro u l hu hl
      simp only [Option.map_eq_some_iff] at hu hl
      obtain ⟨u', hu', rfl⟩ : ∃ u', (r.lt = some u' ∨ r.lte = some u') ∧ jnum k u' = u := by
        rcases hu with ⟨a, h1, h2⟩ | ⟨a, h1, h2⟩
        · exact ⟨a, .inl h1, h2⟩
        · exact ⟨a, .inr h1, h2⟩
      obtain ⟨l', hl', rfl⟩ : ∃ l', (r.gt = some l' ∨ r.gte = some l') ∧ jnum k l' = l := by
        rcases hl with ⟨a, h1, h2⟩ | ⟨a, h1, h2⟩
        · exact ⟨a, .inl h1, h2⟩
        · exact ⟨a, .inr h1, h2⟩
      intro he
      have := hne u' l' hu' hl'
      have e1 := repr_val (rb u' (by rcases hu' with h | h <;> simp [h]))
      have e2 := repr_val (rb l' (by rcases hl' with h | h <;> simp [h]))
      have h7 : u'.eq l' = true := (Num.eq_iff u' l').2 ⟨_, e1, by rw [e2, he]⟩
      rw [h7] at this; cases this)
    (by
      intro b h
      simp only [Option.map_eq_some_iff] at h
      rcases h with ⟨a, h1, rfl⟩ | ⟨a, h1, rfl⟩ | ⟨a, h1, rfl⟩ | ⟨a, h1, rfl⟩ <;>
        exact repr_orders rn (rb a (by simp [h1])))
    (by
      intro u l hu hl
      simp only [Option.map_eq_some_iff] at hu hl
      rcases hu with ⟨a, h1, rfl⟩ | ⟨a, h1, rfl⟩ <;> rcases hl with ⟨c, h2, rfl⟩ | ⟨c, h2, rfl⟩ <;>
        exact repr_orders (rb c (by simp [h2])) (rb a (by simp [h1])))
  have hu := upper_num (k := k) r (fun b h => hb b (by rcases h with h | h <;> simp [h]))
  have hl := lower_num (k := k) r (fun b h => hb b (by rcases h with h | h <;> simp [h]))
  have hbody : (withOpt r.const (fun c => constant f (jnum k n) (jnum k c) jeq) ⊳
      ltgt f (r.lt.map (jnum k)) (r.lte.map (jnum k)) (r.gt.map (jnum k)) (r.gte.map (jnum k)) numCmp
        (jnum k n) ⊳
      when (!r.ins.isEmpty) (isIn f (jnum k n) (r.ins.map (jnum k)) jeq) ⊳
      when (!r.notIns.isEmpty) (notIn f (jnum k n) (r.notIns.map (jnum k)) jeq)) = .ok () ↔
      (∀ k, r.const = some k → numSame n k) ∧
      (∀ x, numVal n = some x → RangeOk (numUpper r) (numLower r) x) ∧
      ListOk numSame r.ins r.notIns n := by
    simp only [seq_ok, when_ok, hrange, isIn, notIn, check_ok, any_map_eq rn _ hins]
    refine and_congr ?_ (and_congr ?_ ?_)
    · cases hcst : r.const with
      | none => simp
      | some c => simp [constant, repr_eq rn (rb c (by simp [hcst]))]
    · rw [hu, hl, repr_val rn]
      simp only [Option.some.injEq, forall_eq']
    · have hnn : (!(r.notIns.map (jnum k)).any fun i => jeq (jnum k n) i) = true ↔
          ¬ ∃ b ∈ r.notIns, numSame n b := by
        rw [← any_map_eq rn _ hnot]
        simp
      rw [hnn]
      unfold ListOk
      simp only [List.length_eq_zero_iff] at hin
      cases hi : r.ins with
      | nil => cases hni : r.notIns <;> simp
      | cons a l =>
        have : r.notIns = [] := by rcases hin with h | h <;> simp_all
        simp [this]
  unfold numTpl NumOk
  simp only
  cases hie : r.ignoreEmpty with
  | none => simpa [optB] using hbody
  | some b =>
    cases b with
    | false => simpa [optB] using hbody
    | true =>
      simp only [optB, Option.getD_some, if_true, when_ok, repr_nonzero rn, true_and]
      rw [hbody]
      by_cases hz : numVal n = some 0
      · simp [hz]
      · simp [hz]

end PGV.Java
