import Verif.Spec.JavaReason
import Verif.Lemmas.JavaBlame
import Verif.Lemmas.JavaMsg
import Verif.Lemmas.Checked

/-!
The reasons of Java exceptions: every check throws a text that tells the value it rejects from those it accepts.
-/

set_option linter.unusedSimpArgs false

namespace PGV.Java
open PGV PGV.Spec PGV.Checker
open PGV.Go (valid_iff tsValid_iff resolve Resolved elemTypNotNone depth)

/-! ### Java's order -/

theorem fbits_below {b : BitVec 32} {x : Int} (h : f32Key b = some x) : fbits b < 0x7FC00000 := by
  unfold fbits
  rw [if_neg (by rw [h]; simp)]
  unfold f32Key at h
  simp only at h
  split at h
  · cases h
  · rename_i hn
    rw [BitVec.toInt_eq_toNat_cond]
    split <;> omega

theorem dbits_below {b : BitVec 64} {x : Int} (h : f64Key b = some x) : dbits b < 0x7FF8000000000000 := by
  unfold dbits
  rw [if_neg (by rw [h]; simp)]
  unfold f64Key at h
  simp only at h
  split at h
  · cases h
  · rename_i hn
    rw [BitVec.toInt_eq_toNat_cond]
    split <;> omega

theorem f32_zero {a b : BitVec 32} {x : Int} (ha : f32Key a = some x) (hb : f32Key b = some x) :
    a = b ∨ (a = 0x80000000#32 ∧ b = 0#32) ∨ (a = 0#32 ∧ b = 0x80000000#32) := by
  have k0 : f32Key 0x80000000#32 = some 0 := by decide +kernel
  have k1 : f32Key 0#32 = some 0 := by decide +kernel
  by_cases h1 : a = 0x80000000#32
  · by_cases h2 : b = 0x80000000#32
    · exact .inl (h1.trans h2.symm)
    · have : x = 0 := by rw [h1, k0] at ha; exact (Option.some.inj ha).symm
      subst this
      exact .inr (.inl ⟨h1, f32Key_inj hb k1 h2 (by decide)⟩)
  · by_cases h2 : b = 0x80000000#32
    · have : x = 0 := by rw [h2, k0] at hb; exact (Option.some.inj hb).symm
      subst this
      exact .inr (.inr ⟨f32Key_inj ha k1 h1 (by decide), h2⟩)
    · exact .inl (f32Key_inj ha hb h1 h2)

theorem f64_zero {a b : BitVec 64} {x : Int} (ha : f64Key a = some x) (hb : f64Key b = some x) :
    a = b ∨ (a = 0x8000000000000000#64 ∧ b = 0#64) ∨ (a = 0#64 ∧ b = 0x8000000000000000#64) := by
  have k0 : f64Key 0x8000000000000000#64 = some 0 := by decide +kernel
  have k1 : f64Key 0#64 = some 0 := by decide +kernel
  by_cases h1 : a = 0x8000000000000000#64
  · by_cases h2 : b = 0x8000000000000000#64
    · exact .inl (h1.trans h2.symm)
    · have : x = 0 := by rw [h1, k0] at ha; exact (Option.some.inj ha).symm
      subst this
      exact .inr (.inl ⟨h1, f64Key_inj hb k1 h2 (by decide)⟩)
  · by_cases h2 : b = 0x8000000000000000#64
    · have : x = 0 := by rw [h2, k0] at hb; exact (Option.some.inj hb).symm
      subst this
      exact .inr (.inr ⟨f64Key_inj ha k1 h1 (by decide), h2⟩)
    · exact .inl (f64Key_inj ha hb h1 h2)

theorem jcmp_neg (a b : JNum) : jcmp a b < 0 ↔ NumBelow a b := by
  cases a with
  | int a => cases b <;> simp [jcmp, NumBelow, icmp_lt]
  | long a => cases b <;> simp [jcmp, NumBelow, icmp_lt]
  | float a =>
    cases b with
    | float b =>
      simp only [jcmp, NumBelow, fcmp]
      cases ha : f32Key a with
      | none =>
        cases hb : f32Key b with
        | none => simp [fbits, ha, hb, icmp]
        | some y =>
          have := fbits_below hb
          simp only [iff_false, icmp_lt]
          unfold fbits at this ⊢
          rw [if_pos ha]
          omega
      | some x =>
        cases hb : f32Key b with
        | none =>
          have := fbits_below ha
          simp only [iff_true, icmp_lt]
          unfold fbits at this ⊢
          rw [if_pos hb]
          omega
        | some y =>
          simp only
          rcases Int.lt_trichotomy x y with h | h | h
          · simp [h]
          · subst h
            rcases f32_zero ha hb with h | ⟨h1, h2⟩ | ⟨h1, h2⟩
            · subst h
              simp [icmp]
              intro h h'
              rw [h] at h'
              exact absurd h' (by decide)
            · subst h1 h2
              simp
              decide +kernel
            · subst h1 h2
              simp
              decide +kernel
          · have h' : ¬ x < y := by omega
            simp [h, h']
            rintro rfl rfl
            have k0 : f32Key 0x80000000#32 = some 0 := by decide +kernel
            have k1 : f32Key 0#32 = some 0 := by decide +kernel
            rw [k0] at ha
            rw [k1] at hb
            cases ha; cases hb
            omega
    | _ => simp [jcmp, NumBelow]
  | double a =>
    cases b with
    | double b =>
      simp only [jcmp, NumBelow, fcmp]
      cases ha : f64Key a with
      | none =>
        cases hb : f64Key b with
        | none => simp [dbits, ha, hb, icmp]
        | some y =>
          have := dbits_below hb
          simp only [iff_false, icmp_lt]
          unfold dbits at this ⊢
          rw [if_pos ha]
          omega
      | some x =>
        cases hb : f64Key b with
        | none =>
          have := dbits_below ha
          simp only [iff_true, icmp_lt]
          unfold dbits at this ⊢
          rw [if_pos hb]
          omega
        | some y =>
          simp only
          rcases Int.lt_trichotomy x y with h | h | h
          · simp [h]
          · subst h
            rcases f64_zero ha hb with h | ⟨h1, h2⟩ | ⟨h1, h2⟩
            · subst h
              simp [icmp]
              intro h h'
              rw [h] at h'
              exact absurd h' (by decide)
            · subst h1 h2
              simp
              decide +kernel
            · subst h1 h2
              simp
              decide +kernel
          · have h' : ¬ x < y := by omega
            simp [h, h']
            rintro rfl rfl
            have k0 : f64Key 0x8000000000000000#64 = some 0 := by decide +kernel
            have k1 : f64Key 0#64 = some 0 := by decide +kernel
            rw [k0] at ha
            rw [k1] at hb
            cases ha; cases hb
            omega
    | _ => simp [jcmp, NumBelow]

theorem icmp_flip (a b : Int) : icmp a b = - icmp b a := by unfold icmp; split <;> (try split) <;> (try split) <;> omega

theorem jcmp_flip (a b : JNum) : jcmp a b = - jcmp b a := by
  have key : ∀ (x y : Option Int) (p q : Int), fcmp x y p q = - fcmp y x q p := by
    intro x y p q
    unfold fcmp
    cases x <;> cases y <;> simp only [icmp_flip p q]
    split <;> (try split) <;> (try split) <;> omega
  cases a <;> cases b <;> simp only [jcmp] <;>
    first | exact icmp_flip _ _ | exact key _ _ _ _ | rfl

theorem jcmp_pos (a b : JNum) : 0 < jcmp a b ↔ NumBelow b a := by
  rw [← jcmp_neg, jcmp_flip]; omega

theorem jeq_iff (a b : JNum) : jeq a b = true ↔ NumSame a b := by
  cases a with
  | int a => cases b <;> simp [jeq, NumSame]
  | long a => cases b <;> simp [jeq, NumSame]
  | float a =>
    cases b with
    | float b =>
      simp only [jeq, NumSame, beq_iff_eq]
      cases ha : f32Key a with
      | none =>
        cases hb : f32Key b with
        | none => simp [fbits, ha, hb]
        | some y =>
          have := fbits_below hb
          simp only [reduceCtorEq, and_false, or_false]
          constructor
          · intro h
            have e : fbits a = 0x7FC00000 := by unfold fbits; rw [if_pos ha]
            omega
          · rintro rfl; rw [ha] at hb
      | some x =>
        cases hb : f32Key b with
        | none =>
          have := fbits_below ha
          simp only [reduceCtorEq, false_and, or_false]
          constructor
          · intro h
            have e : fbits b = 0x7FC00000 := by unfold fbits; rw [if_pos hb]
            omega
          · rintro rfl; rw [ha] at hb
        | some y =>
          simp [fbits, ha, hb, BitVec.toInt_inj]
    | _ => simp [jeq, NumSame]
  | double a =>
    cases b with
    | double b =>
      simp only [jeq, NumSame, beq_iff_eq]
      cases ha : f64Key a with
      | none =>
        cases hb : f64Key b with
        | none => simp [dbits, ha, hb]
        | some y =>
          have := dbits_below hb
          simp only [reduceCtorEq, and_false, or_false]
          constructor
          · intro h
            have e : dbits a = 0x7FF8000000000000 := by unfold dbits; rw [if_pos ha]
            omega
          · rintro rfl; rw [ha] at hb
      | some x =>
        cases hb : f64Key b with
        | none =>
          have := dbits_below ha
          simp only [reduceCtorEq, false_and, or_false]
          constructor
          · intro h
            have e : dbits b = 0x7FF8000000000000 := by unfold dbits; rw [if_pos hb]
            omega
          · rintro rfl; rw [ha] at hb
        | some y =>
          simp [dbits, ha, hb, BitVec.toInt_inj]
    | _ => simp [jeq, NumSame]

/-! ### Texts -/

/-- Whenever `g v` throws a violation, its text is false of `v`, describes it, and is true of every `u` that `g`
accepts, except for those in `X`. -/
def Tells {α : Type} (J : JEnv) (view : α → JItem) (X : Reason → α → Prop) (g : α → Run) : Prop :=
  ∀ v n r, g v = .error (.validation n r) → (¬ itemReading J r (view v) ∧ Describes r (view v)) ∧
    ∀ u, g u = .ok () → X r u ∨ itemReading J r (view u)

namespace Tells
variable {α : Type} {J : JEnv} {view : α → JItem} {X : Reason → α → Prop} {f : String}

theorem ok : Tells J view X fun _ => .ok () := by intro v n r h; cases h

theorem quiet {g : α → Run} (h : ∀ v n r, g v ≠ .error (.validation n r)) : Tells J view X g :=
  fun v n r hv => absurd hv (h v n r)

theorem seq {a b : α → Run} (ha : Tells J view X a) (hb : Tells J view X b) :
    Tells J view X fun v => a v ⊳ b v := by
  intro v n r h
  dsimp only at h ⊢
  rcases seq_error h with h | ⟨-, h⟩
  · exact ⟨(ha v n r h).1, fun u hu => (ha v n r h).2 u ((seq_ok _ _).1 hu).1⟩
  · exact ⟨(hb v n r h).1, fun u hu => (hb v n r h).2 u ((seq_ok _ _).1 hu).2⟩

theorem when {c : Bool} {a : α → Run} (ha : Tells J view X a) : Tells J view X fun v => when c (a v) := by
  cases c
  · exact ok
  · exact ha

theorem whenOf {c : Bool} {a : α → Run} (ha : c = true → Tells J view X a) :
    Tells J view X fun v => Java.when c (a v) := by
  cases c
  · exact ok
  · exact ha rfl

theorem withOpt {β : Type} {o : Option β} {k : β → α → Run} (h : ∀ b, o = some b → Tells J view X (k b)) :
    Tells J view X fun v => withOpt o fun b => k b v := by
  cases o with
  | none => exact ok
  | some b => exact h b rfl

theorem ite {p : Prop} [Decidable p] {a b : α → Run} (ha : Tells J view X a) (hb : Tells J view X b) :
    Tells J view X fun v => if p then a v else b v := by
  by_cases h : p
  · simpa [h] using ha
  · simpa [h] using hb

theorem check {c : α → Bool} {why : α → Reason}
    (h : ∀ v, c v = false → (¬ itemReading J (why v) (view v) ∧ Describes (why v) (view v)) ∧
      ∀ u, c u = true → X (why v) u ∨ itemReading J (why v) (view u)) :
    Tells J view X fun v => Java.check (c v) f (why v) := by
  intro v n r hv
  dsimp only at hv ⊢
  unfold Java.check at hv
  cases hc : c v with
  | true => rw [hc, if_pos rfl] at hv; cases hv
  | false =>
    rw [hc, if_neg (by simp)] at hv
    cases hv
    exact ⟨(h v hc).1, fun u hu => (h v hc).2 u ((check_ok _ _ _).1 hu)⟩

/-- A check whose text does not depend on the value and states exactly what it accepts. -/
theorem exactly {c : α → Bool} {why : Reason} (hd : ∀ x, Describes why x)
    (h : ∀ v, c v = true ↔ itemReading J why (view v)) : Tells J view X fun v => Java.check (c v) f why := by
  refine check fun v hv => ⟨⟨fun hr => ?_, hd _⟩, fun u hu => .inr ((h u).1 hu)⟩
  rw [(h v).2 hr] at hv
  cases hv

theorem mono {Y : Reason → α → Prop} {g : α → Run} (h : Tells J view X g) (hY : ∀ r v, X r v → Y r v) :
    Tells J view Y g :=
  fun v n r hv => ⟨(h v n r hv).1, fun u hu => ((h v n r hv).2 u hu).imp_left (hY r u)⟩

theorem comp {β : Type} {g : α → Run} (k : β → α) (h : Tells J view X g) :
    Tells J (fun b => view (k b)) (fun r b => X r (k b)) fun b => g (k b) :=
  fun v n r hv => ⟨(h (k v) n r hv).1, fun u hu => (h (k v) n r hv).2 (k u) hu⟩

/-- With exemptions. -/
theorem exempt {g : α → Run} {c : α → Bool} (h : Tells J view X g) (hX : ∀ r u, c u = false → X r u) :
    Tells J view X fun v => Java.when (c v) (g v) := by
  intro v n r hv
  dsimp only at hv ⊢
  unfold Java.when at hv
  cases hc : c v with
  | false => rw [hc, if_neg (by simp)] at hv; cases hv
  | true =>
    rw [hc, if_pos rfl] at hv
    refine ⟨(h v n r hv).1, fun u hu => ?_⟩
    cases hcu : c u with
    | false => exact .inl (hX r u hcu)
    | true => rw [hcu] at hu; exact (h v n r hv).2 u hu

end Tells

/-- A comparator that orders values as their texts read, and throws no violations. -/
structure Fair {α : Type} [Shown α] (c : Cmp α) : Prop where
  quiet : ∀ a b n r, c a b ≠ .error (.validation n r)
  neg : ∀ a b n, c a b = .ok n → (n < 0 ↔ Below (Shown.item a) (Shown.item b))
  pos : ∀ a b n, c a b = .ok n → (0 < n ↔ Below (Shown.item b) (Shown.item a))

theorem fair_num : Fair numCmp where
  quiet a b n r h := by cases h
  neg a b n h := by cases h; exact jcmp_neg a b
  pos a b n h := by cases h; exact jcmp_pos a b

theorem fair_dur : Fair durCmp := by
  have key : ∀ a b n, durCmp a b = .ok n → n = icmp a.exact b.exact := by
    intro a b n h
    have hv : a.valid = true ∧ b.valid = true := by
      unfold durCmp at h
      split at h
      · cases h
      · rename_i hn; simpa using hn
    have := dur_orders hv.1 hv.2
    unfold Orders at this
    rw [this] at h
    cases h; rfl
  refine ⟨?_, ?_, ?_⟩
  · intro a b n r h
    unfold durCmp at h
    split at h <;> cases h
  · intro a b n h; rw [key a b n h, icmp_lt]; rfl
  · intro a b n h; rw [key a b n h, icmp_gt]; rfl

theorem fair_ts : Fair tsCmp := by
  have key : ∀ a b n, tsCmp a b = .ok n → n = icmp (instant a) (instant b) := by
    intro a b n h
    have hv : a.valid = true ∧ b.valid = true := by
      unfold tsCmp at h
      split at h
      · cases h
      · rename_i hn; simpa using hn
    have := ts_orders hv.1 hv.2
    unfold Orders at this
    rw [this] at h
    cases h; rfl
  refine ⟨?_, ?_, ?_⟩
  · intro a b n r h
    unfold tsCmp at h
    split at h <;> cases h
  · intro a b n h; rw [key a b n h, icmp_lt]; rfl
  · intro a b n h; rw [key a b n h, icmp_gt]; rfl

section
variable {α : Type} [Shown α] {J : JEnv} {X : Reason → α → Prop} {f : String} {c : Cmp α}

/-- One comparison with a limit. -/
theorem tells_cmp (hc : Fair c) {lim : α} {p : Int → Bool} {why : Reason} (hd : ∀ x, Describes why x)
    (h : ∀ v n, c v lim = .ok n → (p n = true ↔ itemReading J why (Shown.item v))) :
    Tells J Shown.item X fun v => withCmp (c v lim) fun n => check (p n) f why := by
  intro v n r hv
  dsimp only at hv ⊢
  cases hcv : c v lim with
  | error e =>
    rw [hcv] at hv
    cases hv
    exact absurd hcv (hc.quiet _ _ _ _)
  | ok m =>
    rw [hcv] at hv
    unfold withCmp check at hv
    simp only at hv
    split at hv
    · cases hv
    · rename_i hp
      cases hv
      refine ⟨⟨fun hr => hp ((h v m hcv).2 hr), hd _⟩, fun u hu => .inr ?_⟩
      cases hcu : c u lim with
      | error e => rw [hcu] at hu; cases hu
      | ok k =>
        rw [hcu] at hu
        exact (h u k hcu).1 ((check_ok _ _ _).1 hu)

theorem tells_lt (hc : Fair c) (lim : α) : Tells J Shown.item X fun v => lessThan f v lim c := by
  refine tells_cmp hc (by intro x; simp [Describes, shown]) fun v n h => ?_
  simp [itemReading, valueText, shown, hc.neg _ _ _ h]

theorem tells_lte (hc : Fair c) (lim : α) : Tells J Shown.item X fun v => lessThanOrEqual f v lim c := by
  refine tells_cmp hc (by intro x; simp [Describes, shown]) fun v n h => ?_
  simp [itemReading, valueText, shown, ← hc.pos _ _ _ h]

theorem tells_gt (hc : Fair c) (lim : α) : Tells J Shown.item X fun v => greaterThan f v lim c := by
  refine tells_cmp hc (by intro x; simp [Describes, shown]) fun v n h => ?_
  simp [itemReading, valueText, shown, hc.pos _ _ _ h]

theorem tells_gte (hc : Fair c) (lim : α) : Tells J Shown.item X fun v => greaterThanOrEqual f v lim c := by
  refine tells_cmp hc (by intro x; simp [Describes, shown]) fun v n h => ?_
  simp [itemReading, valueText, shown, ← hc.neg _ _ _ h]

theorem between_run (hc : Fair c) (v l u : α) (li ui : Bool) (k : Bool → Run) :
    (∃ e, between v l li u ui c k = .error e ∧ ∀ n r, e ≠ .validation n r) ∨
    ∃ b, between v l li u ui c k = k b ∧ (b = true ↔
      Between (if li then "[" else "(") (Shown.item l) (Shown.item u) (if ui then "]" else ")") (Shown.item v)) := by
  unfold between
  cases h1 : c v l with
  | error e => exact .inl ⟨e, rfl, fun n r h => hc.quiet v l n r (by rw [h1, h])⟩
  | ok n =>
    have n1 := hc.neg _ _ _ h1
    have n2 := hc.pos _ _ _ h1
    simp only [withCmp]
    by_cases hlow : (if li then decide (n ≥ 0) else decide (n > 0)) = true
    · rw [if_pos hlow]
      cases h2 : c v u with
      | error e => exact .inl ⟨e, rfl, fun n r h => hc.quiet v u n r (by rw [h2, h])⟩
      | ok m =>
        have m1 := hc.neg _ _ _ h2
        have m2 := hc.pos _ _ _ h2
        refine .inr ⟨_, rfl, ?_⟩
        unfold Between
        cases li <;> cases ui <;> simp [← n1, ← n2, ← m1, ← m2] at hlow ⊢ <;> omega
    · rw [if_neg hlow]
      refine .inr ⟨_, rfl, ?_⟩
      unfold Between
      cases li <;> simp [← n1, ← n2] at hlow ⊢ <;> omega

theorem tells_between (hc : Fair c) (l u : α) (li ui : Bool) (flip : Bool) :
    Tells J Shown.item X fun v => between v l li u ui c fun b => check (b != flip) f
      (.s (if flip then "must be outside the range " else "must be in the range ") :: rangeText l li u ui) := by
  intro v n r hv
  dsimp only at hv ⊢
  have hiff : ∀ x : α, itemReading J (.s (if flip then "must be outside the range " else "must be in the range ") ::
      rangeText l li u ui) (Shown.item x) ↔
      ((Between (if li then "[" else "(") (Shown.item l) (Shown.item u) (if ui then "]" else ")") (Shown.item x)) ↔
        flip = false) := by
    intro x
    cases flip <;> simp [rangeText, shown, itemReading]
  rcases between_run hc v l u li ui _ with ⟨e, he, hne⟩ | ⟨b, he, hb⟩
  · rw [he] at hv
    cases hv
    exact absurd rfl (hne _ _)
  · rw [he] at hv
    unfold check at hv
    split at hv
    · cases hv
    · rename_i hp
      cases hv
      refine ⟨⟨?_, ?_⟩, fun w hw => .inr ?_⟩
      · rw [hiff, ← hb]
        cases b <;> cases flip <;> simp_all
      · cases flip <;> simp [rangeText, shown, Describes]
      · rcases between_run hc w l u li ui _ with ⟨e, he, -⟩ | ⟨b', he, hb'⟩
        · rw [he] at hw; cases hw
        · rw [he, check_ok] at hw
          rw [hiff, ← hb']
          cases b' <;> cases flip <;> simp_all

theorem tells_range (hc : Fair c) (lt lte gt gte : Option α) :
    Tells J Shown.item X fun v => Java.range f v lt lte gt gte c := by
  unfold Java.range
  cases lt.or lte with
  | none => exact .quiet (by intro v n r h; cases h)
  | some ltx =>
    cases gt.or gte with
    | none => exact .quiet (by intro v n r h; cases h)
    | some gtx =>
      simp only
      cases hg : c gtx ltx with
      | error e =>
        refine .quiet ?_
        intro v n r h
        cases h
        exact hc.quiet _ _ _ _ hg
      | ok n =>
        simp only [withCmp]
        have h1 := tells_between (J := J) (X := X) (f := f) hc gtx ltx gte.isSome lte.isSome false
        have h2 := tells_between (J := J) (X := X) (f := f) hc ltx gtx (!lte.isSome) (!gte.isSome) true
        simp only [Bool.bne_false, if_false, Bool.false_eq_true, if_true, Bool.bne_true] at h1 h2
        exact .ite h1 h2

theorem tells_ltgt (hc : Fair c) (lt lte gt gte : Option α) :
    Tells J Shown.item X fun v => ltgt f lt lte gt gte c v := by
  unfold ltgt
  refine .ite (tells_range hc lt lte gt gte) (.seq ?_ (.seq ?_ (.seq ?_ ?_)))
  · cases lt
    · exact .ok
    · exact tells_lt hc _
  · cases lte
    · exact .ok
    · exact tells_lte hc _
  · cases gt
    · exact .ok
    · exact tells_gt hc _
  · cases gte
    · exact .ok
    · exact tells_gte hc _

theorem tells_const {eq : α → α → Bool} (h : ∀ a b, eq a b = true ↔ Same (Shown.item a) (Shown.item b)) (k : α) :
    Tells J Shown.item X fun v => constant f v k eq := by
  refine .exactly (by intro x; simp [Describes, shown]) fun v => ?_
  simp [itemReading, valueText, shown, h]

theorem tells_in {eq : α → α → Bool} (h : ∀ a b, eq a b = true ↔ Same (Shown.item a) (Shown.item b)) (l : List α) :
    Tells J Shown.item X fun v => isIn f v l eq := by
  refine .exactly (by intro x; simp [Describes, shownAll]) fun v => ?_
  simp only [itemReading, shownAll, List.any_eq_true, h, List.mem_map]
  constructor
  · rintro ⟨a, ha, hs⟩; exact ⟨_, ⟨a, ha, rfl⟩, hs⟩
  · rintro ⟨_, ⟨a, ha, rfl⟩, hs⟩; exact ⟨a, ha, hs⟩

theorem tells_notIn {eq : α → α → Bool} (h : ∀ a b, eq a b = true ↔ Same (Shown.item a) (Shown.item b)) (l : List α) :
    Tells J Shown.item X fun v => notIn f v l eq := by
  refine .exactly (by intro x; simp [Describes, shownAll]) fun v => ?_
  simp [itemReading, shownAll, ← h]

end

theorem same_str (a b : JString) : (a == b) = true ↔ Same (.str a) (.str b) := by simp [Same]
theorem same_bytes (a b : Bytes) : (a == b) = true ↔ Same (.bytes a) (.bytes b) := by simp [Same]
theorem same_bool (a b : Bool) : (a == b) = true ↔ Same (.bool a) (.bool b) := by simp [Same]
theorem same_dur (a b : PDur) : (a == b) = true ↔ Same (.dur a) (.dur b) := by simp [Same]
theorem same_ts (a b : PTime) : (a == b) = true ↔ Same (.ts a) (.ts b) := by simp [Same]

/-- Zero, which `ignore_empty` exempts. -/
theorem jnonzero_false {n : JNum} (h : jnonzero n = false) :
    n = .int 0 ∨ n = .long 0 ∨ n = .float 0#32 ∨ n = .float 0x80000000#32 ∨ n = .double 0#64 ∨
      n = .double 0x8000000000000000#64 := by
  cases n with
  | int a => simp [jnonzero] at h; simp [h]
  | long a => simp [jnonzero] at h; simp [h]
  | float b =>
    simp [jnonzero] at h
    have k1 : f32Key 0#32 = some 0 := by decide +kernel
    rcases f32_zero h k1 with h | ⟨h, -⟩ | ⟨-, h⟩
    · simp [h]
    · simp [h]
    · exact absurd h (by decide)
  | double b =>
    simp [jnonzero] at h
    have k1 : f64Key 0#64 = some 0 := by decide +kernel
    rcases f64_zero h k1 with h | ⟨h, -⟩ | ⟨-, h⟩
    · simp [h]
    · simp [h]
    · exact absurd h (by decide)

theorem optB_true {o : Option Bool} (h : optB o = true) : o = some true := by
  cases o with
  | none => simp [optB] at h
  | some b => simpa [optB] using h

theorem tells_num {J : JEnv} {f : String} (k : NumKind) (r : NumRules) :
    Tells J (fun n => .num (jnum k n)) (fun _ n => r.ignoreEmpty = some true ∧
      (jnum k n = .int 0 ∨ jnum k n = .long 0 ∨ jnum k n = .float 0#32 ∨ jnum k n = .float 0x80000000#32 ∨
        jnum k n = .double 0#64 ∨ jnum k n = .double 0x8000000000000000#64)) (numTpl f k r) := by
  have body : Tells J Shown.item (fun _ n => r.ignoreEmpty = some true ∧
      (n = .int 0 ∨ n = .long 0 ∨ n = .float 0#32 ∨ n = .float 0x80000000#32 ∨
        n = .double 0#64 ∨ n = .double 0x8000000000000000#64)) fun v : JNum =>
      withOpt r.const (fun c => constant f v (jnum k c) jeq) ⊳
      ltgt f (r.lt.map (jnum k)) (r.lte.map (jnum k)) (r.gt.map (jnum k)) (r.gte.map (jnum k)) numCmp v ⊳
      when (!r.ins.isEmpty) (isIn f v (r.ins.map (jnum k)) jeq) ⊳
      when (!r.notIns.isEmpty) (notIn f v (r.notIns.map (jnum k)) jeq) :=
    .seq (.withOpt fun _ _ => tells_const jeq_iff _) (.seq (tells_ltgt fair_num _ _ _ _)
      (.seq (.when (tells_in jeq_iff _)) (.when (tells_notIn jeq_iff _))))
  have all := Tells.exempt (c := fun v => if optB r.ignoreEmpty then jnonzero v else true) body (by
    intro _ u hu
    cases hi : optB r.ignoreEmpty with
    | false => simp [hi] at hu
    | true => exact ⟨optB_true hi, jnonzero_false (by simpa [hi] using hu)⟩)
  have e : ∀ n, numTpl f k r n = when (if optB r.ignoreEmpty then jnonzero (jnum k n) else true)
      (withOpt r.const (fun c => constant f (jnum k n) (jnum k c) jeq) ⊳
      ltgt f (r.lt.map (jnum k)) (r.lte.map (jnum k)) (r.gt.map (jnum k)) (r.gte.map (jnum k)) numCmp (jnum k n) ⊳
      when (!r.ins.isEmpty) (isIn f (jnum k n) (r.ins.map (jnum k)) jeq) ⊳
      when (!r.notIns.isEmpty) (notIn f (jnum k n) (r.notIns.map (jnum k)) jeq)) := by
    intro n
    unfold numTpl
    cases optB r.ignoreEmpty <;> simp [when]
  intro v n why hv
  rw [e] at hv
  refine ⟨(all _ _ _ hv).1, fun u hu => ?_⟩
  rw [e] at hu
  exact (all _ _ _ hv).2 _ hu

theorem tells_bool {J : JEnv} {f : String} {X : Reason → Bool → Prop} (r : BoolRules) :
    Tells J .bool X (boolTpl f r) := by
  unfold boolTpl
  exact .withOpt fun c _ => tells_const (α := Bool) same_bool c

theorem uuid_text (s : JString) : (s.length == 36 && uuidLoop 0 s) = true ↔ ∃ b, s = b.map UInt8.toNat ∧ UuidOk b := by
  rw [Bool.and_eq_true, beq_iff_eq]
  constructor
  · rintro ⟨h1, h2⟩
    have ha := uuidLoop_ascii 0 s h2
    have e : s = (s.map UInt8.ofNat).map UInt8.toNat := by
      rw [List.map_map]
      conv => lhs; rw [← List.map_id s]
      refine List.map_congr_left fun c hc => ?_
      have := ha c hc
      simp only [id_eq, Function.comp, UInt8.toNat_ofNat']
      omega
    refine ⟨_, e, (uuid_bytes _).1 ?_⟩
    rw [← e]
    exact ⟨by simpa using h1, h2⟩
  · rintro ⟨b, rfl, hb⟩
    have := (uuid_bytes b).2 hb
    simpa using this

theorem isAscii_iff (s : JString) : isAscii s = true ↔ ∀ c ∈ s, c ≤ 127 := by
  simp [isAscii]

theorem tells_string {J : JEnv} {f : String} (r : StringRules) :
    Tells J (fun s => .str (jstr s)) (fun why s => (r.ignoreEmpty = some true ∧ jstr s = []) ∨
      (r.wellKnown = some (.uriRef true) ∧ why = [.s "should be a valid absolute uri"])) (stringTpl J f r) := by
  let X : Reason → JString → Prop := fun why s => (r.ignoreEmpty = some true ∧ s = []) ∨
      (r.wellKnown = some (.uriRef true) ∧ why = [.s "should be a valid absolute uri"])
  have len : Tells J .str X (strLen f r) := by
    unfold strLen
    refine .seq (.withOpt fun n _ => .check ?_) (.seq (.withOpt fun n _ => .check ?_)
      (.seq (.withOpt fun n _ => .check ?_) (.seq (.withOpt fun n _ => .exactly (by simp [Describes]) ?_)
      (.seq (.withOpt fun n _ => .exactly (by simp [Describes]) ?_)
      (.withOpt fun n _ => .exactly (by simp [Describes]) ?_)))))
    · intro v hv
      simp [itemReading, charsText, Describes] at hv ⊢
      exact ⟨hv, fun u hu => .inr hu⟩
    · intro v hv
      simp [itemReading, charsText, Describes] at hv ⊢
      exact ⟨hv, fun u hu => .inr hu⟩
    · intro v hv
      simp [itemReading, charsText, Describes] at hv ⊢
      exact ⟨hv, fun u hu => .inr hu⟩
    · intro v; simp [itemReading, bytesText]
    · intro v; simp [itemReading, bytesText]
    · intro v; simp [itemReading, bytesText]
  have aff : Tells J .str X (strAffix J f r) := by
    unfold strAffix
    refine .seq (.withOpt fun p _ => .exactly (by simp [Describes, shown]) ?_)
      (.seq (.withOpt fun p _ => .exactly (by simp [Describes, shown]) ?_)
      (.seq (.withOpt fun p _ => .exactly (by simp [Describes, shown]) ?_)
      (.seq (.withOpt fun p _ => .exactly (by simp [Describes, shown]) ?_)
      (.withOpt fun p _ => .exactly (by simp [Describes, shown]) ?_))))
    · intro v; simp [itemReading, valueText]
    · intro v; simp [itemReading, valueText, shown, Shown.item, startsWith]
    · intro v; simp [itemReading, valueText, shown, Shown.item, jcontains_iff]
    · intro v
      simp [itemReading, valueText, shown, Shown.item, ← jcontains_iff]
    · intro v; simp [itemReading, valueText, shown, Shown.item, endsWith]
  have host : Tells J .str X fun s =>
      check (isAscii s) f "should be a valid host containing only ascii characters" ⊳
        check (J.domain s) f "should be a valid host" := by
    intro v n why hv
    dsimp only at hv ⊢
    rcases seq_error hv with h | ⟨-, h⟩
    · unfold check at h
      split at h
      · cases h
      · rename_i ha
        cases h
        refine ⟨⟨?_, by simp [Describes]⟩, fun u hu => .inr ?_⟩
        · simp only [itemReading, bareText]
          intro h
          exact ha ((isAscii_iff v).2 (h v rfl).1)
        · simp only [seq_ok, check_ok, isAscii_iff] at hu
          simp only [itemReading, bareText, JItem.str.injEq]
          rintro _ rfl
          exact hu
    · unfold check at h
      split at h
      · cases h
      · rename_i ha
        cases h
        refine ⟨⟨?_, by simp [Describes]⟩, fun u hu => .inr ?_⟩
        · simp only [itemReading, bareText]
          intro h
          exact ha (h v rfl)
        · simp only [seq_ok, check_ok] at hu
          simp only [itemReading, bareText, JItem.str.injEq]
          rintro _ rfl
          exact hu.2
  have wk : Tells J .str X (strWellKnown J f r) := by
    unfold strWellKnown
    refine .seq (.when (.exactly (by simp [Describes]) ?_)) (.seq (.when (.exactly (by simp [Describes]) ?_))
      (.seq (.when host) (.seq (.when (.exactly (by simp [Describes]) ?_))
      (.seq (.when (.exactly (by simp [Describes]) ?_)) (.seq (.when (.exactly (by simp [Describes]) ?_))
      (.seq (.when (.exactly (by simp [Describes]) ?_)) (.seq (.whenOf fun hu => .check ?_)
      (.when (.exactly (by simp [Describes]) ?_)))))))))
    · intro v; simp [itemReading, bareText, emailValid]
    · intro v; simp [itemReading, bareText, hostName, ← isAscii_iff]
    · intro v; simp [itemReading, bareText]
    · intro v; simp [itemReading, bareText]
    · intro v; simp [itemReading, bareText]
    · intro v; simp [itemReading, bareText]
    · intro v hv
      refine ⟨⟨?_, by simp [Describes]⟩, fun u _ => .inl (.inr ⟨?_, rfl⟩)⟩
      · simp [itemReading, bareText] at hv ⊢
        simp [hv]
      · unfold StringRules.getUriRef at hu
        split at hu
        · rename_i h; rw [h, hu]
        · cases hu
    · intro v
      rw [uuid_text]
      simp [itemReading, bareText]
  have body : Tells J .str X fun s : JString =>
      withOpt r.const (fun c => constant f s (constStr c) (· == ·)) ⊳
      when (!r.ins.isEmpty) (isIn f s (r.ins.map constStr) (· == ·)) ⊳
      when (!r.notIns.isEmpty) (notIn f s (r.notIns.map constStr) (· == ·)) ⊳
      strLen f r s ⊳ strAffix J f r s ⊳ strWellKnown J f r s :=
    .seq (.withOpt fun _ _ => tells_const (α := JString) same_str _) (.seq (.when (tells_in (α := JString) same_str _))
      (.seq (.when (tells_notIn (α := JString) same_str _)) (.seq len (.seq aff wk))))
  have all := Tells.exempt (c := fun v => if optB r.ignoreEmpty then !v.isEmpty else true) body (by
    intro _ u hu
    cases hi : optB r.ignoreEmpty with
    | false => simp [hi] at hu
    | true => exact .inl ⟨optB_true hi, by simpa [hi] using hu⟩)
  have e : ∀ b, stringTpl J f r b = when (if optB r.ignoreEmpty then !(jstr b).isEmpty else true)
      (withOpt r.const (fun c => constant f (jstr b) (constStr c) (· == ·)) ⊳
      when (!r.ins.isEmpty) (isIn f (jstr b) (r.ins.map constStr) (· == ·)) ⊳
      when (!r.notIns.isEmpty) (notIn f (jstr b) (r.notIns.map constStr) (· == ·)) ⊳
      strLen f r (jstr b) ⊳ strAffix J f r (jstr b) ⊳ strWellKnown J f r (jstr b)) := by
    intro n
    unfold stringTpl
    cases optB r.ignoreEmpty <;> simp [when]
  intro v n why hv
  rw [e] at hv
  refine ⟨(all _ _ _ hv).1, fun u hu => ?_⟩
  rw [e] at hu
  exact (all _ _ _ hv).2 _ hu

theorem bytes_exempt {r : BytesRules} (b : Bytes) (x : Run) :
    (if optB r.ignoreEmpty then when (!b.isEmpty) x else x) =
      when (if optB r.ignoreEmpty then !b.isEmpty else true) x := by
  cases optB r.ignoreEmpty <;> simp [when]

theorem tells_bytes {J : JEnv} {f : String} (r : BytesRules) :
    Tells J .bytes (fun _ b => r.ignoreEmpty = some true ∧ b = []) (bytesTpl J f r) := by
  have ipv : ∀ {X : Reason → Bytes → Prop} {c : Bytes → Bool} {t : String},
      (∀ b k, itemReading J [.s t, .item k] (.bytes b) ↔ c b = true) →
      (∀ b, Describes [.s t, shown b] (.bytes b)) →
      Tells J .bytes X fun b => check (c b) f [.s t, shown b] := by
    intro X c t h hd
    refine .check fun v hv => ⟨⟨?_, hd v⟩, fun u hu => .inr ((h u _).2 hu)⟩
    unfold shown
    rw [h, hv]
    simp
  have body : Tells J .bytes (fun _ b => r.ignoreEmpty = some true ∧ b = []) fun b : Bytes =>
    (if optS r.const = [] then .ok () else constant f b (optS r.const) (· == ·)) ⊳
    withOpt r.len (fun n => check (b.length == n) f [.s "length must be ", .nat n]) ⊳
    withOpt r.minLen (fun n => check (!decide (b.length < n)) f [.s "length must be at least ", .nat n]) ⊳
    withOpt r.maxLen (fun n => check (!decide (b.length > n)) f [.s "length must be at most ", .nat n]) ⊳
    withOpt r.pattern (fun p => check (J.matches_ (patternText J p) (jstr b)) f
      [.s "must match pattern ", .item (.bytes (patternText J p))]) ⊳
    (if optS r.pfx = [] then .ok () else check ((optS r.pfx).isPrefixOf b) f
      [.s "should start with ", shown (optS r.pfx)]) ⊳
    (if optS r.contains = [] then .ok () else check (jcontains (optS r.contains) b) f
      [.s "should contain ", shown (optS r.contains)]) ⊳
    (if optS r.sfx = [] then .ok ()
      else check ((optS r.sfx).reverse.isPrefixOf b.reverse) f [.s "should end with ", shown (optS r.sfx)]) ⊳
    when r.getIp (check (b.length == 4 || b.length == 16) f [.s "should be valid ip address ", shown b]) ⊳
    when r.getIpv4 (check (b.length == 4) f [.s "should be valid ipv4 address ", shown b]) ⊳
    when r.getIpv6 (check (b.length == 16) f [.s "should be valid ipv6 address ", shown b]) ⊳
    when (!r.ins.isEmpty) (isIn f b r.ins (· == ·)) ⊳
    when (!r.notIns.isEmpty) (notIn f b r.notIns (· == ·)) := by
    refine .seq (.ite .ok (tells_const (α := Bytes) same_bytes _))
      (.seq (.withOpt fun n _ => .exactly (by simp [Describes]) fun v => ?_)
      (.seq (.withOpt fun n _ => .exactly (by simp [Describes]) fun v => ?_)
      (.seq (.withOpt fun n _ => .exactly (by simp [Describes]) fun v => ?_)
      (.seq (.withOpt fun n _ => .exactly (by simp [Describes]) fun v => ?_)
      (.seq (.ite .ok (.exactly (by simp [Describes, shown]) fun v => ?_))
      (.seq (.ite .ok (.exactly (by simp [Describes, shown]) fun v => ?_))
      (.seq (.ite .ok (.exactly (by simp [Describes, shown]) fun v => ?_))
      (.seq (.when (ipv ?_ ?_)) (.seq (.when (ipv ?_ ?_)) (.seq (.when (ipv ?_ ?_))
      (.seq (.when (tells_in (α := Bytes) same_bytes _)) (.when (tells_notIn (α := Bytes) same_bytes _)))))))))))))
    · simp [itemReading, bytesText]
    · simp [itemReading, bytesText]
    · simp [itemReading, bytesText]
    · simp [itemReading, valueText]
    · simp [itemReading, valueText, shown, Shown.item]
    · simp [itemReading, valueText, shown, Shown.item, jcontains_iff]
    · simp [itemReading, valueText, shown, Shown.item]
    · intro b k; simp [itemReading, valueText]
    · intro b; simp [Describes, shown, Shown.item]
    · intro b k; simp [itemReading, valueText]
    · intro b; simp [Describes, shown, Shown.item]
    · intro b k; simp [itemReading, valueText]
    · intro b; simp [Describes, shown, Shown.item]
  have all := Tells.exempt (c := fun v => if optB r.ignoreEmpty then !v.isEmpty else true) body (by
    intro _ u hu
    cases hi : optB r.ignoreEmpty with
    | false => simp [hi] at hu
    | true => exact ⟨optB_true hi, by simpa [hi] using hu⟩)
  have e : ∀ b, bytesTpl J f r b = when (if optB r.ignoreEmpty then !b.isEmpty else true) _ := fun b =>
    (show bytesTpl J f r b = if optB r.ignoreEmpty then when (!b.isEmpty) _ else _ from rfl).trans
      (bytes_exempt (r := r) b _)
  intro v n why hv
  rw [e] at hv
  refine ⟨(all _ _ _ hv).1, fun u hu => ?_⟩
  rw [e] at hu
  exact (all _ _ _ hv).2 _ hu

theorem tells_enum {J : JEnv} {f : String} {X : Reason → Int → Prop} (declared : List Int) (r : EnumRules) :
    Tells J (fun i => .enum (some (jenum declared i))) X (enumTpl f declared r) := by
  have key : Tells J (fun v => .enum (some v)) (fun _ _ => False) fun v : JEnum =>
      withOpt r.const (fun c => enumConstant f v (forNumber declared c)) ⊳
      when (optB r.definedOnly) (definedOnly f v) ⊳
      when (!r.ins.isEmpty) (check ((r.ins.map (forNumber declared)).any (enumEq v)) f
        [.s "must be in ", .items (r.ins.map fun n => .enum (forNumber declared n))]) ⊳
      when (!r.notIns.isEmpty) (check (!(r.notIns.map (forNumber declared)).any (enumEq v)) f
        [.s "must not be in ", .items (r.notIns.map fun n => .enum (forNumber declared n))]) := by
    refine .seq (.withOpt fun c _ => ?_) (.seq (.when (.check ?_)) (.seq (.when (.exactly (by simp [Describes]) ?_))
      (.when (.exactly (by simp [Describes]) ?_))))
    · cases hx : forNumber declared c with
      | none =>
        intro v n why hv
        dsimp only at hv
        unfold enumConstant enumEq at hv
        simp at hv
      | some e =>
        refine Tells.exactly (c := fun v => some e == some v) (why := [.s "must equal ", .item (.enum (some e))])
          (by simp [Describes]) fun v => ?_
        simp only [itemReading, valueText, Same, JItem.enum.injEq, Option.some.injEq, beq_iff_eq]
        exact eq_comm
    · intro v hv
      refine ⟨⟨?_, by simp [Describes]⟩, fun u hu => .inr ?_⟩
      · simpa [itemReading, valueText] using hv
      · simpa [itemReading, valueText] using hu
    · intro v
      have : ∀ l : List (Option JEnum), (l.any (enumEq v) = true) ↔ some v ∈ l := by
        intro l; simp [enumEq, List.any_eq_true]
      rw [this]
      simp only [itemReading, List.mem_map, Same, JItem.enum.injEq]
      constructor
      · rintro ⟨n, hn, h⟩; exact ⟨_, ⟨n, hn, rfl⟩, by rw [h]⟩
      · rintro ⟨_, ⟨n, hn, rfl⟩, h⟩; exact ⟨n, hn, by simpa using h.symm⟩
    · intro v
      have : ∀ l : List (Option JEnum), ((!l.any (enumEq v)) = true) ↔ some v ∉ l := by
        intro l
        rw [Bool.not_eq_true', ← Bool.not_eq_true]
        simp only [enumEq, List.any_eq_true, beq_iff_eq, exists_eq_right]
      rw [this]
      simp only [itemReading, List.mem_map, not_exists, not_and, forall_exists_index, and_imp,
        forall_apply_eq_imp_iff₂, Same, JItem.enum.injEq]
      constructor
      · intro h n hn e; exact h n hn e.symm
      · intro h n hn e; exact h n hn e.symm
  intro v n why hv
  exact ⟨(key _ n why hv).1, fun u hu => .inr (((key _ n why hv).2 _ hu).resolve_left id)⟩

theorem tells_dur {J : JEnv} {f : String} {X : Reason → PDur → Prop} (r : DurationRules) :
    Tells J .dur X fun d =>
      withOpt r.const (fun c => constant f d c (· == ·)) ⊳
      ltgt f r.lt r.lte r.gt r.gte durCmp d ⊳
      when (!r.ins.isEmpty) (isIn f d r.ins (· == ·)) ⊳
      when (!r.notIns.isEmpty) (notIn f d r.notIns (· == ·)) :=
  .seq (.withOpt fun _ _ => tells_const (α := PDur) same_dur _) (.seq (tells_ltgt fair_dur _ _ _ _)
    (.seq (.when (tells_in (α := PDur) same_dur _)) (.when (tells_notIn (α := PDur) same_dur _))))

theorem tells_any {J : JEnv} {f : String} {X : Reason → Bytes → Prop} (r : AnyRules) :
    Tells J (fun u => .str (jstr u)) X fun u =>
      when (!r.ins.isEmpty) (isIn f (jstr u) (r.ins.map constStr) (· == ·)) ⊳
      when (!r.notIns.isEmpty) (notIn f (jstr u) (r.notIns.map constStr) (· == ·)) := by
  have key : Tells J .str (fun _ _ => False) fun u : JString =>
      when (!r.ins.isEmpty) (isIn f u (r.ins.map constStr) (· == ·)) ⊳
      when (!r.notIns.isEmpty) (notIn f u (r.notIns.map constStr) (· == ·)) :=
    .seq (.when (tells_in (α := JString) same_str _)) (.when (tells_notIn (α := JString) same_str _))
  intro v n why hv
  exact ⟨(key _ n why hv).1, fun u hu => .inr (((key _ n why hv).2 _ hu).resolve_left id)⟩

/-- What `within` computes. -/
theorem within_run (f : String) (t now : PTime) (w : PDur) :
    (∃ e, within f t w now = .error e ∧ ∀ n r, e ≠ .validation n r) ∨
    (minInt64 ≤ instant t - instant now ∧ instant t - instant now ≤ maxInt64 ∧ w.valid = true ∧
      w.exact ≤ maxInt64 ∧
      within f t w now = check (!(icmp (labs (instant t - instant now)) (labs w.exact) == 1)) f
        [.s "value must be within ", shown w, .s " of ", shown now]) := by
  unfold within
  by_cases hv : now.valid = true ∧ t.valid = true
  · obtain ⟨b, hb, vb, he⟩ := between_ok hv.1 hv.2
    rw [hb]
    simp only
    by_cases hr : minInt64 ≤ b.exact ∧ b.exact ≤ maxInt64
    · rw [(toNanos_ok vb).1 hr]
      by_cases hw : w.valid = true
      · by_cases hwr : minInt64 ≤ w.exact ∧ w.exact ≤ maxInt64
        · rw [(toNanos_ok hw).1 hwr]
          rw [he] at hr ⊢
          exact .inr ⟨hr.1, hr.2, hw, hwr.2, rfl⟩
        · obtain ⟨e, he⟩ := (toNanos_ok hw).2 hwr
          rw [he]
          refine .inl ⟨e, rfl, ?_⟩
          rintro n r rfl
          have := Names.toNanos_quiet he
          cases this
      · have : toNanos w = .error invalidArg := by unfold toNanos; simp [hw]
        rw [this]
        exact .inl ⟨_, rfl, by intro n r h; cases h⟩
    · obtain ⟨e, he⟩ := (toNanos_ok vb).2 hr
      rw [he]
      refine .inl ⟨e, rfl, ?_⟩
      rintro n r rfl
      have := Names.toNanos_quiet he
      cases this
  · have : tsBetween now t = .error invalidArg := by
      unfold tsBetween
      rw [if_pos]
      simp only [Bool.or_eq_true, Bool.not_eq_true']
      by_cases h1 : now.valid = true
      · right; simpa [h1] using hv
      · left; simpa using h1
    rw [this]
    exact .inl ⟨_, rfl, by intro n r h; cases h⟩

theorem labs_min : labs minInt64 = minInt64 := by decide +kernel

theorem tells_within {J : JEnv} {f : String} (w : PDur) (hw : 0 < w.asDuration) (now : PTime) :
    Tells J .ts (fun why t => instant t - instant now = minInt64 ∧
      why = [.s "value must be within ", .item (.dur w), .s " of ", .item (.ts now)]) fun t => within f t w now := by
  intro v n why hv
  dsimp only at hv ⊢
  rcases within_run f v now w with ⟨e, he, hne⟩ | ⟨h1, h2, hvw, hmw, he⟩
  · rw [he] at hv
    cases hv
    exact absurd rfl (hne _ _)
  · have hpos : 0 < w.exact := by
      rw [Go.asDuration_eq ((Go.valid_iff w).1 hvw)] at hw
      unfold minInt64 maxInt64 at hw
      split at hw
      · omega
      · split at hw <;> omega
    have lw : labs w.exact = w.exact := by unfold labs; rw [if_neg (by omega)]
    have some_ : ∀ x : Int, minInt64 ≤ x → x ≤ maxInt64 → x ≠ minInt64 →
        ((!(icmp (labs x) (labs w.exact) == 1)) = true ↔ x.natAbs ≤ w.exact.natAbs) := by
      intro x a1 a2 a3
      rw [lw, labs_of (by omega) a2]
      unfold icmp
      split <;> split <;> (try split) <;> simp <;> omega
    rw [he] at hv
    unfold check at hv
    split at hv
    · cases hv
    · rename_i hp
      cases hv
      refine ⟨⟨?_, by simp [Describes]⟩, fun u hu => ?_⟩
      · simp only [itemReading, shown, Shown.item]
        intro h
        have h := h w now v rfl rfl rfl
        by_cases hm : instant v - instant now = minInt64
        · rw [hm, labs_min, lw] at hp
          unfold icmp minInt64 at hp
          simp at hp
          omega
        · exact hp ((some_ _ h1 h2 hm).2 h)
      · by_cases hm : instant u - instant now = minInt64
        · exact .inl ⟨hm, rfl⟩
        · right
          rcases within_run f u now w with ⟨e, he, -⟩ | ⟨u1, u2, -, -, he⟩
          · rw [he] at hu; cases hu
          · rw [he, check_ok] at hu
            simp only [itemReading, shown, Shown.item]
            rintro _ _ _ h3 h4 h5
            cases h3; cases h4; cases h5
            exact (some_ _ u1 u2 hm).1 hu

theorem tells_ts {J : JEnv} {f : String} (r : TimestampRules) (hc : checkTimestamp r = true) :
    Tells J .ts (fun why t => ∃ w now, why = [.s "value must be within ", .item (.dur w), .s " of ", .item (.ts now)] ∧
      instant t - instant now = -9223372036854775808) fun t =>
      withOpt r.const (fun c => constant f t c (· == ·)) ⊳
      ltgt f r.lt r.lte r.gt r.gte tsCmp t ⊳
      when r.ltNow.isSome (lessThan f t (fromMillis J.nowMs) tsCmp) ⊳
      when r.gtNow.isSome (greaterThan f t (fromMillis J.nowMs) tsCmp) ⊳
      withOpt r.within (fun d => within f t d (fromMillis J.nowMs)) := by
  refine .seq (.withOpt fun _ _ => tells_const (α := PTime) same_ts _) (.seq (tells_ltgt fair_ts _ _ _ _)
    (.seq (.when (tells_lt fair_ts _)) (.seq (.when (tells_gt fair_ts _)) (.withOpt fun w hw => ?_))))
  refine (tells_within w ?_ _).mono fun why t h => ⟨w, _, h.2, h.1⟩
  simp only [checkTimestamp, Bool.and_eq_true, hw, decide_eq_true_eq] at hc
  exact hc.2

/-! ### Values -/

/-- An empty scalar under `ignore_empty`. -/
def ExemptItem (t : TypeRules) (x : JItem) : Prop :=
  match t with
  | .num _ r => r.ignoreEmpty = some true ∧ ∃ n, x = .num n ∧
      (n = .int 0 ∨ n = .long 0 ∨ n = .float 0#32 ∨ n = .float 0x80000000#32 ∨ n = .double 0#64 ∨
        n = .double 0x8000000000000000#64)
  | .string r => r.ignoreEmpty = some true ∧ x = .str []
  | .bytes r => r.ignoreEmpty = some true ∧ x = .bytes []
  | _ => False

theorem exempt_of {e : ElemT} {t : TypeRules} {v : Val} {x : JItem} (hx : javaView e t v = some x)
    (h : ExemptItem t x) : JExempt e t v := by
  unfold ExemptItem at h
  unfold JExempt
  cases t with
  | num k r => obtain ⟨h1, n, rfl, h2⟩ := h; exact ⟨h1, n, hx, h2⟩
  | string r => exact ⟨h.1, h.2 ▸ hx⟩
  | bytes r => exact ⟨h.1, h.2 ▸ hx⟩
  | _ => exact h.elim

/-- Scalars of one kind. -/
def AlikeScalar (a b : Scalar) : Prop := Alike (.sc a) (.sc b)

/-- What `scalarTpl` throws. -/
theorem scalar_tells {J : JEnv} {f : String} {e : ElemT} {t : TypeRules} {s : Scalar} {n : String} {why : Reason}
    (h : scalarTpl J f e t s = .error (.validation n why)) :
    ∃ x, scalarView (ruledKind t) e s = some x ∧ ¬ itemReading J why x ∧ Describes why x ∧
      ∀ s', AlikeScalar s s' → scalarTpl J f e t s' = .ok () →
        ∃ y, scalarView (ruledKind t) e s' = some y ∧
          (ExemptItem t y ∨ (∃ r, t = .string r ∧ r.wellKnown = some (.uriRef true) ∧
            why = [.s "should be a valid absolute uri"]) ∨ itemReading J why y) := by
  cases t with
  | num k r =>
    cases s with
    | num m =>
      have := tells_num (J := J) k r m n why h
      refine ⟨_, rfl, this.1.1, this.1.2, fun s' ha hu => ?_⟩
      cases s' <;> simp only [AlikeScalar, Alike] at ha
      refine ⟨_, rfl, ?_⟩
      rcases this.2 _ hu with ⟨h1, h2⟩ | h
      · exact .inl ⟨h1, _, rfl, h2⟩
      · exact .inr (.inr h)
    | _ => cases h
  | bool r =>
    cases s with
    | bool m =>
      have := tells_bool (J := J) (X := fun _ _ => False) r m n why h
      refine ⟨_, rfl, this.1.1, this.1.2, fun s' ha hu => ?_⟩
      cases s' <;> simp only [AlikeScalar, Alike] at ha
      exact ⟨_, rfl, .inr (.inr ((this.2 _ hu).resolve_left id))⟩
    | _ => cases h
  | string r =>
    cases s with
    | str m =>
      have := tells_string r m n why h
      refine ⟨_, rfl, this.1.1, this.1.2, fun s' ha hu => ?_⟩
      cases s' <;> simp only [AlikeScalar, Alike] at ha
      refine ⟨_, rfl, ?_⟩
      rcases this.2 _ hu with (⟨h1, h2⟩ | ⟨h1, h2⟩) | h
      · exact .inl ⟨h1, by rw [h2]⟩
      · exact .inr (.inl ⟨r, rfl, h1, h2⟩)
      · exact .inr (.inr h)
    | _ => cases h
  | bytes r =>
    cases s with
    | bytes m =>
      have := tells_bytes r m n why h
      refine ⟨_, rfl, this.1.1, this.1.2, fun s' ha hu => ?_⟩
      cases s' <;> simp only [AlikeScalar, Alike] at ha
      refine ⟨_, rfl, ?_⟩
      rcases this.2 _ hu with ⟨h1, h2⟩ | h
      · exact .inl ⟨h1, by rw [h2]⟩
      · exact .inr (.inr h)
    | _ => cases h
  | enum r =>
    cases s with
    | enum m =>
      cases e with
      | enum declared =>
        have := tells_enum (J := J) (X := fun _ _ => False) declared r m n why h
        refine ⟨_, rfl, this.1.1, this.1.2, fun s' ha hu => ?_⟩
        cases s' <;> simp only [AlikeScalar, Alike] at ha
        exact ⟨_, rfl, .inr (.inr ((this.2 _ hu).resolve_left id))⟩
      | _ => cases h
    | _ => cases h
  | _ => cases h

theorem not_required {J : JEnv} {why : Reason} {x : JItem} (h : ¬ itemReading J why x) : why ≠ [.s "is required"] := by
  rintro rfl
  exact h (by simp [itemReading, bareText])

theorem required_text {J : JEnv} {e : ElemT} {t : TypeRules} {v : Val} (h : v ≠ .null) :
    JReading J e t [.s "is required"] v := by
  unfold JReading
  cases v with
  | null => exact absurd rfl h
  | list vs => simp
  | map kvs => simp
  | _ => intro x _; simp [itemReading, bareText]

theorem resolve_is_plain {e : ElemT} {rules : FieldRules} {t : TypeRules} (hr : resolve e rules = .plain t) :
    rules.type = t := by
  unfold resolve at hr
  cases ht : rules.type with
  | unset => cases he : e.isEmbed <;> simp_all
  | num k r => cases he : e.isEmbed <;> cases k <;> simp_all
  | _ => cases he : e.isEmbed <;> simp_all

theorem resolve_is_wrapper {e : ElemT} {rules : FieldRules} {t : TypeRules} {m : Option MessageRules}
    (hr : resolve e rules = .wrapper t m) : rules.type = t := by
  unfold resolve at hr
  cases ht : rules.type with
  | unset => cases he : e.isEmbed <;> simp_all
  | num k r => cases he : e.isEmbed <;> cases k <;> simp_all
  | _ => cases he : e.isEmbed <;> simp_all

/-- The reason is about `v`, which the rules reject, and true of what they accept. -/
def Apt (J : JEnv) (e : ElemT) (t : TypeRules) (v : Val) (why : Reason) (ok : Val → Prop) : Prop :=
  ¬ JReading J e t why v ∧ (∀ x, javaView e t v = some x → Describes why x) ∧
    ∀ u, Alike v u → ok u → JExempt e t u ∨ Overstated t why u ∨ JReading J e t why u

theorem apt_required {J : JEnv} {e : ElemT} {t : TypeRules} {ok : Val → Prop} (h : ¬ ok .null) :
    Apt J e t .null [.s "is required"] ok := by
  refine ⟨by simp [JReading], by simp [javaView], fun u _ hu => .inr (.inr (required_text ?_))⟩
  rintro rfl
  exact h hu

theorem elem_tells {J : JEnv} {rec rec' : Val → Run} {f : String} {e : ElemT} {rules : FieldRules} {v : Val}
    {n : String} {why : Reason} (hc : ∀ r, rules.type = .timestamp r → checkTimestamp r = true)
    (h : elemTpl J rec f e rules v = .error (.validation n why)) :
    (e.isEmbed = true ∧ rules.type = .unset ∧ msgSkip rules.message = false ∧
      rec v = .error (.validation n why)) ∨
    Apt J e rules.type v why fun u => elemTpl J rec' f e rules u = .ok () := by
  have scalar : ∀ (val : Scalar → Val), (∀ s, val s = .sc s) ∨ (∀ s, val s = .wrapper s) → ∀ t s,
      scalarTpl J f e t s = .error (.validation n why) → ∀ (ok : Val → Prop),
      (∀ s', ok (val s') → scalarTpl J f e t s' = .ok ()) → Apt J e t (val s) why ok := by
    intro val hval t s hs ok hok
    obtain ⟨x, hx, h1, h2, h3⟩ := scalar_tells hs
    have view : ∀ s, javaView e t (val s) = scalarView (ruledKind t) e s := by
      intro s
      rcases hval with hv | hv <;> rw [hv s] <;> rfl
    have reading : ∀ s y, scalarView (ruledKind t) e s = some y → (JReading J e t why (val s) ↔ itemReading J why y) := by
      intro s y hy
      have : JReading J e t why (val s) ↔ ∀ x, javaView e t (val s) = some x → itemReading J why x := by
        rcases hval with hv | hv <;> rw [hv s] <;> rfl
      rw [this, view, hy]
      simp
    refine ⟨by rw [reading s x hx]; exact h1, ?_, ?_⟩
    · rw [view, hx]
      rintro _ ⟨⟩
      exact h2
    · intro u ha hu
      have shape : u = .null ∨ ∃ s', u = val s' ∧ AlikeScalar s s' := by
        rcases hval with hv | hv
        · rw [hv] at ha
          cases u with
          | null => exact .inl rfl
          | sc s' => exact .inr ⟨s', (hv s').symm, ha⟩
          | _ => cases s <;> exact ha.elim
        · rw [hv] at ha
          cases u with
          | null => exact .inl rfl
          | wrapper s' =>
            refine .inr ⟨s', (hv s').symm, ?_⟩
            cases s <;> cases s' <;> first | exact ha.elim | trivial
          | _ => cases s <;> exact ha.elim
      rcases shape with rfl | ⟨s', rfl, ha'⟩
      · exact .inr (.inr (not_required h1))
      · obtain ⟨y, hy, h⟩ := h3 s' ha' (hok s' hu)
        rcases h with h | ⟨r, h⟩ | h
        · exact .inl (exempt_of (by rw [view, hy]) h)
        · exact .inr (.inl (.inl ⟨r, h⟩))
        · exact .inr (.inr ((reading s' y hy).2 h))
  unfold elemTpl at h
  cases hr : resolve e rules with
  | none => rw [hr] at h; cases h
  | message m =>
    obtain ⟨he, ht, rfl⟩ := resolve_message hr
    rw [hr] at h
    simp only [messageTpl] at h
    split at h
    · cases h
    · rename_i hskip
      have hskip : msgSkip rules.message = false := by simpa using hskip
      rcases seq_error h with h | ⟨-, h⟩
      · right
        cases hm : msgRequired rules.message with
        | false => rw [hm] at h; cases h
        | true =>
          cases v with
          | null =>
            rw [hm] at h
            cases h
            apply apt_required
            simp [elemTpl, hr, messageTpl, hskip, hm, when, required, check, isNull, seq]
          | _ => rw [hm] at h; cases h
      · left
        refine ⟨he, ht, hskip, ?_⟩
        unfold when at h
        split at h
        · exact h
        · cases h
  | wrapper t m =>
    right
    rw [resolve_is_wrapper hr]
    rw [hr] at h
    simp only [wrapperTpl] at h
    split at h
    · rename_i s
      refine scalar .wrapper (.inr fun _ => rfl) t s h _ fun s' hs' => ?_
      simpa [elemTpl, hr, wrapperTpl] using hs'
    · cases hm : msgRequired m with
      | false => rw [hm] at h; cases h
      | true =>
        rw [hm] at h
        cases h
        apply apt_required
        simp [elemTpl, hr, wrapperTpl, hm, when]
    · cases h
  | plain t =>
    right
    have ht := resolve_is_plain hr
    rw [ht]
    rw [hr] at h
    dsimp only at h
    have timed : ∀ {α : Type} (val : α → Val) (view : α → JItem) (X : Reason → α → Prop) (g : α → Run)
        (ok : Val → Prop) (x : α), Tells J view X g → g x = .error (.validation n why) →
        (∀ x, javaView e t (val x) = some (view x)) →
        (∀ x, JReading J e t why (val x) ↔ ∀ y, javaView e t (val x) = some y → itemReading J why y) →
        (∀ x, X why x → Overstated t why (val x)) →
        (∀ u, Alike (val x) u → u = .null ∨ ∃ y, u = val y) → (∀ y, ok (val y) → g y = .ok ()) →
        Apt J e t (val x) why ok := by
      intro α val view X g ok x hT hg hv hR hX ha hok
      obtain ⟨⟨h1, h2⟩, h3⟩ := hT x n why hg
      refine ⟨fun hr => h1 ((hR x).1 hr _ (hv x)), ?_, ?_⟩
      · rw [hv]; rintro _ ⟨⟩; exact h2
      · intro u hu hok'
        rcases ha u hu with rfl | ⟨y, rfl⟩
        · exact .inr (.inr (not_required h1))
        · rcases h3 y (hok y hok') with h | h
          · exact .inr (.inl (hX y h))
          · right; right
            rw [hR, hv]
            rintro _ ⟨⟩
            exact h
    have present : ∀ {o : Option Bool} {x : Run}, when (optB o) (required f true) ⊳ x = x := by
      intro o x
      cases optB o <;> rfl
    have absent : ∀ {o : Option Bool}, when (optB o) (required f false) ⊳ .ok () = .error (.validation n why) →
        optB o = true ∧ why = [.s "is required"] := by
      intro o h
      cases ho : optB o with
      | false => rw [ho] at h; cases h
      | true => rw [ho] at h; cases h; exact ⟨rfl, rfl⟩
    split at h
    · rename_i r url val
      unfold anyTpl at h
      simp only [Option.isSome_some, present] at h
      refine timed (fun p : Bytes × _ => .any p.1 p.2) _ _ _ _ (url, val)
        ((tells_any (X := fun _ _ => False) r).comp (fun p : Bytes × _ => p.1)) h (fun _ => rfl) (fun _ => Iff.rfl)
        (fun _ h => h.elim) ?_ ?_
      · intro u hu
        cases u <;> first | exact .inl rfl | exact .inr ⟨(_, _), rfl⟩ | exact hu.elim
      · intro y hy
        simpa only [elemTpl, hr, anyTpl, Option.isSome_some, present] using hy
    · rename_i r
      obtain ⟨ho, rfl⟩ := absent h
      exact apt_required (by simp [elemTpl, hr, anyTpl, ho, when, required, check, seq])
    · rename_i r d
      unfold durationTpl at h
      simp only [Option.isSome_some, present] at h
      refine timed .dur _ _ _ _ d (tells_dur (X := fun _ _ => False) r) h (fun _ => rfl) (fun _ => Iff.rfl)
        (fun _ h => h.elim) ?_ ?_
      · intro u hu
        cases u <;> first | exact .inl rfl | exact .inr ⟨_, rfl⟩ | exact hu.elim
      · intro y hy
        simpa only [elemTpl, hr, durationTpl, Option.isSome_some, present] using hy
    · rename_i r
      obtain ⟨ho, rfl⟩ := absent h
      exact apt_required (by simp [elemTpl, hr, durationTpl, ho, when, required, check, seq])
    · rename_i r x
      unfold timestampTpl at h
      simp only [Option.isSome_some, present] at h
      refine timed .ts _ _ _ _ x (tells_ts r (hc r ht)) h (fun _ => rfl) (fun _ => Iff.rfl) ?_ ?_ ?_
      · rintro x ⟨w, now, h1, h2⟩
        exact .inr ⟨r, w, now, x, rfl, h1, rfl, h2⟩
      · intro u hu
        cases u <;> first | exact .inl rfl | exact .inr ⟨_, rfl⟩ | exact hu.elim
      · intro y hy
        simpa only [elemTpl, hr, timestampTpl, Option.isSome_some, present] using hy
    · rename_i r
      obtain ⟨ho, rfl⟩ := absent h
      exact apt_required (by simp [elemTpl, hr, timestampTpl, ho, when, required, check, seq])
    · rename_i s
      refine scalar .sc (.inl fun _ => rfl) t s h _ fun s' hs' => ?_
      simp only [elemTpl, hr] at hs'
      cases t <;> exact hs'
    · cases h

/-! ### Fields -/

theorem elemTpl_lenient (J : JEnv) (rec : Val → Run) : elemTpl (lenient J) rec = elemTpl J rec := by
  funext f e rules v
  simp only [elemTpl, wrapperTpl_lenient, scalarTpl_lenient, timestampTpl_lenient]

theorem fieldAlone_one {J : JEnv} {typ name : String} {e : ElemT} {rules : FieldRules} {u : Val}
    (h : fieldAlone J typ ⟨name, .one e, rules⟩ u = .ok ()) :
    ∃ rec, elemTpl J rec (fullyQualified typ name) e rules u = .ok () := by
  rw [fieldAlone_eq] at h
  simp only [renderField, elemTpl_lenient] at h
  exact ⟨_, h⟩

/-- A reason about an element holds of the elements that the rules accept on their own. -/
theorem elem_grounds {J : JEnv} {rec : Val → Run} {typ name : String} {e : ElemT} {rules : FieldRules}
    {v : Val} {n : String} {why : Reason} (hc : ∀ r, rules.type = .timestamp r → checkTimestamp r = true)
    (h : elemTpl J rec (fullyQualified typ name) e rules v = .error (.validation n why)) :
    (e.isEmbed = true ∧ rules.type = .unset ∧ msgSkip rules.message = false ∧
      rec v = .error (.validation n why)) ∨
    Apt J e rules.type v why fun u => fieldAlone J typ ⟨name, .one e, rules⟩ u = .ok () := by
  rcases elem_tells (rec' := rec) hc h with h' | ⟨h1, h2, -⟩
  · exact .inl h'
  · by_cases hm : e.isEmbed = true ∧ rules.type = .unset ∧ msgSkip rules.message = false ∧
      rec v = .error (.validation n why)
    · exact .inl hm
    · refine .inr ⟨h1, h2, fun u ha hu => ?_⟩
      obtain ⟨rec', hu'⟩ := fieldAlone_one hu
      exact ((elem_tells (rec' := rec') hc h).resolve_left hm).2.2 u ha hu'

theorem key_elem {J : JEnv} {rec : Val → Run} {f : String} {e : ElemT} {rules : FieldRules} {k : Scalar}
    (he : e.isEmbed = false) : keyTpl J f e rules k = elemTpl J rec f e rules (.sc k) := by
  unfold keyTpl elemTpl resolve
  cases ht : rules.type with
  | num kd r => cases kd <;> simp [he]
  | _ => simp [he, scalarTpl]

theorem itemEq_same (e : ElemT) (a b : Val) : itemEq e a b = true ↔ SameJava e a b := by
  unfold itemEq SameJava
  cases a with
  | sc a =>
    cases b with
    | sc b =>
      cases a <;> cases b <;> (try simp [scalarView, Same]) <;> (try (cases e <;> simp [numKind, jeq_iff, Same]))
    | _ => simp
  | _ => simp

theorem sub_checked {c : Bytes → Bool} {t : Checker.Ty} {rules : FieldRules}
    (h : (checkFieldRules c t rules).isSome = true) (r : TimestampRules) (hr : rules.type = .timestamp r) :
    checkTimestamp r = true := by
  cases rules with
  | absent => cases hr
  | mk m tr =>
    cases hr
    simp only [checkFieldRules, checkTypeRules, Option.isSome_map] at h
    cases hc : checkTimestamp r with
    | true => rfl
    | false => simp [hc] at h

theorem items_checked {f : FieldDesc} (h : Checked f) {rules : FieldRules} (hi : itemRules f.rules = some rules)
    (r : TimestampRules) (hr : rules.type = .timestamp r) : checkTimestamp r = true := by
  have hc := Go.checked_type h
  unfold itemRules at hi
  cases ht : f.rules.type with
  | repeated q items =>
    rw [ht] at hi hc
    cases hi
    cases hf : f.typ with
    | rep e =>
      simp only [hf, checkTypeRules] at hc
      split at hc
      · rw [Option.isSome_map] at hc
        exact sub_checked hc r hr
      · cases hc
    | _ => simp [hf, checkTypeRules] at hc
  | unset => rw [ht] at hi; cases hi; cases hr
  | _ => rw [ht] at hi; cases hi

theorem pairs_checked {f : FieldDesc} (h : Checked f) {q : MapRules} {keys values : FieldRules}
    (ht : f.rules.type = .map q keys values) :
    (∀ r, keys.type = .timestamp r → checkTimestamp r = true) ∧
    ∀ r, values.type = .timestamp r → checkTimestamp r = true := by
  have hc := Go.checked_type h
  rw [ht] at hc
  cases hf : f.typ with
  | map kt vt =>
    simp only [hf, checkTypeRules] at hc
    split at hc
    · split at hc
      · cases hc
      · rename_i hk
        rw [Option.isSome_map] at hc
        exact ⟨sub_checked (by rw [hk]; rfl), sub_checked hc⟩
    · cases hc
  | _ => simp [hf, checkTypeRules] at hc

theorem check_error {c : Bool} {f n : String} {w why : Reason} (h : check c f w = .error (.validation n why)) :
    c = false ∧ why = w := by
  unfold check at h
  cases c with
  | true => simp at h
  | false => simp at h; exact ⟨rfl, h.2.symm⟩

theorem when_error {c : Bool} {a : Run} {e : JErr} (h : when c a = .error e) : c = true ∧ a = .error e := by
  unfold when at h
  cases c with
  | true => exact ⟨rfl, by simpa using h⟩
  | false => simp at h

theorem unique_error {α : Type} {f n : String} {eq : α → α → Bool} {why : Reason} {vs : List α} : ∀ {seen : List α},
    unique f eq vs seen = .error (.validation n why) → why = [.s "must have all unique values"] := by
  induction vs with
  | nil => intro seen h; cases h
  | cons v vs ih =>
    intro seen h
    unfold unique at h
    split at h
    · cases h; rfl
    · exact ih h

/-- The statements of a repeated field about the list. -/
def listChecks (f : String) (e : ElemT) (r : RepeatedRules) (vs : List Val) : Run :=
  when (optN r.minItems != 0) (minItems f vs.length (optN r.minItems)) ⊳
  when (optN r.maxItems != 0) (maxItems f vs.length (optN r.maxItems)) ⊳
  when (optB r.unique) (unique f (itemEq e) vs)

theorem repeated_parts (J : JEnv) (rec : Val → Run) (f : String) (e : ElemT) (r : RepeatedRules) (items : FieldRules)
    (vs : List Val) : repeatedTpl J rec f e r items vs = when (!(optB r.ignoreEmpty && vs.isEmpty))
      (listChecks f e r vs ⊳ forEach vs fun v => elemTpl J rec f e items v) := by
  have assoc : ∀ a b c d : Run, a ⊳ b ⊳ c ⊳ d = (a ⊳ b ⊳ c) ⊳ d := by
    intro a b c d
    cases a <;> cases b <;> cases c <;> rfl
  unfold repeatedTpl listChecks
  simp only [assoc]
  cases optB r.ignoreEmpty <;> simp [when]

theorem pairwise_flip (e : ElemT) (vs : List Val) :
    (vs.Pairwise fun a b => itemEq e b a = false) ↔ vs.Pairwise fun a b => ¬ SameJava e a b := by
  have sym : ∀ a b, SameJava e a b → SameJava e b a := by
    intro a b h
    unfold SameJava at h ⊢
    cases a <;> cases b <;> try exact h
    obtain ⟨x, y, hx, hy, h⟩ := h
    refine ⟨y, x, hy, hx, ?_⟩
    unfold Same at h ⊢
    cases x with
    | num a =>
      cases y with
      | num b =>
        unfold NumSame at h ⊢
        cases a <;> cases b <;> simp at h ⊢ <;> first
          | exact h.symm
          | (rcases h with h | h
             · exact .inl h.symm
             · exact .inr ⟨h.2, h.1⟩)
      | _ => simp at h
    | _ => cases y <;> simp at h ⊢ <;> exact h.symm
  have : ∀ a b, itemEq e b a = false ↔ ¬ SameJava e a b := by
    intro a b
    rw [← Bool.not_eq_true, itemEq_same]
    exact ⟨fun h h' => h (sym _ _ h'), fun h h' => h (sym _ _ h')⟩
  simp only [this]

theorem list_tells {J : JEnv} {f n : String} {e : ElemT} {t : TypeRules} {r : RepeatedRules} {vs : List Val}
    {why : Reason} (h : listChecks f e r vs = .error (.validation n why)) :
    ¬ JReading J e t why (.list vs) ∧ why ≠ [.s "is required"] ∧
      ∀ us, listChecks f e r us = .ok () → JReading J e t why (.list us) := by
  unfold listChecks at h
  rcases seq_error h with h | ⟨-, h⟩
  · obtain ⟨hw, h⟩ := when_error h
    obtain ⟨hc, rfl⟩ := check_error h
    refine ⟨?_, by simp, fun us hu => ?_⟩
    · simp [JReading] at hc ⊢; omega
    · simp only [listChecks, seq_ok, when_ok] at hu
      have := hu.1 hw
      simp only [minItems, check_ok] at this
      simp [JReading] at this ⊢
      omega
  · rcases seq_error h with h | ⟨-, h⟩
    · obtain ⟨hw, h⟩ := when_error h
      obtain ⟨hc, rfl⟩ := check_error h
      refine ⟨?_, by simp, fun us hu => ?_⟩
      · simp [JReading] at hc ⊢; omega
      · simp only [listChecks, seq_ok, when_ok] at hu
        have := hu.2.1 hw
        simp only [maxItems, check_ok] at this
        simp [JReading] at this ⊢
        omega
    · obtain ⟨hw, h⟩ := when_error h
      have := unique_error h
      subst this
      refine ⟨?_, by simp, fun us hu => ?_⟩
      · simp only [JReading]
        intro hp
        rw [← pairwise_flip] at hp
        have : unique f (itemEq e) vs = .ok () := (unique_ok f (itemEq e) vs []).2 ⟨by simp, hp⟩
        rw [this] at h
        cases h
      · simp only [listChecks, seq_ok, when_ok] at hu
        simp only [JReading]
        rw [← pairwise_flip]
        exact ((unique_ok f (itemEq e) us []).1 (hu.2.2 hw)).2

/-- The statements of a map field about the map. -/
def mapChecks (f : String) (r : MapRules) (kvs : List (Scalar × Val)) : Run :=
  when (optN r.minPairs != 0) (minPairs f kvs.length (optN r.minPairs)) ⊳
  when (optN r.maxPairs != 0) (maxPairs f kvs.length (optN r.maxPairs)) ⊳
  when (optB r.noSparse) (noSparse f)

theorem map_parts (J : JEnv) (rec : Val → Run) (f : String) (kt vt : ElemT) (r : MapRules) (keys values : FieldRules)
    (kvs : List (Scalar × Val)) : mapTpl J rec f kt vt r keys values kvs = when (!(optB r.ignoreEmpty && kvs.isEmpty))
      (mapChecks f r kvs ⊳ when (elemTypNotNone vt values || elemTypNotNone kt keys)
        (forEach (J.order kvs) (fun kv => keyTpl J f kt keys kv.1) ⊳
         forEach (J.order kvs) (fun kv => elemTpl J rec f vt values kv.2))) := by
  have assoc : ∀ a b c d : Run, a ⊳ b ⊳ c ⊳ d = (a ⊳ b ⊳ c) ⊳ d := by
    intro a b c d
    cases a <;> cases b <;> cases c <;> rfl
  unfold mapTpl mapChecks
  simp only [assoc _ _ (when (optB r.noSparse) (noSparse f))]
  cases optB r.ignoreEmpty <;> simp [when]

theorem map_tells {J : JEnv} {f n : String} {e : ElemT} {t : TypeRules} {r : MapRules} {kvs : List (Scalar × Val)}
    {why : Reason} (h : mapChecks f r kvs = .error (.validation n why)) :
    ¬ JReading J e t why (.map kvs) ∧ why ≠ [.s "is required"] ∧
      ∀ us, mapChecks f r us = .ok () → JReading J e t why (.map us) := by
  unfold mapChecks at h
  rcases seq_error h with h | ⟨-, h⟩
  · obtain ⟨hw, h⟩ := when_error h
    obtain ⟨hc, rfl⟩ := check_error h
    refine ⟨?_, by simp, fun us hu => ?_⟩
    · simp [JReading] at hc ⊢; omega
    · simp only [mapChecks, seq_ok, when_ok] at hu
      have := hu.1 hw
      simp only [minPairs, check_ok] at this
      simp [JReading] at this ⊢
      omega
  · rcases seq_error h with h | ⟨-, h⟩
    · obtain ⟨hw, h⟩ := when_error h
      obtain ⟨hc, rfl⟩ := check_error h
      refine ⟨?_, by simp, fun us hu => ?_⟩
      · simp [JReading] at hc ⊢; omega
      · simp only [mapChecks, seq_ok, when_ok] at hu
        have := hu.2.1 hw
        simp only [maxPairs, check_ok] at this
        simp [JReading] at this ⊢
        omega
    · obtain ⟨-, h⟩ := when_error h
      cases h

theorem optB_some {o : Option Bool} (h : optB o = true) : o = some true := optB_true h

/-- What the code of a field throws. -/
theorem field_grounds {J : JEnv} {rec : Val → Run} {typ : String} {f : FieldDesc} {v : Val} {n : String}
    {why : Reason} (hck : Checked f) (hk : ∀ k e, f.typ = .map k e → k.isEmbed = false)
    (h : renderField J rec typ f v = .error (.validation n why)) :
    (∃ i rules w, HeldBy f v i rules w ∧ rules.type = .unset ∧ msgSkip rules.message = false ∧
      rec w = .error (.validation n why)) ∨ Grounds J typ f v why := by
  have emb : ∀ {e : ElemT}, e.isEmbed = true → ∃ t k, e = .embed t k := by
    intro e he
    cases e <;> simp [ElemT.isEmbed] at he
    exact ⟨_, _, rfl⟩
  have h0 := h
  unfold renderField at h
  cases hft : f.typ with
  | one e =>
    rw [hft] at h
    dsimp only at h
    have hcr : ∀ r, f.rules.type = .timestamp r → checkTimestamp r = true := fun r hr =>
      Go.checked_timestamp hck hr
    rcases elem_grounds hcr h with ⟨he, ht, hs, hx⟩ | ⟨h1, h2, h3⟩
    · obtain ⟨t, k, rfl⟩ := emb he
      exact .inl ⟨none, f.rules, v, .field hft, ht, hs, hx⟩
    · have ef : f = ⟨f.name, .one e, f.rules⟩ := by rw [← hft]
      refine .inr ⟨f, e, v, .field hft, h1, h2, fun u ha hu => h3 u ha ?_⟩
      rw [← ef]
      exact hu
  | rep e =>
    rw [hft] at h
    have body : ∀ (r : RepeatedRules) (items : FieldRules) (vs : List Val), v = .list vs →
        itemRules f.rules = some items →
        (∀ us rec', renderField (lenient J) rec' typ f (.list us) = .ok () →
          repeatedTpl (lenient J) rec' (fullyQualified typ f.name) e r items us = .ok ()) →
        (∀ us, optB r.ignoreEmpty = true → us = [] → JExempt e f.rules.type (.list us)) →
        repeatedTpl J rec (fullyQualified typ f.name) e r items vs = .error (.validation n why) →
        (∃ i rules w, HeldBy f v i rules w ∧ rules.type = .unset ∧ msgSkip rules.message = false ∧
          rec w = .error (.validation n why)) ∨ Grounds J typ f v why := by
      rintro r items vs rfl hi hrender hex h
      rw [repeated_parts] at h
      obtain ⟨-, h⟩ := when_error h
      rcases seq_error h with h | ⟨-, h⟩
      · obtain ⟨h1, h2, h3⟩ := list_tells (J := J) (t := f.rules.type) h
        refine .inr ⟨f, e, .list vs, .list hft, h1, by simp [javaView], fun u ha hu => ?_⟩
        cases u with
        | null => exact .inr (.inr h2)
        | list us =>
          rw [fieldAlone_eq] at hu
          have := hrender us _ hu
          rw [repeated_parts, when_ok] at this
          by_cases hx : optB r.ignoreEmpty = true ∧ us = []
          · exact .inl (hex us hx.1 hx.2)
          · refine .inr (.inr (h3 us ((seq_ok _ _).1 (this ?_)).1))
            cases hq : optB r.ignoreEmpty with
            | false => simp
            | true =>
              cases us with
              | nil => exact absurd ⟨hq, rfl⟩ hx
              | cons => rfl
        | _ => exact ha.elim
      · obtain ⟨pre, w, post, hsplit, -, hw⟩ := forEach_error h
        have hmem : w ∈ vs := by rw [hsplit]; simp
        rcases elem_grounds (items_checked hck hi) hw with ⟨he, ht, hs, hx⟩ | ⟨h1, h2, h3⟩
        · obtain ⟨t, k, rfl⟩ := emb he
          obtain ⟨m, hm⟩ := List.getElem?_of_mem hmem
          exact .inl ⟨some (.pos m), items, w, .item hft hi hm, ht, hs, hx⟩
        · exact .inr ⟨_, e, w, .item hft hi hmem, h1, h2, h3⟩
    cases v with
    | list vs =>
      dsimp only at h
      cases ht : f.rules.type with
      | repeated r items =>
        rw [ht] at h
        refine body r items vs rfl (by simp [itemRules, ht]) (fun us rec' hu => ?_) (fun us h1 h2 => ?_) h
        · simpa [renderField, hft, ht] using hu
        · rw [ht]; exact ⟨optB_some h1, by rw [h2]⟩
      | unset =>
        rw [ht] at h
        refine body {} .absent vs rfl (by simp [itemRules, ht]) (fun us rec' hu => ?_) (fun us h1 _ => ?_) h
        · simpa [renderField, hft, ht] using hu
        · cases h1
      | _ => rw [ht] at h; cases h
    | _ => cases h
  | map kt vt =>
    rw [hft] at h
    have hke := hk kt vt hft
    have body : ∀ (r : MapRules) (keys values : FieldRules) (kvs : List (Scalar × Val)), v = .map kvs →
        valueRules f.rules = some values → (f.rules.type = .map r keys values ∨ keys = .absent) →
        (∀ r, keys.type = .timestamp r → checkTimestamp r = true) →
        (∀ r, values.type = .timestamp r → checkTimestamp r = true) →
        (∀ us rec', renderField (lenient J) rec' typ f (.map us) = .ok () →
          mapTpl (lenient J) rec' (fullyQualified typ f.name) kt vt r keys values us = .ok ()) →
        (∀ us, optB r.ignoreEmpty = true → us = [] → JExempt vt f.rules.type (.map us)) →
        mapTpl J rec (fullyQualified typ f.name) kt vt r keys values kvs = .error (.validation n why) →
        (∃ i rules w, HeldBy f v i rules w ∧ rules.type = .unset ∧ msgSkip rules.message = false ∧
          rec w = .error (.validation n why)) ∨ Grounds J typ f v why := by
      rintro r keys values kvs rfl hi hkeys hck1 hck2 hrender hex h
      rw [map_parts] at h
      obtain ⟨-, h⟩ := when_error h
      rcases seq_error h with h | ⟨-, h⟩
      · obtain ⟨h1, h2, h3⟩ := map_tells (J := J) (e := vt) (t := f.rules.type) h
        refine .inr ⟨f, vt, .map kvs, .map hft, h1, by simp [javaView], fun u ha hu => ?_⟩
        cases u with
        | null => exact .inr (.inr h2)
        | map us =>
          rw [fieldAlone_eq] at hu
          have := hrender us _ hu
          rw [map_parts, when_ok] at this
          by_cases hx : optB r.ignoreEmpty = true ∧ us = []
          · exact .inl (hex us hx.1 hx.2)
          · refine .inr (.inr (h3 us ((seq_ok _ _).1 (this ?_)).1))
            cases hq : optB r.ignoreEmpty with
            | false => simp
            | true =>
              cases us with
              | nil => exact absurd ⟨hq, rfl⟩ hx
              | cons => rfl
        | _ => exact ha.elim
      · obtain ⟨-, h⟩ := when_error h
        rcases seq_error h with h | ⟨-, h⟩
        · obtain ⟨pre, w, post, hsplit, -, hw⟩ := forEach_error h
          have hmem : w ∈ kvs := (J.order_perm kvs).mem_iff.1 (by rw [hsplit]; simp)
          rw [key_elem (rec := rec) hke] at hw
          rcases elem_grounds hck1 hw with ⟨he, -⟩ | ⟨h1, h2, h3⟩
          · rw [hke] at he; cases he
          · rcases hkeys with hkeys | rfl
            · exact .inr ⟨_, kt, .sc w.1, .key (w := w.2) hft hkeys hmem, h1, h2, h3⟩
            · simp [elemTpl, resolve, FieldRules.type, hke] at hw
        · obtain ⟨pre, w, post, hsplit, -, hw⟩ := forEach_error h
          have hmem : w ∈ kvs := (J.order_perm kvs).mem_iff.1 (by rw [hsplit]; simp)
          rcases elem_grounds hck2 hw with ⟨he, ht, hs, hx⟩ | ⟨h1, h2, h3⟩
          · obtain ⟨t, k, rfl⟩ := emb he
            exact .inl ⟨some (.key w.1), values, w.2, .value hft hi hmem, ht, hs, hx⟩
          · exact .inr ⟨_, vt, w.2, .value (key := w.1) hft hi hmem, h1, h2, h3⟩
    cases v with
    | map kvs =>
      dsimp only at h
      cases ht : f.rules.type with
      | map r keys values =>
        rw [ht] at h
        obtain ⟨c1, c2⟩ := pairs_checked hck ht
        refine body r keys values kvs rfl (by simp [valueRules, ht]) (.inl ht) c1 c2 (fun us rec' hu => ?_)
          (fun us h1 h2 => ?_) h
        · simpa [renderField, hft, ht] using hu
        · rw [ht]; exact ⟨optB_some h1, by rw [h2]⟩
      | unset =>
        rw [ht] at h
        dsimp only at h
        split at h
        · rename_i he
          refine body {} .absent .absent kvs rfl (by simp [valueRules, ht]) (.inr rfl) (by intro r h; cases h)
            (by intro r h; cases h) (fun us rec' hu => ?_) (fun us h1 _ => ?_) h
          · simpa [renderField, hft, ht, he] using hu
          · cases h1
        · cases h
      | _ => rw [ht] at h; cases h
    | _ => cases h

/-! ### Messages -/

theorem message_grounds {J : JEnv} {S : Schema} (hS : Sane S) {n : String} {why : Reason} (k : Nat) :
    ∀ v, depth v ≤ k → assertValid J S v = .error (.validation n why) →
      (∃ typ fs os d, Nested S v (.msg typ fs os) ∧ S typ = .generated d ∧
        ((∃ o ∈ d.oneofs, o.required = true ∧ os.lookup o.name = none ∧ why = [.s "is required"]) ∨
          ∃ f u, Active d fs os f u ∧ Grounds J typ f u why)) ∨
      ∃ w, ¬ Validated S w ∧ J.other w = .error (.validation n why) := by
  induction k with
  | zero => intro v hv; have := Go.depth_pos v; omega
  | succ k ih =>
    intro v hv h
    by_cases hval : Validated S v
    · rw [assertValid_eq] at h
      obtain ⟨typ, fs, os, d, rfl, hT, hi⟩ := hval
      unfold assertStep at h
      simp only [hT, hi, Bool.false_eq_true, if_false] at h
      cases hd : d.disabled with
      | true => simp [hd] at h
      | false =>
        simp only [hd, Bool.false_eq_true, if_false] at h
        have one : ∀ f u, Active d fs os f u →
            renderField J (assertValid J S) typ f u = .error (.validation n why) →
            (∃ typ' fs' os' d', Nested S (.msg typ fs os) (.msg typ' fs' os') ∧ S typ' = .generated d' ∧
              ((∃ o ∈ d'.oneofs, o.required = true ∧ os'.lookup o.name = none ∧ why = [.s "is required"]) ∨
                ∃ f u, Active d' fs' os' f u ∧ Grounds J typ' f u why)) ∨
            ∃ w, ¬ Validated S w ∧ J.other w = .error (.validation n why) := by
          intro f u ha hf
          have hm : f ∈ d.fields ∨ ∃ o ∈ d.oneofs, f ∈ o.fields := by
            cases ha with
            | field h => exact .inl h
            | member ho _ hf => exact .inr ⟨_, ho, List.mem_of_find?_eq_some hf⟩
          obtain ⟨hc, hkey⟩ := hS typ d f hT hm
          rcases field_grounds hc hkey hf with ⟨i, rules, w, hh, ht, hs, he⟩ | hg
          · by_cases hvw : Validated S w
            · have := held_depth (typ := typ) ha hh hvw
              rcases ih w (by omega) he with ⟨t', fs', os', d', hx, hb⟩ | hother
              · exact .inl ⟨t', fs', os', d', .inner (.mk hT hd ha hh ht hs hvw) hx, hb⟩
              · exact .inr hother
            · exact .inr ⟨w, hvw, by rw [← not_validated hvw]; exact he⟩
          · exact .inl ⟨typ, fs, os, d, .self _, hT, .inr ⟨f, u, ha, hg⟩⟩
        rcases seq_error h with h | ⟨-, h⟩
        · obtain ⟨pre, f, post, hsplit, -, hf⟩ := forEach_error h
          exact one f _ (.field (by rw [hsplit]; simp)) hf
        · obtain ⟨pre, o, post, hsplit, -, ho⟩ := forEach_error h
          have hmem : o ∈ d.oneofs := by rw [hsplit]; simp
          unfold oneofTpl at ho
          cases hl : os.lookup o.name with
          | none =>
            simp only [hl] at ho
            obtain ⟨hr, ho⟩ := when_error ho
            obtain ⟨-, rfl⟩ := check_error ho
            exact .inl ⟨typ, fs, os, d, .self _, hT, .inl ⟨o, hmem, hr, hl, rfl⟩⟩
          | some mu =>
            obtain ⟨m, u⟩ := mu
            simp only [hl] at ho
            cases hf : o.fields.find? (fun f => f.name == m) with
            | none => simp [hf] at ho
            | some f =>
              simp only [hf] at ho
              exact one f u (.member hmem hl hf) ho
    · exact .inr ⟨v, hval, by rw [← not_validated hval]; exact h⟩

end PGV.Java
