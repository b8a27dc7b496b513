import Verif.Spec.PyReason
import Verif.Lemmas.PyOne
import Verif.Lemmas.Email

/-!
The messages of Python exceptions: every check raises a text that tells the value it rejects from those it accepts.
-/

set_option linter.unusedSimpArgs false

namespace PGV.Py
open PGV PGV.Py.Code PGV.Spec.PyReason
open PGV.Spec hiding lenient

/-! ### Where exceptions come from -/

section fails
variable {α β : Type} {n nm : String} {t why : Text}

theorem runAll_fails {l m : List (α → Run)} {x : α} (h : runAll (l ++ m) x = .error (.failed n t)) :
    runAll l x = .error (.failed n t) ∨ runAll m x = .error (.failed n t) := by
  induction l with
  | nil => exact .inr h
  | cons s l ih =>
    simp only [List.cons_append, runAll] at h ⊢
    cases hs : s x with
    | ok u => rw [hs] at h; exact ih h
    | error e => rw [hs] at h; exact .inl h

theorem fails_seq {a b : Code α} {x : α} (h : (a ;; b).run x = .error (.failed n t)) :
    a.run x = .error (.failed n t) ∨ b.run x = .error (.failed n t) := by
  cases a with
  | none => cases h
  | some l =>
    cases b with
    | none => cases h
    | some m => exact runAll_fails h

theorem fails_gen {g : Bool} {c : Code α} {x : α} (h : (gen g c).run x = .error (.failed n t)) :
    g = true ∧ c.run x = .error (.failed n t) := by
  cases g with
  | false => cases h
  | true => exact ⟨rfl, h⟩

theorem fails_raiseIf {test : α → Bool} {x : α} (h : (raiseIf nm why test).run x = .error (.failed n t)) :
    n = nm ∧ t = why ∧ test x = true := by
  rw [raiseIf, run_stmt] at h
  split at h
  · rename_i ht
    cases h
    exact ⟨rfl, rfl, ht⟩
  · cases h

theorem fails_block {test : α → Bool} {c : Code α} {x : α} (h : (block test c).run x = .error (.failed n t)) :
    test x = true ∧ c.run x = .error (.failed n t) ∧ (block test c).isSome = true := by
  cases c with
  | none => cases h
  | some l =>
    cases l with
    | nil => cases h
    | cons s l =>
      have e : (block test (some (s :: l))).run x = if test x then runAll (s :: l) x else .ok () := run_stmt _ x
      rw [e] at h
      cases ht : test x with
      | false => rw [ht] at h; cases h
      | true => rw [ht] at h; exact ⟨rfl, h, rfl⟩

theorem forEach_fails {xs : List α} {body : α → Run} (h : forEach xs body = .error (.failed n t)) :
    ∃ x ∈ xs, body x = .error (.failed n t) := by
  induction xs with
  | nil => cases h
  | cons x xs ih =>
    simp only [forEach] at h
    cases hb : body x with
    | ok u =>
      rw [hb] at h
      obtain ⟨y, hy, hf⟩ := ih h
      exact ⟨y, List.mem_cons_of_mem _ hy, hf⟩
    | error e => rw [hb] at h; exact ⟨x, List.mem_cons_self, hb.trans h⟩

theorem fails_loop {c : Code α} {xs : List α} (h : (loop c).run xs = .error (.failed n t)) :
    ∃ x ∈ xs, c.run x = .error (.failed n t) := by
  cases c with
  | none => cases h
  | some l =>
    simp only [loop, run_stmt] at h
    exact forEach_fails h

theorem fails_onScalar {γ : Type} {get : Scalar → Option γ} {c : Code γ} {v : Val}
    (h : (onScalar get c).run v = .error (.failed n t)) :
    ∃ s a, v = .sc s ∧ get s = some a ∧ c.run a = .error (.failed n t) := by
  cases c with
  | none => cases h
  | some l =>
    have bad : ∀ k : List (γ → Run), (∀ x a, v = .sc x → get x ≠ some a) →
        runAll (k.map fun s v => match v with
          | .sc x => (match get x with | some a => s a | none => .error PyErr.crash)
          | _ => .error .crash) v ≠ .error (.failed n t) := by
      intro k hv
      cases k with
      | nil => simp [runAll]
      | cons s k =>
        simp only [List.map_cons, runAll]
        cases v with
        | sc x =>
          cases hx : get x with
          | none => simp [hx]
          | some a => exact absurd hx (hv x a rfl)
        | _ => simp
    by_cases hv : ∀ x a, v = .sc x → get x ≠ some a
    · exact absurd h (bad l hv)
    · simp only [Classical.not_forall, not_imp] at hv
      obtain ⟨s, a, rfl, hs⟩ := hv
      have hs := Classical.not_not.1 hs
      rw [run_onScalar hs] at h
      exact ⟨s, a, rfl, hs, h⟩

theorem fails_onWrapped {γ : Type} {get : Scalar → Option γ} {c : Code γ} {v : Val}
    (h : (onWrapped get c).run v = .error (.failed n t)) :
    ∃ s a, v = .wrapper s ∧ get s = some a ∧ c.run a = .error (.failed n t) := by
  cases c with
  | none => cases h
  | some l =>
    have bad : ∀ k : List (γ → Run), (∀ x a, v = .wrapper x → get x ≠ some a) →
        runAll (k.map fun s v => match v with
          | .wrapper x => (match get x with | some a => s a | none => .error PyErr.crash)
          | _ => .error .crash) v ≠ .error (.failed n t) := by
      intro k hv
      cases k with
      | nil => simp [runAll]
      | cons s k =>
        simp only [List.map_cons, runAll]
        cases v with
        | wrapper x =>
          cases hx : get x with
          | none => simp [hx]
          | some a => exact absurd hx (hv x a rfl)
        | _ => simp
    by_cases hv : ∀ x a, v = .wrapper x → get x ≠ some a
    · exact absurd h (bad l hv)
    · simp only [Classical.not_forall, not_imp] at hv
      obtain ⟨s, a, rfl, hs⟩ := hv
      have hs := Classical.not_not.1 hs
      rw [run_onWrapped hs] at h
      exact ⟨s, a, rfl, hs, h⟩

theorem fails_seqAll {l : List β} {k : β → Code α} {x : α} (h : (seqAll l k).run x = .error (.failed n t)) :
    ∃ a ∈ l, (k a).run x = .error (.failed n t) := by
  induction l with
  | nil => cases h
  | cons a l ih =>
    rcases fails_seq h with h | h
    · exact ⟨a, List.mem_cons_self, h⟩
    · obtain ⟨b, hb, h⟩ := ih h
      exact ⟨b, List.mem_cons_of_mem _ hb, h⟩

theorem fails_genPos {o : Option Nat} {k : Nat → Code α} {x : α} (h : (genPos o k).run x = .error (.failed n t)) :
    optN o ≠ 0 ∧ (k (optN o)).run x = .error (.failed n t) := by
  obtain ⟨h1, h2⟩ := fails_gen h
  exact ⟨by simpa using h1, h2⟩

end fails

/-! ### Checks on scalars -/

/-- Exempt, for what is seen of a value. -/
def IEx (P : PEnv) (T : TypeRules) (t : Text) (x : PItem) : Prop := ∀ v, pyView v = some x → Exempt P T t v

/-- Misstated, for what is seen of a value. -/
def IMis (P : PEnv) (T : TypeRules) (t : Text) (x : PItem) : Prop := ∀ v, pyView v = some x → Misstated P T t v

/-- Every text that the code raises tells the value from those that the code accepts. -/
def Tells {α : Type} (P : PEnv) (e : ElemT) (T : TypeRules) (nm : String) (view : α → PItem) (c : Code α) : Prop :=
  ∀ v n t, c.run v = .error (.failed n t) → n = nm ∧
    (IMis P T t (view v) ∨ ∃ s, ¬ itemReading P e s t (view v) ∧
      ∀ u, c.run u = .ok () → IEx P T t (view u) ∨ itemReading P e s t (view u))

section tells
variable {α : Type} {P : PEnv} {e : ElemT} {T : TypeRules} {nm : String} {view : α → PItem}

theorem tells_nothing : Tells P e T nm view nothing := fun _ _ _ h => by cases h

theorem tells_none : Tells P e T nm view none := fun _ _ _ h => by cases h

theorem tells_pass : Tells P e T nm view (stmt fun _ => .ok ()) := fun _ _ _ h => by
  rw [run_stmt] at h; cases h

theorem Tells.seq {a b : Code α} (ha : Tells P e T nm view a) (hb : Tells P e T nm view b) :
    Tells P e T nm view (a ;; b) := by
  intro v n t h
  rcases fails_seq h with h | h
  · obtain ⟨hn, hm | ⟨s, h1, h2⟩⟩ := ha v n t h
    · exact ⟨hn, .inl hm⟩
    · exact ⟨hn, .inr ⟨s, h1, fun u hu => h2 u ((run_seq _ _ _).1 hu).1⟩⟩
  · obtain ⟨hn, hm | ⟨s, h1, h2⟩⟩ := hb v n t h
    · exact ⟨hn, .inl hm⟩
    · exact ⟨hn, .inr ⟨s, h1, fun u hu => h2 u ((run_seq _ _ _).1 hu).2⟩⟩

theorem tells_gen {g : Bool} {c : Code α} (h : g = true → Tells P e T nm view c) :
    Tells P e T nm view (gen g c) := by
  cases g with
  | false => exact tells_nothing
  | true => exact h rfl

theorem tells_genOpt {γ : Type} {o : Option γ} {k : γ → Code α} (h : ∀ a, o = some a → Tells P e T nm view (k a)) :
    Tells P e T nm view (genOpt o k) := by
  cases o with
  | none => exact tells_nothing
  | some a => exact h a rfl

theorem tells_genPos {o : Option Nat} {k : Nat → Code α} (h : ∀ a, Tells P e T nm view (k a)) :
    Tells P e T nm view (genPos o k) := tells_gen fun _ => h _

theorem tells_ite {p : Prop} [Decidable p] {a b : Code α} (ha : p → Tells P e T nm view a)
    (hb : ¬ p → Tells P e T nm view b) : Tells P e T nm view (if p then a else b) := by
  split
  · exact ha ‹_›
  · exact hb ‹_›

theorem tells_raise (s : Sense) {why : Text} {test : α → Bool}
    (h1 : ∀ v, test v = true → ¬ itemReading P e s why (view v))
    (h2 : ∀ u, test u = false → IEx P T why (view u) ∨ itemReading P e s why (view u)) :
    Tells P e T nm view (raiseIf nm why test) := by
  intro v n t h
  obtain ⟨rfl, rfl, ht⟩ := fails_raiseIf h
  exact ⟨rfl, .inr ⟨s, h1 v ht, fun u hu => h2 u ((run_raiseIf _ _).1 hu)⟩⟩

/-- The usual case: the test is exactly the negation of the requirement. -/
theorem tells_raise' (s : Sense) {why : Text} {test : α → Bool}
    (h : ∀ v, test v = false ↔ itemReading P e s why (view v)) : Tells P e T nm view (raiseIf nm why test) :=
  tells_raise s (fun v hv hr => by rw [← h, hv] at hr; cases hr) (fun u hu => .inr ((h u).1 hu))

theorem tells_mis {why : Text} {test : α → Bool} (h : ∀ v, test v = true → IMis P T why (view v)) :
    Tells P e T nm view (raiseIf nm why test) := by
  intro v n t hv
  obtain ⟨rfl, rfl, ht⟩ := fails_raiseIf hv
  exact ⟨rfl, .inl (h v ht)⟩

theorem Tells.block {c : Code α} {test : α → Bool} (h : Tells P e T nm view c)
    (hx : ∀ u t, test u = false → IEx P T t (view u)) : Tells P e T nm view (block test c) := by
  intro v n t hv
  obtain ⟨_, hv, hs⟩ := fails_block hv
  obtain ⟨hn, hm | ⟨s, h1, h2⟩⟩ := h v n t hv
  · exact ⟨hn, .inl hm⟩
  · refine ⟨hn, .inr ⟨s, h1, fun u hu => ?_⟩⟩
    rw [run_block hs] at hu
    cases ht : test u with
    | true => exact h2 u (hu ht)
    | false => exact .inl (hx u t ht)

end tells

/-! ### Numbers -/

theorem finite_num {n : Num} (h : finite n = true) : ∃ k, n.key = some k := by
  cases n with
  | int i => exact ⟨i, rfl⟩
  | f32 b =>
    simp only [finite, bne_iff_ne] at h
    simp only [Num.key, f32Key]
    split
    · exfalso; apply h; omega
    · exact ⟨_, rfl⟩
  | f64 b =>
    simp only [finite, bne_iff_ne] at h
    simp only [Num.key, f64Key]
    split
    · exfalso; apply h; omega
    · exact ⟨_, rfl⟩

theorem below_num {a b : Num} : Below (.num a) (.num b) ↔ a.lt b = true := by
  simp only [Below, Num.lt]
  cases a.key <;> cases b.key <;> simp

theorem same_num {a b : Num} : Same (.num a) (.num b) ↔ a.eq b = true := by
  simp only [Same, Num.eq]
  cases a.key <;> cases b.key <;> simp [eq_comm]

section num
variable {P : PEnv} {e : ElemT} {k : NumKind} {r : NumRules} {nm : String}

theorem tells_numTest (s : Sense) {lits : List Num} {why : Text} {test : Num → Bool}
    (h1 : (∀ c ∈ lits, ∃ k, c.key = some k) → ∀ v, test v = true → ¬ itemReading P e s why (.num v))
    (h2 : (∀ c ∈ lits, ∃ k, c.key = some k) → ∀ u, test u = false →
      (ByOrder why ∧ u.key = none) ∨ itemReading P e s why (.num u)) :
    Tells P e (.num k r) nm .num (numTest nm lits why test) := by
  intro v n t h
  rw [numTest, run_stmt] at h
  split at h
  · rename_i hf
    have hl : ∀ c ∈ lits, ∃ k, c.key = some k := fun c hc => finite_num (List.all_eq_true.1 hf c hc)
    split at h
    · rename_i ht
      cases h
      refine ⟨rfl, .inr ⟨s, h1 hl v ht, fun u hu => ?_⟩⟩
      rw [numTest, run_stmt, if_pos hf] at hu
      have hu : test u = false := by
        cases hx : test u with
        | false => rfl
        | true => rw [hx] at hu; cases hu
      rcases h2 hl u hu with ⟨ho, hk⟩ | h
      · exact .inl fun w hw => ⟨u, hw, .inr ⟨ho, hk⟩⟩
      · exact .inr h
    · cases h
  · cases h

theorem numTest_mis {lits : List Num} {why : Text} {test : Num → Bool}
    (h : ∀ w, Misstated P (.num k r) why w) : Tells P e (.num k r) nm .num (numTest nm lits why test) := by
  intro v n t hv
  rw [numTest, run_stmt] at hv
  split at hv
  · split at hv
    · cases hv; exact ⟨rfl, .inl fun w _ => h w⟩
    · cases hv
  · cases hv

theorem order_text {t : String} {rest : Text} (h : t ∈ ["is not lesser than ", "is not lesser than or equal to ",
    "is not greater than ", "is not greater than or equal to ", "is not in range "]) : ByOrder (.s t :: rest) :=
  ⟨t, rest, rfl, h⟩

theorem tells_limit {why : Text} {c : Num} {test : Num → Bool} (ho : ByOrder why)
    (h : ∀ (x : Num) a b, x.key = some a → c.key = some b → (test x = false ↔ itemReading P e {} why (.num x)))
    (hn : ∀ x : Num, x.key = none → test x = false) :
    Tells P e (.num k r) nm .num (numTest nm [c] why test) := by
  refine tells_numTest {} (fun hl v hv hr => ?_) (fun hl u hu => ?_)
  · obtain ⟨b, hb⟩ := hl c List.mem_cons_self
    cases ha : v.key with
    | none => rw [hn v ha] at hv; cases hv
    | some a => rw [← h v a b ha hb, hv] at hr; cases hr
  · obtain ⟨b, hb⟩ := hl c List.mem_cons_self
    cases ha : u.key with
    | none => exact .inl ⟨ho, rfl⟩
    | some a => exact .inr ((h u a b ha hb).1 hu)

theorem tells_range (s : Sense) {up lo : Num} {test : Num → Bool}
    (h : ∀ (x : Num) a b c, x.key = some a → up.key = some b → lo.key = some c →
      (test x = false ↔ (c < a ∨ s.low = true ∧ a = c) ∧ (a < b ∨ s.high = true ∧ a = b)))
    (hn : ∀ x : Num, x.key = none → test x = false) :
    Tells P e (.num k r) nm .num
      (numTest nm [lo, up] [.s "is not in range ", .pair (.num up) (.num lo)] test) := by
  have key : ∀ (x : Num) a b c, x.key = some a → up.key = some b → lo.key = some c →
      (test x = false ↔ itemReading P e s [.s "is not in range ", .pair (.num up) (.num lo)] (.num x)) := by
    intro x a b c ha hb hc
    rw [h x a b c ha hb hc]
    have e1 : ∀ {y z : Num} {i j : Int}, y.key = some i → z.key = some j → (Below (.num y) (.num z) ↔ i < j) := by
      intro y z i j hy hz
      rw [below_num]; simp [Num.lt, hy, hz]
    have e2 : ∀ {y z : Num} {i j : Int}, y.key = some i → z.key = some j → (Same (.num y) (.num z) ↔ i = j) := by
      intro y z i j hy hz
      rw [same_num]; simp [Num.eq, hy, hz]
    simp only [itemReading, Between, e1 hc ha, e1 ha hb, e2 ha hc, e2 ha hb]
  refine tells_numTest s (fun hl v hv hr => ?_) (fun hl u hu => ?_)
  · obtain ⟨b, hb⟩ := hl up (by simp)
    obtain ⟨c, hc⟩ := hl lo (by simp)
    cases ha : v.key with
    | none => rw [hn v ha] at hv; cases hv
    | some a => rw [← key v a b c ha hb hc, hv] at hr; cases hr
  · obtain ⟨b, hb⟩ := hl up (by simp)
    obtain ⟨c, hc⟩ := hl lo (by simp)
    cases ha : u.key with
    | none => exact .inl ⟨order_text (by simp), rfl⟩
    | some a => exact .inr ((key u a b c ha hb hc).1 hu)

theorem tells_numRange : Tells P e (.num k r) nm .num (numRange nm r) := by
  have inv : ∀ u l a b, (r.lt = some u ∨ r.lte = some u) → (r.gt = some l ∨ r.gte = some l) → ¬ (u.gt l = true) →
      ∀ w, Misstated P (.num k r) [.s "is not in range ", .pair a b] w :=
    fun u l a b hu hl h w => ⟨⟨a, b, rfl⟩, u, l, hu, hl, by
      show ¬ Below (.num l) (.num u)
      rw [below_num]; exact h⟩
  unfold numRange
  split
  · rename_i h1 h2
    exact tells_ite (fun _ => tells_range {} (fun x a b c ha hb hc => by simp [Num.le, Num.ge, ha, hb, hc])
      (fun x hx => by simp [Num.le, Num.ge, hx])) (fun h => numTest_mis (inv _ _ _ _ (.inl h1) (.inl h2) h))
  · rename_i h1 h2 h3
    exact tells_ite (fun _ => tells_range { low := true } (fun x a b c ha hb hc => by
        simp [Num.le, Num.lt, Num.ge, ha, hb, hc]; omega)
      (fun x hx => by simp [Num.le, Num.lt, Num.ge, hx])) (fun h => numTest_mis (inv _ _ _ _ (.inl h1) (.inr h3) h))
  · exact tells_limit (order_text (by simp)) (fun x a b ha hb => by
      simp [itemReading, valueText, Below, Num.ge, Num.le, ha, hb]) (fun x hx => by simp [Num.ge, Num.le, hx])
  · rename_i h1 h2 h3
    exact tells_ite (fun _ => tells_range { high := true } (fun x a b c ha hb hc => by
        simp [Num.le, Num.gt, Num.lt, ha, hb, hc]; omega)
      (fun x hx => by simp [Num.le, Num.gt, Num.lt, hx])) (fun h => numTest_mis (inv _ _ _ _ (.inr h2) (.inl h3) h))
  · rename_i h1 h2 h3 h4
    exact tells_ite (fun _ => tells_range { low := true, high := true } (fun x a b c ha hb hc => by
        simp [Num.gt, Num.lt, ha, hb, hc]; omega)
      (fun x hx => by simp [Num.gt, Num.lt, hx])) (fun h => numTest_mis (inv _ _ _ _ (.inr h2) (.inr h4) h))
  · exact tells_limit (order_text (by simp)) (fun x a b ha hb => by
      simp [itemReading, valueText, Below, Same, Num.gt, Num.lt, ha, hb]; omega) (fun x hx => by simp [Num.gt, Num.lt, hx])
  · exact tells_limit (order_text (by simp)) (fun x a b ha hb => by
      simp [itemReading, valueText, Below, Num.le, ha, hb]) (fun x hx => by simp [Num.le, hx])
  · exact tells_limit (order_text (by simp)) (fun x a b ha hb => by
      simp [itemReading, valueText, Below, Same, Num.lt, ha, hb]; omega) (fun x hx => by simp [Num.lt, hx])
  · exact tells_nothing

theorem tells_numCode : Tells P e (.num k r) nm .num (numCode nm r) := by
  have body : Tells P e (.num k r) nm .num
      (genOpt r.const (fun c => numTest nm [c] [.s "not equal to ", .item (.num c)] fun x => !x.eq c) ;;
        numIn nm r ;; numRange nm r) := by
    refine .seq (tells_genOpt fun c _ => ?_) (.seq (.seq (tells_gen fun _ => ?_) (tells_gen fun _ => ?_)) tells_numRange)
    · refine tells_numTest {} (fun _ v hv hr => ?_) (fun _ u hu => .inr ?_)
      · simp only [itemReading, valueText, same_num] at hr
        simp [hr] at hv
      · simp only [itemReading, valueText, same_num]
        simpa using hu
    · refine tells_numTest {} (fun _ v hv hr => ?_) (fun _ u hu => .inr ?_)
      · simp only [itemReading, listText, List.mem_map] at hr
        obtain ⟨_, ⟨c, hc, rfl⟩, hs⟩ := hr
        rw [same_num] at hs
        simp only [Bool.not_eq_true', List.any_eq_false] at hv
        exact hv c hc hs
      · simp only [itemReading, listText, List.mem_map]
        simp only [Bool.not_eq_false', List.any_eq_true] at hu
        obtain ⟨c, hc, hs⟩ := hu
        exact ⟨_, ⟨c, hc, rfl⟩, same_num.2 hs⟩
    · refine tells_numTest {} (fun _ v hv hr => ?_) (fun _ u hu => .inr ?_)
      · simp only [itemReading, listText, List.mem_map] at hr
        obtain ⟨c, hc, hs⟩ := List.any_eq_true.1 hv
        exact hr _ ⟨c, hc, rfl⟩ (same_num.2 hs)
      · simp only [itemReading, listText, List.mem_map]
        rintro _ ⟨c, hc, rfl⟩ hs
        rw [List.any_eq_false] at hu
        exact hu c hc (same_num.1 hs)
  unfold numCode
  simp only
  split
  · rename_i hi
    refine body.block fun u t hu v hv => ⟨u, hv, .inl ⟨?_, ?_⟩⟩
    · intro h; rw [h] at hi; cases hi
    · simpa [Num.isZero] using hu
  · exact body

end num

end PGV.Py
