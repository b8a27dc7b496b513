import Verif.Spec.Buffers

/-!
No buffer is used twice.
-/

set_option linter.unusedSimpArgs false

namespace PGV.Harness
open PGV PGV.Spec.Buffers

namespace Buffers

/-- What has been written after some pieces. -/
def part (l : List (Bool × Bytes)) (err : Bool) : Bytes := ((l.filter fun x => x.1 == err).map Prod.snd).flatten

/-- What the buffers of a run hold. -/
def Good (p : Program) (c : Buf → Bytes) : Point → Prop
  | .begin => True
  | .second out => c out = []
  | .command out errs n => c out = part (p.pieces.take n) false ∧ c errs = part (p.pieces.take n) true
  | .resetErrs r _ _ => r = alone p
  | .putErrs r _ errs => r = alone p ∧ c errs = []
  | .resetOut r _ => r = alone p
  | .putOut r out => r = alone p ∧ c out = []
  | .done r => r = alone p

/-- The pool is in order. -/
structure Tidy (P : Pool) : Prop where
  nodup : P.free.Nodup
  old : ∀ b ∈ P.free, b < P.next
  empty : ∀ b ∈ P.free, P.content b = []

/-- The buffers are not in the pool. -/
def Out (P : Pool) (l : List Buf) : Prop := ∀ b ∈ l, b < P.next ∧ b ∉ P.free

structure Inv (progs : Nat → Program) (s : Runs) : Prop where
  tidy : Tidy s.pool
  out : ∀ i, Out s.pool (uses (s.points i))
  nodup : ∀ i, (uses (s.points i)).Nodup
  own : ∀ i j b, b ∈ uses (s.points i) → b ∈ uses (s.points j) → i = j
  good : ∀ i, Good (progs i) s.pool.content (s.points i)

theorem good_congr {p : Program} {c c' : Buf → Bytes} {pt : Point} (h : ∀ b ∈ uses pt, c' b = c b) (hg : Good p c pt) :
    Good p c' pt := by
  cases pt <;> simp_all [Good, uses]

theorem get_spec {P : Pool} (h : Tidy P) (choice : Option Buf) :
    Tidy (P.get choice).1 ∧ (P.get choice).2 < (P.get choice).1.next ∧ (P.get choice).2 ∉ (P.get choice).1.free ∧
    (P.get choice).1.content (P.get choice).2 = [] ∧ (∀ l, Out P l → Out (P.get choice).1 l ∧ (P.get choice).2 ∉ l) ∧
    ∀ b, b < P.next → b ∉ P.free → (P.get choice).1.content b = P.content b := by
  unfold Pool.get
  split
  · rename_i b hb
    have hm : b ∈ P.free := by
      cases choice with
      | none => simp at hb
      | some a =>
        simp only [Option.filter_some] at hb
        split at hb
        · rename_i ha
          cases hb
          simpa using ha
        · cases hb
    refine ⟨⟨h.nodup.erase b, fun a ha => h.old a (List.mem_of_mem_erase ha), fun a ha => h.empty a (List.mem_of_mem_erase ha)⟩,
      h.old b hm, ?_, h.empty b hm, fun l hl => ⟨fun a ha => ⟨(hl a ha).1, fun hc => (hl a ha).2 (List.mem_of_mem_erase hc)⟩,
        fun hc => (hl b hc).2 hm⟩, fun _ _ _ => rfl⟩
    exact fun hc => ((h.nodup.mem_erase_iff).1 hc).1 rfl
  · refine ⟨⟨h.nodup, fun a ha => ?_, fun a ha => ?_⟩, ?_, ?_, ?_, ?_, ?_⟩
    · exact Nat.lt_succ_of_lt (h.old a ha)
    · have := h.old a ha
      have hne : a ≠ P.next := Nat.ne_of_lt this
      simp only [Pool.set, hne, if_false]
      exact h.empty a ha
    · exact Nat.lt_succ_self _
    · exact fun hc => Nat.lt_irrefl _ (h.old _ hc)
    · simp [Pool.set]
    · exact fun l hl => ⟨fun a ha => ⟨Nat.lt_succ_of_lt (hl a ha).1, (hl a ha).2⟩, fun hc => Nat.lt_irrefl _ (hl _ hc).1⟩
    · intro b hb _
      have hne : b ≠ P.next := Nat.ne_of_lt hb
      simp [Pool.set, hne]

/-- What a step does to the pool and to the run. -/
structure Ok (p : Program) (P : Pool) (pt : Point) (x : Pool × Point) : Prop where
  tidy : Tidy x.1
  out : Out x.1 (uses x.2)
  nodup : (uses x.2).Nodup
  good : Good p x.1.content x.2
  /-- Buffers of other runs stay as they are. -/
  others : ∀ l, Out P l → (∀ b ∈ l, b ∉ uses pt) → Out x.1 l ∧ (∀ b ∈ l, b ∉ uses x.2) ∧ ∀ b ∈ l, x.1.content b = P.content b

theorem tidy_set {P : Pool} (h : Tidy P) {b : Buf} (hb : b ∉ P.free) (x : Bytes) : Tidy (P.set b x) :=
  ⟨h.nodup, h.old, fun a ha => by
    have hne : a ≠ b := fun e => hb (e ▸ ha)
    simp only [Pool.set, hne, if_false]
    exact h.empty a ha⟩

theorem tidy_put {P : Pool} (h : Tidy P) {b : Buf} (hb : b ∉ P.free) (hn : b < P.next) (hc : P.content b = []) :
    Tidy (P.put b) :=
  ⟨List.nodup_cons.2 ⟨hb, h.nodup⟩, fun a ha => by
      rcases List.mem_cons.1 ha with rfl | ha
      · exact hn
      · exact h.old a ha, fun a ha => by
      rcases List.mem_cons.1 ha with rfl | ha
      · exact hc
      · exact h.empty a ha⟩

theorem part_snoc (l : List (Bool × Bytes)) (x : Bool × Bytes) (e : Bool) :
    part (l ++ [x]) e = part l e ++ (if x.1 = e then x.2 else []) := by
  unfold part
  by_cases h : x.1 = e
  · simp [List.filter_append, h]
  · have : (x.1 == e) = false := by simpa using h
    simp [List.filter_append, this, h]

theorem step_ok {p : Program} {P : Pool} {pt : Point} (ht : Tidy P) (ho : Out P (uses pt)) (hn : (uses pt).Nodup)
    (hg : Good p P.content pt) (choice : Option Buf) : Ok p P pt (pt.step p P choice) := by
  cases pt with
  | begin =>
    obtain ⟨h1, h2, h3, h4, h5, h6⟩ := get_spec ht choice
    refine ⟨h1, ?_, by simp [Point.step, uses], h4, fun l hl _ => ⟨(h5 l hl).1, ?_, fun b hb => h6 b (hl b hb).1 (hl b hb).2⟩⟩
    · simp [Point.step, uses, Out, h2, h3]
    · intro b hb
      simp only [Point.step, uses, List.mem_singleton]
      exact fun e => (h5 l hl).2 (e ▸ hb)
  | second out =>
    obtain ⟨h1, h2, h3, h4, h5, h6⟩ := get_spec ht choice
    have ho' := h5 [out] ho
    have hout := ho out (by simp [uses])
    refine ⟨h1, ?_, ?_, ?_, fun l hl hl' => ⟨(h5 l hl).1, ?_, fun b hb => h6 b (hl b hb).1 (hl b hb).2⟩⟩
    · intro b hb
      simp only [Point.step, uses, List.mem_cons, List.not_mem_nil, or_false] at hb
      rcases hb with rfl | rfl
      · exact ho'.1 _ (by simp)
      · exact ⟨h2, h3⟩
    · have : out ≠ (P.get choice).2 := fun e => ho'.2 (by simp [e])
      simp [Point.step, uses, this]
    · refine ⟨?_, h4⟩
      exact (h6 out hout.1 hout.2).trans hg
    · intro b hb
      have := hl' b hb
      simp only [uses, List.mem_singleton] at this
      simp only [Point.step, uses, List.mem_cons, List.not_mem_nil, or_false, not_or]
      exact ⟨this, fun e => (h5 l hl).2 (e ▸ hb)⟩
  | command out errs n =>
    have h1 := ho out (by simp [uses])
    have h2 := ho errs (by simp [uses])
    have hne : out ≠ errs := by simpa [uses] using hn
    obtain ⟨g1, g2⟩ := hg
    have keep : ∀ (b : Buf) (x : Bytes), b ∈ [out, errs] → ∀ l : List Buf, (∀ a ∈ l, a ∉ uses (.command out errs n)) →
        ∀ a ∈ l, (P.set b x).content a = P.content a := by
      intro b x hb l hl a ha
      have : a ≠ b := fun e => hl a ha (by subst e; exact hb)
      simp [Pool.set, this]
    unfold Point.step
    dsimp only
    split
    · rename_i x hx
      have htake : p.pieces.take (n + 1) = p.pieces.take n ++ [(true, x)] := by
        rw [List.take_add_one, hx]
        rfl
      refine ⟨tidy_set ht h2.2 _, ho, hn, ⟨?_, ?_⟩, fun l hl hl' => ⟨hl, hl', keep errs _ (by simp) l hl'⟩⟩
      · rw [htake, part_snoc]
        simp [Pool.set, hne, g1]
      · rw [htake, part_snoc]
        simp [Pool.set, g2]
    · rename_i x hx
      have htake : p.pieces.take (n + 1) = p.pieces.take n ++ [(false, x)] := by
        rw [List.take_add_one, hx]
        rfl
      refine ⟨tidy_set ht h1.2 _, ho, hn, ⟨?_, ?_⟩, fun l hl hl' => ⟨hl, hl', keep out _ (by simp) l hl'⟩⟩
      · rw [htake, part_snoc]
        simp [Pool.set, g1]
      · rw [htake, part_snoc]
        simp [Pool.set, Ne.symm hne, g2]
    · rename_i hx
      have hlen : p.pieces.take n = p.pieces := List.take_of_length_le (by simpa using hx)
      rw [hlen] at g1 g2
      refine ⟨ht, ho, hn, ?_, fun l hl hl' => ⟨hl, hl', fun _ _ => rfl⟩⟩
      simp only [Good, g1, g2]
      rfl
  | resetErrs r out errs =>
    have h2 := ho errs (by simp [uses])
    refine ⟨tidy_set ht h2.2 _, ho, hn, ⟨hg, by simp [Point.step, Pool.reset, Pool.set]⟩,
      fun l hl hl' => ⟨hl, hl', fun a ha => ?_⟩⟩
    have : a ≠ errs := fun e => hl' a ha (by simp [uses, e])
    simp [Point.step, Pool.reset, Pool.set, this]
  | putErrs r out errs =>
    have h1 := ho out (by simp [uses])
    have h2 := ho errs (by simp [uses])
    have hne : out ≠ errs := by simpa [uses] using hn
    refine ⟨tidy_put ht h2.2 h2.1 hg.2, ?_, by simp [Point.step, uses], hg.1,
      fun l hl hl' => ⟨fun a ha => ⟨(hl a ha).1, ?_⟩, fun a ha => ?_, fun _ _ => rfl⟩⟩
    · intro b hb
      simp only [Point.step, uses, List.mem_singleton] at hb
      subst hb
      exact ⟨h1.1, by simp [Point.step, Pool.put, hne, h1.2]⟩
    · have : a ≠ errs := fun e => hl' a ha (by simp [uses, e])
      simp [Point.step, Pool.put, this, (hl a ha).2]
    · have : a ≠ out := fun e => hl' a ha (by simp [uses, e])
      simp [Point.step, uses, this]
  | resetOut r out =>
    have h1 := ho out (by simp [uses])
    refine ⟨tidy_set ht h1.2 _, ho, hn, ⟨hg, by simp [Point.step, Pool.reset, Pool.set]⟩,
      fun l hl hl' => ⟨hl, hl', fun a ha => ?_⟩⟩
    have : a ≠ out := fun e => hl' a ha (by simp [uses, e])
    simp [Point.step, Pool.reset, Pool.set, this]
  | putOut r out =>
    have h1 := ho out (by simp [uses])
    refine ⟨tidy_put ht h1.2 h1.1 hg.2, by simp [Point.step, uses, Out], by simp [Point.step, uses], hg.1,
      fun l hl hl' => ⟨fun a ha => ⟨(hl a ha).1, ?_⟩, fun a ha => by simp [Point.step, uses], fun _ _ => rfl⟩⟩
    have : a ≠ out := fun e => hl' a ha (by simp [uses, e])
    simp [Point.step, Pool.put, this, (hl a ha).2]
  | done r => exact ⟨ht, ho, hn, hg, fun l hl hl' => ⟨hl, hl', fun _ _ => rfl⟩⟩

theorem turn_inv {progs : Nat → Program} {s : Runs} (h : Inv progs s) (t : Turn) : Inv progs (s.turn progs t) := by
  cases t with
  | collect b =>
    refine ⟨⟨h.tidy.nodup.erase b, fun a ha => h.tidy.old a (List.mem_of_mem_erase ha),
      fun a ha => h.tidy.empty a (List.mem_of_mem_erase ha)⟩, fun i a ha => ⟨(h.out i a ha).1, fun hc => (h.out i a ha).2 (List.mem_of_mem_erase hc)⟩,
      h.nodup, h.own, h.good⟩
  | run i choice =>
    have ho := step_ok h.tidy (h.out i) (h.nodup i) (h.good i) choice
    have other : ∀ j, j ≠ i → _ := fun j hj =>
      ho.others (uses (s.points j)) (h.out j) fun b hb hc => hj (h.own j i b hb hc)
    refine ⟨ho.tidy, fun j => ?_, fun j => ?_, fun j k b hj hk => ?_, fun j => ?_⟩
    · simp only [Runs.turn]
      split
      · exact ho.out
      · rename_i hj; exact (other j hj).1
    · simp only [Runs.turn]
      split
      · exact ho.nodup
      · exact h.nodup j
    · simp only [Runs.turn] at hj hk
      split at hj <;> split at hk
      · rename_i a b; rw [a, b]
      · rename_i a hki; exact ((other k hki).2.1 b hk hj).elim
      · rename_i hji a; exact ((other j hji).2.1 b hj hk).elim
      · exact h.own j k b hj hk
    · simp only [Runs.turn]
      split
      · rename_i hj
        subst hj
        exact ho.good
      · rename_i hj
        exact good_congr (other j hj).2.2 (h.good j)

theorem after_inv (progs : Nat → Program) (l : List Turn) : Inv progs (Runs.after progs l) := by
  have : ∀ s, Inv progs s → Inv progs (l.foldl (Runs.turn progs) s) := by
    induction l with
    | nil => exact fun _ h => h
    | cons t l ih => exact fun s h => ih _ (turn_inv h t)
  refine this {} ⟨⟨.nil, by simp, by simp⟩, by simp [uses, Out], by simp [uses], by simp [uses], fun _ => trivial⟩

end Buffers
end PGV.Harness
