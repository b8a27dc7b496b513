import Verif.Lemmas.Buffers

/-!
C109: test programs that run at the same time do not get into each other's output.
-/

set_option linter.unusedSimpArgs false

namespace PGV.Props
open PGV PGV.Harness PGV.Spec.Buffers

/-- **C109** Whatever the runs take turns in, whichever buffers the pool gives out and loses, and however long it goes
on: a run that has ended gave the answer to the output of its own program, and logged the text of its own program's
standard error. -/
theorem C109_own_output (progs : Nat → Program) (schedule : List Turn) (i : Nat) (r : Seen)
    (h : (Runs.after progs schedule).points i = .done r) : r = alone (progs i) := by
  have := (Buffers.after_inv progs schedule).good i
  rw [h] at this
  exact this

/-- **C109** At no time do two runs use one buffer, does one run use a buffer for both purposes, or is a buffer in use
still in the pool, or twice in it; and all buffers in the pool are empty. -/
theorem C109_not_shared (progs : Nat → Program) (schedule : List Turn) :
    let s := Runs.after progs schedule
    (∀ i j b, b ∈ uses (s.points i) → b ∈ uses (s.points j) → i = j) ∧ (∀ i, (uses (s.points i)).Nodup) ∧
    (∀ i, ∀ b ∈ uses (s.points i), b ∉ s.pool.free) ∧ s.pool.free.Nodup ∧ ∀ b ∈ s.pool.free, s.pool.content b = [] := by
  have h := Buffers.after_inv progs schedule
  exact ⟨h.own, h.nodup, fun i b hb => (h.out i b hb).2, h.tidy.nodup, h.tidy.empty⟩

/-- The turns that a run has still to take. -/
def left (p : Program) : Point → Nat
  | .begin => p.pieces.length + 7
  | .second _ => p.pieces.length + 6
  | .command _ _ n => p.pieces.length - n + 5
  | .resetErrs .. => 4
  | .putErrs .. => 3
  | .resetOut .. => 2
  | .putOut .. => 1
  | .done _ => 0

theorem left_step (p : Program) (P : Pool) (choice : Option Buf) (pt : Point) :
    left p (pt.step p P choice).2 = left p pt - 1 := by
  cases pt with
  | command out errs n =>
    unfold Point.step
    dsimp only
    split
    all_goals
      rename_i h
      first
        | have := (List.getElem?_eq_some_iff.1 h).1
          simp only [left]
          omega
        | have := List.getElem?_eq_none_iff.1 h
          simp only [left]
          omega
  | _ => simp [Point.step, left]

/-- How often a schedule gives the turn to a run. -/
def turns (i : Nat) (schedule : List Turn) : Nat :=
  (schedule.filter fun t => match t with | .run j _ => j == i | .collect _ => false).length

theorem left_after (progs : Nat → Program) (i : Nat) : ∀ (schedule : List Turn) (s : Runs),
    left (progs i) ((schedule.foldl (Runs.turn progs) s).points i) = left (progs i) (s.points i) - turns i schedule
  | [], s => by simp [turns]
  | t :: l, s => by
    rw [List.foldl_cons, left_after progs i l]
    cases t with
    | collect b => simp [Runs.turn, turns]
    | run j choice =>
      by_cases h : j = i
      · subst h
        simp only [Runs.turn, if_true, left_step, turns, List.filter_cons, beq_self_eq_true, List.length_cons]
        omega
      · have h' : (j == i) = false := by simpa using h
        simp [Runs.turn, turns, Ne.symm h, h']

/-- **C109** No run waits for another: one that gets seven turns more than its program writes pieces has ended. -/
theorem C109_ends (progs : Nat → Program) (schedule : List Turn) (i : Nat)
    (h : (progs i).pieces.length + 7 ≤ turns i schedule) :
    (Runs.after progs schedule).points i = .done (alone (progs i)) := by
  have hl := left_after progs i schedule {}
  have h0 : left (progs i) ((Runs.after progs schedule).points i) = 0 := by
    rw [Runs.after, hl]
    simp only [left]
    omega
  cases hp : (Runs.after progs schedule).points i with
  | done r => rw [C109_own_output progs schedule i r hp]
  | _ => rw [hp] at h0; simp only [left] at h0; omega

/-- Two programs that write `a` and `b`. -/
def chatty : Nat → Program
  | 0 => ⟨[(false, asc "a"), (true, asc "!"), (false, asc "a")], false⟩
  | _ => ⟨[(false, asc "b")], true⟩

/-- Three runs, the second of which takes over a buffer of the first while the third is running. -/
def meeting : List Turn :=
  (List.replicate 5 (.run 0 none)) ++ [.run 2 none, .run 2 none, .run 2 none] ++ List.replicate 6 (.run 0 none) ++
    [.run 1 (some 1), .run 1 (some 0)] ++ [.run 2 none, .collect 0] ++ List.replicate 7 (.run 1 none) ++ List.replicate 7 (.run 2 none)

/-- Buffers are used again in it, in the other roles, and all three end. -/
example : (∀ i, i < 3 → (Runs.after chatty meeting).points i = .done (alone (chatty i))) ∧
    uses ((Runs.after chatty (meeting.take 3)).points 0) = [0, 1] ∧
    uses ((Runs.after chatty (meeting.take 16)).points 1) = [1, 0] ∧ (alone (chatty 0)).log = asc "!" := by
  refine ⟨fun i hi => C109_ends chatty meeting i ?_, by decide, by decide, by decide⟩
  match i, hi with
  | 0, _ => decide
  | 1, _ => decide
  | 2, _ => decide

end PGV.Props
