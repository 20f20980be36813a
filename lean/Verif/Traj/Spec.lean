import Verif.Traj.Model

/-! Specification vocabulary for trajectories. -/

namespace IMT.Traj

/-- The squared distance between new point `i` and the end of trajectory `j` is `v`. -/
def Apart2 (new : List Pt) (old : List Line) (i j : Nat) (v : Rat) : Prop :=
  ∃ p l q, new[i]? = some p ∧ old[j]? = some l ∧ l.getLast? = some q ∧ v = (p.x - q.x) ^ 2 + (p.y - q.y) ^ 2

/-- `v` does not exceed the bound; `none` is no bound. -/
def Within (bound : Option Rat) (v : Rat) : Prop := ∀ e, bound = some e → v ≤ e

/-- `M` links new points to trajectories, one to one, within `bound` (on squared distances), and greedily: for
every pair within the bound, the point or the trajectory has a link that is at least as short. -/
structure Greedy (bound : Option Rat) (new : List Pt) (old : List Line) (M : List (Nat × Nat)) : Prop where
  range : ∀ p ∈ M, p.1 < new.length ∧ p.2 < old.length
  pointOnce : (M.map Prod.fst).Nodup
  lineOnce : (M.map Prod.snd).Nodup
  close : ∀ p ∈ M, ∃ v, Apart2 new old p.1 p.2 v ∧ Within bound v
  greedy : ∀ a b v, Apart2 new old a b v → Within bound v →
    ∃ p ∈ M, (p.1 = a ∨ p.2 = b) ∧ ∃ w, Apart2 new old p.1 p.2 w ∧ w ≤ v

/-- The trajectories that received a point, in order, each with its point at the end. -/
def continued (new : List Pt) (old : List Line) (M : List (Nat × Nat)) : List Line :=
  (List.range old.length).filterMap fun j =>
    match M.find? fun p => p.2 = j with
    | none => none
    | some p => (old[j]?).bind fun l => (new[p.1]?).map fun q => l ++ [q]

/-- The trajectories that received nothing, last one first. -/
def stopped (old : List Line) (M : List (Nat × Nat)) : List Line :=
  (List.range old.length).reverse.filterMap fun j : Nat => if j ∈ M.map Prod.snd then none else old[j]?

/-- A new trajectory for each point that continued none. -/
def started (new : List Pt) (M : List (Nat × Nat)) : List Line :=
  (List.range new.length).filterMap fun i : Nat =>
    if i ∈ M.map Prod.fst then none else (new[i]?).map fun p => [p]

/-- All the points given to `compute_traj`, with their times. -/
def allPoints (times : List Rat) (clouds : List (List (Rat × Rat))) : List Pt :=
  (times.zip clouds).flatMap fun tc => tc.2.map fun xy => ⟨xy.1, xy.2, tc.1⟩

end IMT.Traj
