import Verif.Turb.Lemmas
import Mathlib.Data.Real.Sqrt

/-! C239: weird fields of a record, what it says. -/

namespace IMT.Weird

open Turb (TVF Record)

/-- `s` is the sum of the lengths of the vectors that the field shows; `a` gives the vector shown at each point, zero where none is. -/
def Total (f : VF) (s : ℝ) : Prop :=
  ∃ a : Rat × Rat → Rat × Rat, (∀ x y v, f.Reads x y v → a (x, y) = v.getD (0, 0)) ∧
    s = ∑ q ∈ f.ax.toFinset ×ˢ f.ay.toFinset, Real.sqrt ((((a q).1) ^ 2 + ((a q).2) ^ 2 : Rat) : ℝ)

/-- The mean of `n` numbers. -/
noncomputable def avg (n : Nat) (s : Nat → ℝ) : ℝ := (∑ k ∈ Finset.range n, s k) / n

/-- The standard deviation of `n` numbers. -/
noncomputable def dev (n : Nat) (s : Nat → ℝ) : ℝ := Real.sqrt ((∑ k ∈ Finset.range n, (s k - avg n s) ^ 2) / n)

/-- The `k`-th field is weird: its total is farther from the mean of the totals than `c` standard deviations. -/
def Strange (t : TVF) (c : ℝ) (k : Nat) : Prop :=
  k < t.fields.length ∧ ∃ s : Nat → ℝ, (∀ (i : Nat) f, t.fields[i]? = some f → Total f (s i)) ∧
    |s k - avg t.fields.length s| > c * dev t.fields.length s

/-- `e` is the smallest distance from 1 on without weird field at this distance of the `k`-th one. -/
def Reach (t : TVF) (c : ℝ) (k e : Nat) : Prop :=
  1 ≤ e ∧ (¬ Strange t c (k + e) ∧ ¬ (e ≤ k ∧ Strange t c (k - e))) ∧
    ∀ d, 1 ≤ d → d < e → Strange t c (k + d) ∨ d ≤ k ∧ Strange t c (k - d)

/-- The mean of two vectors, when both are there. -/
def middle : Option (Rat × Rat) → Option (Rat × Rat) → Option (Rat × Rat)
  | some a, some b => some ((a.1 + b.1) / 2, (a.2 + b.2) / 2)
  | _, _ => none

end IMT.Weird
