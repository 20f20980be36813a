import Mathlib.Algebra.Order.Field.Rat
import Mathlib.Algebra.Order.Field.Basic
import Mathlib.Tactic.Linarith
import Mathlib.Tactic.Ring
import Mathlib.Tactic.FieldSimp
import Mathlib.Data.List.Sort

/-!
Vocabulary shared by all model files: python exception kinds, two dimensional arrays, sorted axes.
-/

namespace IMT

/-- The python exception kinds raised by the modelled code. -/
inductive Err where
  | valueError | typeError | indexError | nameError | zeroDivision | eofError | osError | attributeError
  | exception
  deriving DecidableEq, Repr

/-- A result that is either a value or a raised python exception. -/
abbrev Res (α : Type) := Except Err α

/-- A two dimensional numpy array: its shape and its accessor.  `get i j` is meaningful for
`i < nx` and `j < ny` only; every statement restricts to those cells. -/
structure Grid (α : Type) where
  nx : Nat
  ny : Nat
  get : Nat → Nat → α

/-- Two arrays hold the same thing: same shape, same in-range cells. -/
def Grid.Same {α : Type} (a b : Grid α) : Prop :=
  a.nx = b.nx ∧ a.ny = b.ny ∧ ∀ i j, i < a.nx → j < a.ny → a.get i j = b.get i j

/-- A strictly increasing axis. -/
def Inc (l : List Rat) : Prop := l.Pairwise (· < ·)

instance (l : List Rat) : Decidable (Inc l) := by unfold Inc; infer_instance

/-- numpy basic slice `l[lo:hi]` for `0 ≤ lo`, `0 ≤ hi`. -/
def slice {α : Type} (l : List α) (lo hi : Nat) : List α := (l.take hi).drop lo

end IMT
