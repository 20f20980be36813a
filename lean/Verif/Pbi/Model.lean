import Verif.Prelude

/-!
Model of the Poincaré-Bendixson index computation, class `VF`
(`/repo/IMTreatment/vortex_detection/vortex_detection.py`, below "vd.py").

Angles live in an arbitrary ordered field `K` and `T` stands for `2π`; the instance `K = ℝ`, `T = 2 * Real.pi` is
used in `Verif/Pbi/Theta.lean`.  Angle fields are functions `row → column → angle` together with their number of
rows (`VF` stores y along the rows, vd.py:48-53).
-/

namespace IMT.Pbi

variable {K : Type} [Field K] [LinearOrder K]

/-- vd.py:350-352: differences outside `[-π, π]` are brought back by one period. -/
def wrap (T d : K) : K :=
  let d := if d > T / 2 then d - T else d
  if d < -(T / 2) then d + T else d

/-- `thetas_border`, vd.py:341-345, for the strip of the columns `0..i` of a field with `n` rows. -/
def border (θ : Nat → Nat → K) (n i : Nat) : List K :=
  ((List.range n).reverse.map fun r => θ r 0) ++ ((List.range i).map fun c => θ 0 c) ++
  ((List.range n).map fun r => θ r i) ++ ((List.range i).map fun k => θ (n - 1) (i - k))

/-- `delta_thetas`, vd.py:346-349: successive differences, closed on the first element. -/
def deltas (l : List K) : List K := List.zipWith (fun a b => b - a) l (l.tail ++ l.head?.toList)

/-- `get_pbi('x')[i]` before rounding, vd.py:339-354. -/
def pbi (T : K) (θ : Nat → Nat → K) (n i : Nat) : K := ((deltas (border θ n i)).map (wrap T)).sum / T

/-- `np.rot90(theta, 3)`, vd.py:337, of a field with `n` rows: cell `(r, c)` of the result. -/
def rot3 (θ : Nat → Nat → K) (n : Nat) : Nat → Nat → K := fun r c => θ (n - 1 - c) r

/-- `get_pbi('y')[k]` before rounding for a field with `n` rows and `m` columns, vd.py:335-337 and 355-356: the field
is turned, the result reversed. -/
def pbiY (T : K) (θ : Nat → Nat → K) (n m k : Nat) : K :=
  if n - 1 - k = 0 then 0 else pbi T (rot3 θ n) m (n - 1 - k)

/-- The sub-field starting at `(r, c)`. -/
def shift (θ : Nat → Nat → K) (r c : Nat) : Nat → Nat → K := fun a b => θ (r + a) (c + b)

/-- Number of positive corners, vd.py:126-129: `signx` or `signy` of the cell `(i, j)`. -/
def positives (v : Nat → Nat → K) (i j : Nat) : Nat :=
  (if v i j > 0 then 1 else 0) + (if v (i + 1) j > 0 then 1 else 0) +
  (if v i (j + 1) > 0 then 1 else 0) + (if v (i + 1) (j + 1) > 0 then 1 else 0)

/-- `filt_0ls`, vd.py:130-132: the cells that are examined. -/
def examined (vx vy : Nat → Nat → K) (i j : Nat) : Prop :=
  (positives vx i j ≠ 0 ∧ positives vx i j ≠ 4) ∧ (positives vy i j ≠ 0 ∧ positives vy i j ≠ 4)

end IMT.Pbi
