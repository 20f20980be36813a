import Verif.Utils.Model
import Verif.Display.CursorModel
import Mathlib.Algebra.BigOperators.Group.Finset.Basic
import Mathlib.Analysis.SpecialFunctions.Pow.Real

/-!
Model of `Points.get_points_density`, `Points.get_points_density2` and of the choice of the edges in `Points.get_envelope`
(`/repo/IMTreatment/core/points.py`).  The kernel of scipy, modified at lines 370-376, is a parameter.
-/

namespace IMT.Cloud

open IMT.Utils (npround)

/-- `np.min`, of a list that is not empty. -/
def lo : List Rat → Rat
  | [] => 0
  | [a] => a
  | a :: b :: l => min a (lo (b :: l))

/-- `np.max`, of a list that is not empty. -/
def hi : List Rat → Rat
  | [] => 0
  | [a] => a
  | a :: b :: l => max a (hi (b :: l))

/-- The width of a set of numbers. -/
def width (l : List Rat) : Rat := hi l - lo l

/-- The resolutions in both directions, points.py:330-351. -/
def resOf (wx wy : Rat) (res : Int) : Int × Int :=
  if wx = 0 ∨ wy = 0 then (res, res)
  else if wx > wy then (res, npround (res * wy / wx))
  else (npround (res * wx / wy), res)

/-- `np.linspace(a, b, n)`. -/
def linspace (a b : Rat) (n : Nat) : List Rat := (List.range n).map fun i : Nat => a + i * ((b - a) / ((n : Rat) - 1))

/-- The margin around the points, points.py:378-383, for the factor `f` of the kernel. -/
def border (wx wy f : Rat) : Rat := if wx > wy then f * wy / 2 else f * wx / 2

/-- The argument `output_format`. -/
inductive Format where
  | normalized | ponderated | percentage | concentration | other
  deriving DecidableEq

/-- points.py:399-411. -/
def Format.scale (n : Nat) : Format → Res Rat
  | .normalized => .ok 1
  | .ponderated => .ok n
  | .percentage => .ok 100
  | .concentration => .ok n
  | .other => .error .valueError

/-- A field of density. -/
structure Dens where
  ax : List Rat
  ay : List Rat
  v : Nat → Nat → Rat

/-- The density on a grid, points.py:391-397. -/
def onGrid (K : Rat → Rat → Rat) (ax ay : List Rat) (c : Rat) : Dens where
  ax := ax
  ay := ay
  v i j := K (ax.getD i 0) (ay.getD j 0) /
    ((∑ i ∈ Finset.range ax.length, ∑ j ∈ Finset.range ay.length, K (ax.getD i 0) (ay.getD j 0)) *
      (ax.getD 1 0 - ax.getD 0 0) * (ay.getD 1 0 - ay.getD 0 0)) * c

/-- `get_points_density(bw_method, resolution, output_format)`, points.py:290-423; `K` is the kernel, `f` its factor. -/
def density (K : Rat → Rat → Rat) (f : Rat) (res : Int) (fmt : Format) (pts : List (Rat × Rat)) : Res (Option Dens) :=
  if pts.length < 2 then .ok none
  else if width (pts.map Prod.fst) = 0 ∧ width (pts.map Prod.snd) = 0 then .error .exception
  else if (resOf (width (pts.map Prod.fst)) (width (pts.map Prod.snd)) res).1 < 2 ∨
    (resOf (width (pts.map Prod.fst)) (width (pts.map Prod.snd)) res).2 < 2 then .error .valueError
  else if width (pts.map Prod.fst) = 0 ∨ width (pts.map Prod.snd) = 0 then .ok none
  else match fmt.scale pts.length with
    | .error e => .error e
    | .ok c => .ok (some (onGrid K
        (linspace (lo (pts.map Prod.fst) - border (width (pts.map Prod.fst)) (width (pts.map Prod.snd)) f)
          (hi (pts.map Prod.fst) + border (width (pts.map Prod.fst)) (width (pts.map Prod.snd)) f)
          (resOf (width (pts.map Prod.fst)) (width (pts.map Prod.snd)) res).1.toNat)
        (linspace (lo (pts.map Prod.snd) - border (width (pts.map Prod.fst)) (width (pts.map Prod.snd)) f)
          (hi (pts.map Prod.snd) + border (width (pts.map Prod.fst)) (width (pts.map Prod.snd)) f)
          (resOf (width (pts.map Prod.fst)) (width (pts.map Prod.snd)) res).2.toNat) c))

/-! ### Counting -/

/-- One turn of the loop, points.py:509-517. -/
def drop (ax ay : List Rat) (g : Nat → Nat → Rat) (p : (Rat × Rat) × Rat) : Nat → Nat → Rat := fun i j =>
  if i = Cursor.nearIdx ax p.1.1 ∧ j = Cursor.nearIdx ay p.1.2 then g i j + p.2 else g i j

/-- `get_points_density2(res, subres=subres)`, points.py:425-532, for points with their weights (1, or their value when `ponderated`).
With a subgrid the bounds of the slices of lines 488-489 are floats. -/
def density2 (resx resy : Nat) (subres : Bool) (pts : List ((Rat × Rat) × Rat)) : Res Dens :=
  if pts = [] then .error .valueError
  else if subres then .error .typeError
  else .ok {
    ax := linspace (lo (pts.map fun p => p.1.1)) (hi (pts.map fun p => p.1.1)) resx
    ay := linspace (lo (pts.map fun p => p.1.2)) (hi (pts.map fun p => p.1.2)) resy
    v := fun i j =>
      pts.foldl (drop (linspace (lo (pts.map fun p => p.1.1)) (hi (pts.map fun p => p.1.1)) resx)
        (linspace (lo (pts.map fun p => p.1.2)) (hi (pts.map fun p => p.1.2)) resy)) (fun _ _ => 0) i j /
      (width (pts.map fun p => p.1.1) / ((resx : Rat) - 1) * (width (pts.map fun p => p.1.2) / ((resy : Rat) - 1))) }

/-! ### The edges of an envelope -/

/-- `add_edge(i, j)`, points.py:604-609. -/
def addEdge (es : List (Nat × Nat)) (i j : Nat) : List (Nat × Nat) := if (i, j) ∈ es ∨ (j, i) ∈ es then es else es ++ [(i, j)]

/-- The length of a side, points.py:616-618. -/
noncomputable def side (p q : ℝ × ℝ) : ℝ := √((p.1 - q.1) ^ 2 + (p.2 - q.2) ^ 2)

/-- `circum_r`, points.py:619-623, from the lengths of the sides. -/
noncomputable def circum (a b c : ℝ) : ℝ :=
  a * b * c / (4 * √((a + b + c) / 2 * ((a + b + c) / 2 - a) * ((a + b + c) / 2 - b) * ((a + b + c) / 2 - c)))

/-- `circum_r` of a triangle of the triangulation. -/
noncomputable def radius (pts : Nat → ℝ × ℝ) (t : Nat × Nat × Nat) : ℝ :=
  circum (side (pts t.1) (pts t.2.1)) (side (pts t.2.1) (pts t.2.2)) (side (pts t.2.2) (pts t.1))

open Classical in
/-- The loop on the triangles, points.py:611-629; without `alpha` all are kept. -/
noncomputable def edges (pts : Nat → ℝ × ℝ) (alpha : Option ℝ) (ts : List (Nat × Nat × Nat)) : List (Nat × Nat) :=
  ts.foldl (fun es t =>
    if ∀ a, alpha = some a → radius pts t < a then addEdge (addEdge (addEdge es t.1 t.2.1) t.2.1 t.2.2) t.2.2 t.1 else es) []

end IMT.Cloud
