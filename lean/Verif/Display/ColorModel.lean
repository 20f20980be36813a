import Verif.Prelude
import Mathlib.Algebra.Order.Floor.Defs
import Mathlib.Algebra.Order.Floor.Ring
import Mathlib.Data.Rat.Floor

/-!
# Colours and layout of the drawings (`/repo/IMTreatment/plotlib/plotlib.py`)

Bounds of the colour scales, discrete colour maps, gradients of colours, segments of coloured lines and the grid of axes of
several frames.  A colour of a colour map is given by its place in the map, a number from 0 to 1.  A number that may be NaN is
an `Option Rat`.
-/

namespace IMT.Color

/-- `np.min` of a list of numbers; `none` when there is none (numpy raises ValueError). -/
def minOf : List Rat → Option Rat
  | [] => none
  | a :: l => some (l.foldl min a)

/-- `np.max` of a list of numbers. -/
def maxOf : List Rat → Option Rat
  | [] => none
  | a :: l => some (l.foldl max a)

/-- `col[~np.isnan(col)]` (`plotlib.py` lines 1108-1110). -/
def known (col : List (Option Rat)) : List Rat := col.filterMap id

/-- The bounds kept by a displayer, `vmin` and `vmax` (`plotlib.py` lines 954-955). -/
structure Bounds where
  vmin : Option Rat
  vmax : Option Rat
  deriving DecidableEq

/-- `np.min(tmp_mins)` over the frames that have a colour (`plotlib.py` lines 1106-1111). -/
def lowest (colors : List (List (Option Rat))) : Option Rat := minOf (colors.filterMap fun col => minOf (known col))

/-- `np.max(tmp_maxs)` (`plotlib.py` lines 1113-1118). -/
def highest (colors : List (List (Option Rat))) : Option Rat := maxOf (colors.filterMap fun col => maxOf (known col))

/-- `Displayer.get_global_norm` (`plotlib.py` lines 1104-1119): the bounds, computed at the first call, and the state. -/
def globalNorm (b : Bounds) (colors : List (List (Option Rat))) : Bounds × Res (Rat × Rat) :=
  match b.vmin.orElse fun _ => lowest colors with
  | none => (b, .error .valueError)
  | some lo =>
    match b.vmax.orElse fun _ => highest colors with
    | none => (⟨some lo, b.vmax⟩, .error .valueError)
    | some hi => (⟨some lo, some hi⟩, .ok (lo, hi))

/-- `np.min(col)` with NaN: NaN as soon as there is one. -/
def minNan (col : List (Option Rat)) : Option Rat := if none ∈ col then none else minOf (known col)

/-- `Displayer.get_norm(i)` (`plotlib.py` lines 1099-1102): both bounds are the minimum of the frame. -/
def frameNorm (col : List (Option Rat)) : Option Rat × Option Rat := (minNan col, minNan col)

/-- The place of a value in the colour map: `mpl.colors.Normalize(vmin, vmax)(v)`, 0 when the bounds are equal. -/
def place (lo hi v : Rat) : Rat := if lo = hi then 0 else (v - lo) / (hi - lo)

/-! ## Discrete colour maps -/

/-- `interv_bounds` (`plotlib.py` lines 68-69). -/
def mids (c : List Rat) : List Rat := List.zipWith (fun a b => (b + a) / 2) c c.tail

/-- The places of the colours (`plotlib.py` lines 73-75). -/
def shades (n : Nat) : List Rat := (List.range n).map fun i : Nat => (i : Rat) / ((n : Rat) - 1)

/-- `mini` and `maxi` (`plotlib.py` lines 70-71): IndexError with fewer than three centres. -/
def ends (b : List Rat) : Res (Rat × Rat) :=
  match b, b.reverse with
  | b₀ :: b₁ :: _, z₀ :: z₁ :: _ => .ok (b₀ - |b₁ - b₀|, z₀ + |z₀ - z₁|)
  | _, _ => .error .indexError

/-- `make_discrete_cmap(interv_centers)` (`plotlib.py` lines 60-81): the places of the colours, and the bounds. -/
def discrete (c : List Rat) : Res (List Rat × (Rat × Rat)) :=
  match ends (mids c) with
  | .ok e => .ok (shades c.length, e)
  | .error e => .error e

/-- The colour a `ListedColormap` of `n` colours gives to a place (matplotlib): `int(x*n)`, the last one for `x = 1`, the
first and last ones out of 0 to 1. -/
def listed (n : Nat) (x : Rat) : Nat := min (⌊x * n⌋).toNat (n - 1)

/-! ## Gradients, segments, axes -/

/-- `get_color_gradient(cmap, number)` (`plotlib.py` lines 51-57): the places of the colours. -/
def gradient (n : Nat) : Res (List Rat) := if n = 1 then .error .zeroDivision else .ok (shades n)

/-- `make_segments(x, y)` (`plotlib.py` lines 229-237) for as many abscissae as ordinates. -/
def segments (x y : List Rat) : List ((Rat × Rat) × (Rat × Rat)) := (x.zip y).dropLast.zip (x.zip y).tail

/-- The shape of a drawing asked for by a displayer. -/
inductive Aspect where
  | equal | auto | other
  deriving DecidableEq

/-- `ButtonManager._get_aspect_from_displs` (`plotlib.py` lines 491-505), the aspect: each displayer gives one or none. -/
def aspectOf (l : List (Option Aspect)) : Res Aspect :=
  if l.filterMap id = [] then .ok .auto
  else if .equal ∈ l.filterMap id then .ok .equal
  else if .auto ∈ l.filterMap id then .ok .auto
  else .error .valueError

/-- The same function, `adjustable` (`plotlib.py` lines 506-518): the first one asked for, `box` by default. -/
def adjustableOf (l : List (Option String)) : String := (l.filterMap id).headD "box"

/-- What `draw_multiple` does with the figure. -/
inductive Layout where
  | reuse
  | grid (nrow ncol : Nat)
  deriving DecidableEq

/-- `int(np.ceil(float(n)/ncol))`, for `ncol > 0`. -/
def ceilDiv (n k : Nat) : Nat := (n + k - 1) / k

/-- The new axes of `draw_multiple` (`plotlib.py` lines 1340-1351, 1370-1372): `plt.subplots` gives an array of axes, except
for one row and one column, where `axs.flat` raises AttributeError. -/
def newAxes (n nrow ncol : Nat) : Res Layout :=
  if ncol * nrow < n then .error .valueError
  else if nrow = 1 ∧ ncol = 1 then .error .attributeError
  else .ok (.grid nrow ncol)

/-- The layout of `draw_multiple(inds, ncol, nrow)` (`plotlib.py` lines 1334-1355), for a figure that has `axes` axes and `n`
frames. -/
def layout (axes n : Nat) (ncol nrow : Option Nat) : Res Layout :=
  if axes = 0 ∨ axes ≠ n then
    match nrow with
    | some r => newAxes n r (ncol.getD n.sqrt)
    | none => if ncol.getD n.sqrt = 0 then .error .zeroDivision else newAxes n (ceilDiv n (ncol.getD n.sqrt)) (ncol.getD n.sqrt)
  else .ok .reuse

/-- The row and column of `axs.flat[i]` (`plotlib.py` line 1371). -/
def cell (ncol i : Nat) : Nat × Nat := (i / ncol, i % ncol)

end IMT.Color
