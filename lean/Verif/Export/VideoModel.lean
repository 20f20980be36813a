import Verif.Display.ColorModel
import Verif.Scalar.Model

/-!
Model of `export_to_video` (`/repo/IMTreatment/file_operation/file_operation.py:1520-1567`): the grey levels of the frames given to OpenCV.  The fields all have the
same axes.  With a colour map the levels go through this map first (not modelled).
-/

namespace IMT.Video

/-- The argument: a list or array of scalar fields, or a series of them (temporal or spatial). -/
inductive Source where
  | array (l : List (Grid (Option Rat)))
  | series (l : List (Grid (Option Rat)))

/-- One frame of a series, `values[:, ::-1].transpose()`, line 1538: line and column of the image. -/
def turned (g : Grid (Option Rat)) : Grid (Option Rat) := ⟨g.ny, g.nx, fun r c => g.get c (g.ny - 1 - r)⟩

/-- The frames, lines 1532-1539: `values` of the fields of an array are taken as they are. -/
def Source.frames : Source → List (Grid (Option Rat))
  | .array l => l
  | .series l => l.map turned

/-- The values of an image. -/
def cells (g : Grid (Option Rat)) : List (Option Rat) := (List.range g.nx).flatMap fun i => (List.range g.ny).map fun j => g.get i j

/-- `np.max(values)` and `np.min(values)`, lines 1541-1542: NaN (`none`) as soon as there is one. -/
def extremes (l : List (Option Rat)) : Option (Rat × Rat) :=
  if none ∈ l then none
  else match Color.minOf (l.filterMap id), Color.maxOf (l.filterMap id) with
    | some lo, some hi => some (lo, hi)
    | _, _ => none

/-- The grey level of a value, lines 1543 and 1552: `(v - mini)/(maxi - mini)`, times 255, the fractional part being dropped.  `none` is what becomes of a NaN (also
0/0): C leaves it undefined. -/
def level (e : Option (Rat × Rat)) (v : Option Rat) : Option Int :=
  match e, v with
  | some (lo, hi), some v => if hi = lo then none else some ⌊(v - lo) / (hi - lo) * 255⌋
  | _, _ => none

/-- The frames of the video; `np.max` refuses an empty array. -/
def video (s : Source) : Res (List (Grid (Option Int))) :=
  if s.frames.flatMap cells = [] then .error .valueError
  else .ok (s.frames.map fun g => ⟨g.nx, g.ny, fun i j => level (extremes (s.frames.flatMap cells)) (g.get i j)⟩)

end IMT.Video
