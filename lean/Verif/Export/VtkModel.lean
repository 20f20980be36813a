import Verif.Vector.Model
import Verif.Points.Model
import Verif.File.Model

/-!
Model of the exports to VTK files (`/repo/IMTreatment/file_operation/file_operation.py`, "fo.py").  What `pyvtk` is given is represented, and
the legacy format of VTK in the specification; the text of the file is not.
-/

namespace IMT.Vtk

/-- A name of axis. -/
inductive Ax where
  | x
  | y
  | z
  deriving DecidableEq

/-- What is written for a field: the three axes and the data of the points, in the order of the file (fo.py:681-686, 743-749). -/
structure File (α : Type) where
  gx : List Rat
  gy : List Rat
  gz : List Rat
  data : List α

/-- `path.dirname`: what comes before the last separator (without the trailing separators removed by `posixpath`, which cannot be in a
normalised path but for the root). -/
def dirname (p : File.Path) : File.Path := ((p.reverse.dropWhile (· != '/')).drop 1).reverse

/-- The checks of the arguments, fo.py:651-664, 703-716; `there` tells the existing paths (`path.exists`). -/
def checks (there : File.Path → Bool) (p : File.Path) (a b : Ax) : Res PUnit :=
  if there (dirname p) = false then .error .valueError
  else if a = b then .error .valueError
  else .ok ⟨⟩

/-- `x_vtk`, `y_vtk` or `z_vtk`, fo.py:669-683, 720-740: 0 at first (a single position for `pyvtk`), then the first axis, then the second. -/
def along (a b : Ax) (x y : List Rat) (c : Ax) : List Rat := if c = b then y else if c = a then x else [0]

/-- `values.flatten()`. -/
def flat {α : Type} (g : Grid α) : List α := (List.range g.nx).flatMap fun i => (List.range g.ny).map fun j => g.get i j

/-- `export_to_vtk(field, filepath, axis=(a, b))` of a scalar field, fo.py:542-566, 637-686. -/
def exportSF (there : File.Path → Bool) (p : File.Path) (f : SF) (a b : Ax) : Res (File (Option Rat)) :=
  match checks there p a b with
  | .error e => .error e
  | .ok _ => .ok ⟨along a b f.ax f.ay .x, along a b f.ax f.ay .y, along a b f.ax f.ay .z, flat f.values⟩

/-- One component of the written vector: `vx_vtk`, `vy_vtk` or `vz_vtk`, fo.py:724-742. -/
def comp (a b : Ax) (u v : Option Rat) (c : Ax) : Option Rat := if c = b then v else if c = a then u else some 0

/-- `export_to_vtk(field, filepath, axis=(a, b))` of a vector field, fo.py:542-566, 689-749: the components are the raw arrays
(core/vectorfield.py:294-295), the mask is not written. -/
def exportVF (there : File.Path → Bool) (p : File.Path) (f : VF) (a b : Ax) : Res (File (Option Rat × Option Rat × Option Rat)) :=
  match checks there p a b with
  | .error e => .error e
  | .ok _ => .ok ⟨along a b f.ax f.ay .x, along a b f.ax f.ay .y, along a b f.ax f.ay .z,
      ((flat f.cx).zip (flat f.cy)).map fun q => (comp a b q.1 q.2 .x, comp a b q.1 q.2 .y, comp a b q.1 q.2 .z)⟩

/-- What is written for points: the positions, the values, and whether they are linked (fo.py:624-634). -/
structure PFile where
  pts : List (Option Rat × Option Rat × Option Rat)
  vals : List (Option Rat)
  line : Bool

/-- `__export_pts_to_vtk(pts, filepath, axis, line)`, fo.py:568-634; the values are never `None` (see `Points.P`). -/
def ptsFile (there : File.Path → Bool) (p : File.Path) (s : Points.P) (a b : Ax) (line : Bool) : Res PFile :=
  match checks there p a b with
  | .error e => .error e
  | .ok _ => .ok ⟨s.xy.map fun q => (comp a b q.1 q.2 .x, comp a b q.1 q.2 .y, comp a b q.1 q.2 .z), s.v, line⟩

/-- `export_to_vtk(pts, filepath, axis=(a, b), line=line)`, fo.py:542-566: the axis is not handed over. -/
def exportPts (there : File.Path → Bool) (p : File.Path) (s : Points.P) (_a _b : Ax) (line : Bool) : Res PFile := ptsFile there p s .x .y line

/-! ### Specification -/

/-- The data of a point in the legacy format of VTK: the points of a rectilinear grid are listed with x varying fastest, then y, then z. -/
def Shows {α : Type} (f : File α) (q : Rat × Rat × Rat) (v : α) : Prop :=
  ∃ i j k : Nat, f.gx[i]? = some q.1 ∧ f.gy[j]? = some q.2.1 ∧ f.gz[k]? = some q.2.2 ∧
    f.data[i + f.gx.length * (j + f.gy.length * k)]? = some v

/-- The position (or vector) `(x, y)` put along the axes `a` and `b`, zero along the third one. -/
def place (a b : Ax) (x y : Rat) : Rat × Rat × Rat :=
  (if a = .x then x else if b = .x then y else 0, if a = .y then x else if b = .y then y else 0, if a = .z then x else if b = .z then y else 0)

/-- The first axis comes after the second one in the order of the file. -/
def Later : Ax → Ax → Prop
  | .y, .x => True
  | .z, .x => True
  | .z, .y => True
  | _, _ => False

end IMT.Vtk
