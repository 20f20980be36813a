import Verif.Vector.Lemmas
import Verif.Pbi.Theta
import Verif.Mirror.VecModel

/-!
Model of the polar description of a `VectorField`: `magnitude`, `theta`, `min`, `max` and their versions as scalar fields, and of the
components and the mask as scalar fields (core/vectorfield.py:311-345, 381-388, 410-481).  Square roots and angles are real numbers; the
rounding of floats is not modelled.
-/

namespace IMT.Polar

open Real

/-- A `ScalarField` with real values. -/
structure RSF where
  ax : List Rat
  ay : List Rat
  val : Grid (Option ℝ)
  mask : Grid Bool
  ux : Sym
  uy : Sym
  uv : Sym

/-- At the grid point `(x, y)` the field shows `r` (`none` for a masked point). -/
def RSF.Reads (g : RSF) (x y : Rat) (r : Option ℝ) : Prop :=
  ∃ i j : Nat, g.ax[i]? = some x ∧ g.ay[j]? = some y ∧ (if g.mask.get i j then none else g.val.get i j) = r

/-- `(comp_x**2 + comp_y**2)**(.5)` at one point, core/vectorfield.py:425. -/
noncomputable def norm2 (u v : Option Rat) : Option ℝ :=
  match u, v with
  | some a, some b => some √((a : ℝ) ^ 2 + (b : ℝ) ^ 2)
  | _, _ => none

/-- `VectorField.magnitude`, core/vectorfield.py:418-427. -/
noncomputable def magnitude (f : VF) : Grid (Option ℝ) :=
  ⟨f.cx.nx, f.cx.ny, fun i j => if f.mask.get i j then none else norm2 (f.cx.get i j) (f.cy.get i j)⟩

/-- `norm != 0` at one point (True for NaN), core/vectorfield.py:463. -/
noncomputable def nonNull (n : Option ℝ) : Bool :=
  match n with
  | some n => open Classical in decide (n ≠ 0)
  | none => true

/-- `np.arccos(comp_x/norm)` at one point, core/vectorfield.py:464-465. -/
noncomputable def acos (u : Option Rat) (n : Option ℝ) : Option ℝ :=
  match u, n with
  | some a, some n => some (arccos (a / n))
  | _, _ => none

/-- `comp_y < 0` at one point (False for NaN), core/vectorfield.py:466-468. -/
def below (v : Option Rat) : Bool :=
  match v with
  | some b => decide (b < 0)
  | none => false

/-- `VectorField.theta`, core/vectorfield.py:441-470: zeros, then the arc cosine at the points neither masked nor null, turned in the lower half. -/
noncomputable def theta (f : VF) : Grid (Option ℝ) :=
  ⟨f.ax.length, f.ay.length, fun i j =>
    if !f.mask.get i j && nonNull ((magnitude f).get i j) then
      if below (f.cy.get i j) then (acos (f.cx.get i j) ((magnitude f).get i j)).map fun t => 2 * π - t
      else acos (f.cx.get i j) ((magnitude f).get i j)
    else some 0⟩

/-- `ScalarField.import_from_arrays` (core/scalarfield.py:391-467) of an array of the shape of the field on its own increasing axes (`SF.importArrays`
is the model with every case): the points where the value is NaN are added to the mask, and the second point of each axis is read. -/
def imported (f : VF) (v : Grid (Option ℝ)) (m : Grid Bool) : Res RSF :=
  if f.ay.length < 2 ∨ f.ax.length < 2 then .error .indexError
  else .ok ⟨f.ax, f.ay, v, ⟨m.nx, m.ny, fun i j => m.get i j || (v.get i j).isNone⟩, f.ux, f.uy, f.uv⟩

/-- `VectorField.magnitude_as_sf`, core/vectorfield.py:429-439. -/
noncomputable def magnitudeAsSf (f : VF) : Res RSF := imported f (magnitude f) f.mask

/-- `VectorField.theta_as_sf`, core/vectorfield.py:472-481: the mask is False. -/
noncomputable def thetaAsSf (f : VF) : Res RSF := imported f (theta f) ⟨f.ax.length, f.ay.length, fun _ _ => false⟩

/-- `VectorField.mask_as_sf`, core/vectorfield.py:381-388. -/
def maskAsSf (f : VF) : Res SF :=
  SF.importArrays f.ax f.ay ⟨f.mask.nx, f.mask.ny, fun i j => some (if f.mask.get i j then 1 else 0)⟩ (.bool false) f.ux f.uy f.uv

/-- `self.magnitude[~self.mask]`, core/vectorfield.py:412, 416. -/
noncomputable def speeds (f : VF) : List (Option ℝ) :=
  (((List.range f.ax.length).flatMap fun i => (List.range f.ay.length).map fun j => (i, j)).filter fun q => !f.mask.get q.1 q.2).map
    fun q => (magnitude f).get q.1 q.2

/-- One step of `np.min` or `np.max` (core/vectorfield.py:412, 416), NaN if one of the numbers is. -/
noncomputable def pickN (pick : ℝ → ℝ → ℝ) (x y : Option ℝ) : Option ℝ :=
  match x, y with
  | some x, some y => some (pick x y)
  | _, _ => none

/-- `np.min` and `np.max` of an array (core/vectorfield.py:412, 416), ValueError for an empty array. -/
noncomputable def extreme (pick : ℝ → ℝ → ℝ) : List (Option ℝ) → Res (Option ℝ)
  | [] => .error .valueError
  | a :: l => .ok (l.foldl (pickN pick) a)

/-- `VectorField.min`, core/vectorfield.py:410-412. -/
noncomputable def vmin (f : VF) : Res (Option ℝ) := extreme min (speeds f)

/-- `VectorField.max`, core/vectorfield.py:414-416. -/
noncomputable def vmax (f : VF) : Res (Option ℝ) := extreme max (speeds f)

end IMT.Polar
