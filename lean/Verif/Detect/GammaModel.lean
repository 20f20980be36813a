import Verif.Crit.Model
import Verif.Centre.Model
import Verif.Vector.Model
import Verif.Scalar.BorderModel

/-!
Model of `get_critical_points(kind='gam_vort')` on one vector field (`/repo/IMTreatment/vortex_detection/vortex_detection.py`, "vd.py", and
`/repo/IMTreatment/vortex_criterions/vortex_criterions.py`), without mirrors and smoothing (modelled in WallModel.lean).  The square root `sq`,
`scipy.ndimage.label` and the number `2/np.pi` are parameters.  Rounding is not modelled.
-/

namespace IMT.Detect

open Centre (Lab Pick zonesCenters)

/-- The velocities and the steps `axe[1] - axe[0]` used by `get_gamma`, vortex_criterions.py:222-224, 229-230. -/
def velocities (f : VF) : Crit.Vel Rat where
  vx a b := (f.cx.get a.toNat b.toNat).getD 0
  vy a b := (f.cy.get a.toNat b.toNat).getD 0
  dx := f.ax.getD 1 0 - f.ax.getD 0 0
  dy := f.ay.getD 1 0 - f.ay.getD 0 0

/-- `get_gamma(vectorfield, radius=r, ind=True, kind='gamma1')`, vd.py:3273 and vortex_criterions.py:153-307: the values are zero at the masked points
(241, 303-305), and the unit is none. -/
def gammaField (sq : Rat → Rat) (f : VF) (r : Nat) : Res SF :=
  match Crit.criterion sq .gamma1 f.ax.length f.ay.length (velocities f) (fun a b => f.mask.get a.toNat b.toNat) r with
  | .error e => .error e
  | .ok h => SF.importArrays f.ax f.ay ⟨f.ax.length, f.ay.length, fun i j => some ((h i j).getD 0)⟩
      (.array ⟨f.ax.length, f.ay.length, fun i j => (h i j).isNone⟩) f.ux f.uy Sym.one

/-- `gamma.crop_masked_border(hard=True, inplace=True)`, vd.py:3274; the loop has at most one turn for each row and each column (C20_hard_terminates). -/
def gammaCropped (g : SF) : Res SF :=
  match g.cropMaskedHard (g.ax.length + g.ay.length) with
  | none => .error .exception
  | some (.error e) => .error e
  | some (.ok none) => .ok g
  | some (.ok (some h)) => .ok h

/-- `get_critical_points(kind='gam_vort', window_size=r)`, vd.py:2698-2699, 2732-2735, 3246-3282: the points given as `foc` and as `foc_c`; `c` is
`2/np.pi`. -/
def gamVort (sq : Rat → Rat) (L : Lab) (pick : Pick) (c : Rat) (f : VF) (r : Nat) : Res (List (Rat × Rat) × List (Rat × Rat)) :=
  if f.mask.any id then .error .valueError
  else match gammaField sq f r with
    | .error e => .error e
    | .ok g => match gammaCropped g with
      | .error e => .error e
      | .ok h => match zonesCenters L pick (-1, -c) false .ponderated h with
        | .error e => .error e
        | .ok a => match zonesCenters L pick (c, 1) false .ponderated h with
          | .error e => .error e
          | .ok b => .ok (b.getD [], a.getD [])

end IMT.Detect
