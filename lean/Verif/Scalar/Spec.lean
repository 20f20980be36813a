import Verif.Scalar.Model

/-!
Specification vocabulary for scalar fields: what a user can read from a field, independently of how the
arrays are laid out.
-/

namespace IMT.SF

/-- At the grid point of coordinates `(x, y)` the field shows `r`: `some v` is the value `v`, `none` is a
masked point.  No statement holds for points that are not grid points. -/
def Reads (f : SF) (x y : Rat) (r : Option Rat) : Prop :=
  ∃ i j : Nat, f.ax[i]? = some x ∧ f.ay[j]? = some y ∧ f.cell i j = r

/-- Two fields that no user can tell apart: same axes, same units, same shown values, same mask. -/
structure Equal (f g : SF) : Prop where
  ax : f.ax = g.ax
  ay : f.ay = g.ay
  ux : f.ux = g.ux
  uy : f.uy = g.uy
  uv : f.uv = g.uv
  cell : ∀ i j, i < f.ax.length → j < f.ay.length → f.cell i j = g.cell i j
  mask : ∀ i j, i < f.ax.length → j < f.ay.length → f.mask.get i j = g.mask.get i j

/-- Rotation of the plane by `k` quarter turns in the trigonometric direction. -/
def turn (k : Int) (p : Rat × Rat) : Rat × Rat :=
  if k % 4 = 0 then p
  else if k % 4 = 1 then (-p.2, p.1)
  else if k % 4 = 2 then (-p.1, -p.2)
  else (p.2, -p.1)

/-- The factor applied by an optional scaling argument. -/
def factor : Option Unum → Rat
  | none => 1
  | some u => u.num

/-- The unit factor of an optional scaling argument. -/
def usym : Option Unum → Sym
  | none => Sym.one
  | some u => u.sym

end IMT.SF
