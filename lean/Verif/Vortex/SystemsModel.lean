import Verif.Profile.Model
import Mathlib.Data.Rat.Floor

/-!
Model of the flows in the background of the two systems made by hand, `HsvSystem` and `StepSystem` (`/repo/IMTreatment/vortex_creation/vortex_creation.py`).  The
velocity of the boundary layer at a height (`BlasiusBL.get_profile`, laminar) and the potential flow around the obstacle (`potential_flow`) are parameters, with
rational values.
-/

namespace IMT.Systems

open IMT.Profile

/-- The table of a function at `np.linspace(a, b, n)`, vortex_creation.py:1127, 1138-1141 and 1177. -/
def table (n : Nat) (a b : Rat) (g : Rat → Rat) : List (Rat × Rat) :=
  (List.range n).map fun k : Nat => (a + (b - a) * k / ((n : Rat) - 1), g (a + (b - a) * k / ((n : Rat) - 1)))

/-- `spinterp.interp1d(x, y, kind='linear', bounds_error=False, fill_value=0)`, vortex_creation.py:1128-1130, 1142-1144 and 1178-1180. -/
def orZero (t : List (Rat × Rat)) (v : Rat) : Rat := (lin t v).getD 0

/-- `HsvSystem._get_bl_profile(u_D, delta, h)`, vortex_creation.py:1124-1131; `u` is the velocity at a height, far from the wall `u_D`. -/
def hsvLayer (u : Rat → Rat) (h y : Rat) : Rat := orZero (table 100 0 h u) y

/-- `HsvSystem._get_velocity_slowdown(D)`, vortex_creation.py:1134-1145: `s` is the velocity of the potential flow in front of the obstacle, 1 far from it.  The
profile on the line starts from 0, then is moved back by `5*D`. -/
def hsvSlow (s : Rat → Rat) (D x : Rat) : Rat := orZero (table 200 (-(5 * D)) 0 s) x

/-- `bg_field` of `HsvSystem`, vortex_creation.py:1117-1119. -/
def hsvFlow (u s : Rat → Rat) (D h x y : Rat) : Rat × Rat := (hsvLayer u h y * hsvSlow s D x, 0)

/-- `StepSystem._get_bl_profile(delta, h, u_D)`, vortex_creation.py:1174-1181. -/
def stepLayer (u : Rat → Rat) (uD h y : Rat) : Rat := orZero (table 100 0 h fun y => u y / uD) y

/-- The last value of `np.arange(0, h + H/10., H/10.)`, vortex_creation.py:1190. -/
def topOf (H h : Rat) : Rat := ((⌈(h + H / 10) / (H / 10)⌉ : Rat) - 1) * (H / 10)

/-- `StepSystem._get_velocity_deviation(H, h, u_D)`, vortex_creation.py:1184-1199: inside of the grid the potential flow `p` (interpolated on the grid, a
parameter), which is `u_D` far from the step; outside, the values 1 and 0 given to `interp2d`. -/
def stepDev (p : Rat → Rat → Rat × Rat) (H h x y : Rat) : Rat × Rat :=
  if x < -(3 * H) ∨ 0 < x ∨ y < 0 ∨ topOf H h < y then (1, 0) else p x y

/-- `bg_field` of `StepSystem`, vortex_creation.py:1164-1170. -/
def stepFlow (u : Rat → Rat) (p : Rat → Rat → Rat × Rat) (uD H h x y : Rat) : Rat × Rat :=
  ((stepDev p H h x y).1 * stepLayer u uD h y * stepLayer u uD h (-x), (stepDev p H h x y).2 * stepLayer u uD h (-x))

end IMT.Systems
