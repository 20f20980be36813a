import Verif.Prelude
import Mathlib.Analysis.SpecialFunctions.Pow.Real
import Mathlib.Analysis.SpecialFunctions.Log.Basic
import Mathlib.Analysis.SpecialFunctions.Trigonometric.Basic
import Mathlib.MeasureTheory.Integral.IntervalIntegral.Basic

/-!
Model of the analytic boundary layers of `boundary_layer/boundary_layer.py`, over the real numbers.

`x**.5` is the real square root and `x**a` the real power, so the model speaks about positive velocities, viscosities and
positions (python gives NaN or complex numbers elsewhere).  The quadrature of scipy is the exact integral; the solutions of
differential equations (`odeint`, `ode`) are parameters.  The checks of types are not modelled.
-/

namespace IMT.Bl

/-! ### `BlasiusBL` -/

/-- boundary_layer.py:37-63, `BlasiusBL(Uinf, nu, rho)`. -/
structure Blasius where
  U : ℝ
  nu : ℝ
  rho : ℝ

/-- The argument `bl_perc`. -/
inductive Perc where
  | p95 | p99 | other
  deriving DecidableEq

/-- boundary_layer.py:109-114. -/
noncomputable def Perc.coef : Perc → Res ℝ
  | .p95 => .ok 3.92
  | .p99 => .ok 4.91
  | .other => .error .valueError

/-- One entry of each of the seven arrays returned by `get_BL_properties`. -/
structure Props where
  delta : ℝ
  theta : ℝ
  dstar : ℝ
  H : ℝ
  Cf : ℝ
  Re : ℝ
  tau : ℝ

/-- `get_Rex`, boundary_layer.py:65-73. -/
noncomputable def Blasius.re (b : Blasius) (x : ℝ) : ℝ := b.U * x / b.nu

/-- The first branch of the loop, boundary_layer.py:128-134. -/
noncomputable def edge : Props := ⟨0, 0, 0, 2.59, 0, 0, 0⟩

/-- The laminar branch, boundary_layer.py:138-142; `c` is `perc_coef_lam`. -/
noncomputable def Blasius.laminar (b : Blasius) (c x : ℝ) : Props where
  delta := x * c / √(b.re x)
  theta := 0.664 * √(b.nu * x / b.U)
  dstar := 0.664 * √(b.nu * x / b.U) * 2.59
  H := 2.59
  Cf := 0.664 / √(b.re x)
  Re := b.re x
  tau := 0.664 / √(b.re x) * (1 / 2) * b.rho * b.U ^ 2

/-- The turbulent branch, boundary_layer.py:146-150. -/
noncomputable def Blasius.turbulent (b : Blasius) (x : ℝ) : Props where
  delta := x * 0.3806 / b.re x ^ (0.2 : ℝ)
  theta := 0
  dstar := 0 * 2.59
  H := 2.59
  Cf := 0.0592 / b.re x ^ (0.2 : ℝ)
  Re := b.re x
  tau := 0.0592 / b.re x ^ (0.2 : ℝ) * (1 / 2) * b.rho * b.U ^ 2

open Classical in
/-- One turn of the loop of `get_BL_properties`, boundary_layer.py:127-150.  `NotImplementedError` is `Err.exception`. -/
noncomputable def Blasius.turn (b : Blasius) (turb : Bool) (q : Perc) (c x : ℝ) : Res Props :=
  if x = 0 then .ok edge
  else if b.re x < 5e5 ∧ turb = false then .ok (b.laminar c x)
  else if q = .p95 then .error .exception
  else .ok (b.turbulent x)

/-- The loop: the first error ends it. -/
noncomputable def Blasius.turns (b : Blasius) (turb : Bool) (q : Perc) (c : ℝ) : List ℝ → Res (List Props)
  | [] => .ok []
  | x :: l =>
    match b.turn turb q c x with
    | .error e => .error e
    | .ok p => match b.turns turb q c l with
      | .error e => .error e
      | .ok r => .ok (p :: r)

/-- `get_BL_properties(x, allTurbulent, bl_perc)`, boundary_layer.py:75-158, for an array of positions. -/
noncomputable def Blasius.properties (b : Blasius) (turb : Bool) (q : Perc) (xs : List ℝ) : Res (List Props) :=
  match q.coef with
  | .error e => .error e
  | .ok c => b.turns turb q c xs

/-- `delta_perso`, boundary_layer.py:191. -/
noncomputable def confined (delta h : ℝ) : ℝ := delta * (1 - 0.26547 * delta / h)

/-- `get_thickness_with_confinement(x, h, allTurbulent)`, boundary_layer.py:160-195: the ordinates of the profile, one for
each position. -/
noncomputable def Blasius.withConfinement (b : Blasius) (turb : Bool) (h : ℝ) (xs : List ℝ) : Res (List ℝ) :=
  match b.properties turb .p99 xs with
  | .error e => .error e
  | .ok r => .ok (r.map fun p => confined p.delta h)

open Classical in
/-- `get_x_from_delta(delta, allTurbulent)`, boundary_layer.py:289-299. -/
noncomputable def Blasius.xFromDelta (b : Blasius) (turb : Bool) (delta : ℝ) : ℝ :=
  if b.re (delta ^ 2 * b.U / (4.92 ^ 2 * b.nu)) > 5e5 ∨ turb = true then
    (delta * b.U ^ (0.2 : ℝ) / (0.3806 * b.nu ^ (0.2 : ℝ))) ^ ((1 : ℝ) / 0.8)
  else delta ^ 2 * b.U / (4.92 ^ 2 * b.nu)

/-- `f_deriv`, boundary_layer.py:221-227. -/
noncomputable def blasiusDeriv (F : ℝ × ℝ × ℝ) : ℝ × ℝ × ℝ := (F.2.1, F.2.2, -(1 / 2) * F.1 * F.2.2)

/-- `theta`, boundary_layer.py:235: the variable of the laminar profile. -/
noncomputable def Blasius.similar (b : Blasius) (x y : ℝ) : ℝ := y / (√x * √(b.nu / b.U))

/-- The laminar `get_profile(x, y)`, boundary_layer.py:236-241, for the second component `f1` of the solution of
`odeint(f_deriv, f0, theta)`. -/
noncomputable def Blasius.velocity (b : Blasius) (f1 : ℝ → ℝ) (x y : ℝ) : ℝ := f1 (b.similar x y) * b.U

/-! ### `FalknerSkanBL` -/

/-- boundary_layer.py:304-320, `FalknerSkanBL(nu, m, c0, L)`. -/
structure Falkner where
  nu : ℝ
  m : ℝ
  c0 : ℝ
  L : ℝ

/-- `self.beta`, boundary_layer.py:320. -/
noncomputable def Falkner.beta (k : Falkner) : ℝ := 2 * k.m / (k.m + 1)

/-- `get_u_e`, boundary_layer.py:322-326. -/
noncomputable def Falkner.ue (k : Falkner) (x : ℝ) : ℝ := k.c0 * (x / k.L) ^ k.m

/-- `get_mu`, boundary_layer.py:328-333. -/
noncomputable def Falkner.mu (k : Falkner) (x y : ℝ) : ℝ :=
  y * √(k.c0 * (k.m + 1) / (2 * k.nu * k.L)) * (x / k.L) ^ ((k.m - 1) / 2)

/-- `get_y`, boundary_layer.py:335-341 (the second `return` is never reached). -/
noncomputable def Falkner.y (k : Falkner) (x mu : ℝ) : ℝ := mu * √(k.nu * x / k.ue x)

/-- `deriv`, boundary_layer.py:377-382. -/
noncomputable def Falkner.deriv (k : Falkner) (Y : ℝ × ℝ × ℝ) : ℝ × ℝ × ℝ :=
  (Y.2.1, Y.2.2, -(k.m + 1) / 2 * Y.1 * Y.2.2 - k.m * (1 - Y.2.1 ^ 2))

/-- `get_profile(x)`, boundary_layer.py:489-513: the pairs `(y, vx)`, for the second component `f1` of the solution and the
values `mu`. -/
noncomputable def Falkner.profile (k : Falkner) (f1 : ℝ → ℝ) (mus : List ℝ) (x : ℝ) : List (ℝ × ℝ) :=
  mus.map fun mu => (k.y x mu, f1 mu * k.ue x)

/-- The two ends of the interval of the shooting method, boundary_layer.py:420-435: abscissae `interval_Y3` and responses
`interval_Y1p`. -/
structure Bracket where
  a : ℝ
  b : ℝ
  ya : ℝ
  yb : ℝ

/-- `new_mid_Y3`, boundary_layer.py:441-444. -/
noncomputable def Bracket.mid (k : Bracket) : ℝ :=
  (k.a * |1 - k.yb| + k.b * |1 - k.ya|) / (|1 - k.yb| + |1 - k.ya|)

open Classical in
/-- boundary_layer.py:459-464: the new interval once the response `y` at `mid` is known. -/
noncomputable def Bracket.cut (k : Bracket) (mid y : ℝ) : Bracket :=
  if (k.ya - 1) * (y - 1) < 0 then { k with b := mid, yb := y } else { k with a := mid, ya := y }

/-- `err`, boundary_layer.py:465. -/
noncomputable def shotError (y : ℝ) : ℝ := |(y - 1) / ((y + 1) / 2)|

open Classical in
/-- The loop of boundary_layer.py:440-479.  `g` is the value of `f'` at the end of the integration started with `f''(0)`;
`n` is the number of turns allowed after this one, `max_it + 1` at the beginning; `mid` is the last tested value.  The `break`
of line 477 is inside of the test of `verbose`. -/
noncomputable def shoot (g : ℝ → ℝ) (relerr : ℝ) (verbose : Bool) : ℕ → ℝ → Bracket → ℝ
  | 0, mid, k => if |k.mid - mid| < 1e-10 then mid else k.mid
  | n + 1, mid, k =>
    if |k.mid - mid| < 1e-10 then mid
    else if shotError (g k.mid) < relerr ∧ verbose = true then k.mid
    else shoot g relerr verbose n k.mid (k.cut k.mid (g k.mid))

/-- The value of `f''(0)` used by `get_f_function(relerr, max_it, verbose)`, boundary_layer.py:436-480, from the bracket
found on the first guesses. -/
noncomputable def wallSlope (g : ℝ → ℝ) (relerr : ℝ) (maxIt : ℕ) (verbose : Bool) (k : Bracket) : ℝ :=
  shoot g relerr verbose (maxIt + 1) 1e30 k

/-! ### `ThwaitesBL` -/

/-- boundary_layer.py:518-538, `ThwaitesBL(u_e, nu)`. -/
structure Thwaites where
  ue : ℝ → ℝ
  nu : ℝ

/-- `u_e_pow`, boundary_layer.py:540-545, with the exponent `emp_coef_2 - 1`. -/
noncomputable def Thwaites.pow (t : Thwaites) (x : ℝ) : ℝ := t.ue x ^ (5.68 - 1 : ℝ)

open Classical in
/-- `get_momentum_thikness` for a number, boundary_layer.py:562-568. -/
noncomputable def Thwaites.theta (t : Thwaites) (x : ℝ) : Option ℝ :=
  if t.ue x ^ (5.68 : ℝ) = 0 then none
  else some √(0.441 * t.nu / t.ue x ^ (5.68 : ℝ) * ∫ s in (0 : ℝ)..x, t.pow s)

/-- `np.gradient(values)` without spacing, numpy's rule for an array: differences at the ends, half differences inside.
`i` is an index of the array. -/
noncomputable def gradient (l : List ℝ) (i : ℕ) : ℝ :=
  if i = 0 then l.getD 1 0 - l.getD 0 0
  else if i + 1 = l.length then l.getD i 0 - l.getD (i - 1) 0
  else (l.getD (i + 1) 0 - l.getD (i - 1) 0) / 2

/-- `lambd` at the `i`-th position, boundary_layer.py:603-609. -/
noncomputable def Thwaites.lambda (t : Thwaites) (xs : List ℝ) (i : ℕ) : Option ℝ :=
  (t.theta (xs.getD i 0)).map fun d => d ^ 2 / t.nu * gradient (xs.map t.ue) i

open Classical in
/-- `H`, boundary_layer.py:611-618; `none` is NaN. -/
noncomputable def shapeOf (l : ℝ) : Option ℝ :=
  if 0 ≤ l ∧ l < 0.1 then some (2.61 - 3.75 * l + 5.24 * l ^ 2)
  else if l < 0 ∧ -0.1 < l then some (2.088 + 0.0731 / (l + 0.14))
  else none

/-- `lambd, delta2, delta_star, H` at the `i`-th position, boundary_layer.py:579-622. -/
noncomputable def Thwaites.properties (t : Thwaites) (xs : List ℝ) (i : ℕ) :
    Option ℝ × Option ℝ × Option ℝ × Option ℝ :=
  (t.lambda xs i, t.theta (xs.getD i 0),
    (t.lambda xs i).bind fun l => (shapeOf l).bind fun H => (t.theta (xs.getD i 0)).map fun d => H * d,
    (t.lambda xs i).bind shapeOf)

/-! ### `WallLaw`, `WakeLaw` -/

/-- The two classes. -/
inductive Law where
  | wall | wake
  deriving DecidableEq

/-- The attributes of `WallLaw`, boundary_layer.py:642-664. -/
structure Wall where
  h : ℝ
  tau : ℝ
  delta : ℝ
  nu : ℝ
  rho : ℝ

open Classical in
/-- `WallLaw(h, tau, delta, visc_c, rho)`, boundary_layer.py:642-664. -/
noncomputable def Wall.make (h tau delta nu rho : ℝ) : Res Wall :=
  if h ≤ 0 then .error .valueError
  else if tau < 0 then .error .valueError
  else .ok ⟨h, tau, delta, nu, rho⟩

/-- `self.Utau`, boundary_layer.py:661. -/
noncomputable def Wall.utau (w : Wall) : ℝ := √(w.tau / w.rho)

/-- `yplus`, boundary_layer.py:724. -/
noncomputable def Wall.plus (w : Wall) (y : ℝ) : ℝ := y * w.utau / w.nu

/-- `_inner_turb` and `_outer_turb`, boundary_layer.py:753-763 and, for the wake, 793-814; `yp` is the distance in wall
units. -/
noncomputable def Wall.turb (w : Wall) : Law → ℝ → ℝ
  | .wall, yp => 1 / 0.4 * Real.log yp + 5.1
  | .wake, yp =>
    1 / 0.4 * Real.log (w.utau * (yp / w.utau * w.nu) / w.nu) + 5.1 +
      2 * 0.55 / 0.4 * Real.sin (Real.pi * (yp / w.utau * w.nu) / (2 * w.delta)) ^ 2

open Classical in
/-- One turn of the loop of `get_profile`, boundary_layer.py:728-739. -/
noncomputable def Wall.velocity (w : Wall) (k : Law) (y : ℝ) : ℝ :=
  if w.plus y < 0 then 0
  else if w.plus y ≤ 11.63 then w.plus y * w.utau
  else if w.plus y ≤ 450 then w.turb k (w.plus y) * w.utau
  else if y ≤ w.delta then w.turb k (w.plus y) * w.utau
  else w.turb k (w.delta * w.utau / w.nu) * w.utau

open Classical in
/-- `get_profile(y)`, boundary_layer.py:703-742, for a numpy array: the ordinates given to `Profile`. -/
noncomputable def Wall.profile (w : Wall) (k : Law) (ys : List ℝ) : Res (List ℝ) :=
  if ∃ y ∈ ys, y < 0 then .error .valueError
  else if ∃ y ∈ ys, y > w.h then .error .valueError
  else .ok (ys.map (w.velocity k))

end IMT.Bl
