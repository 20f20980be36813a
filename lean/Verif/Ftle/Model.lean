import Verif.Prelude
import Mathlib.Analysis.SpecialFunctions.Log.Basic
import Mathlib.Analysis.SpecialFunctions.Pow.Real
import Mathlib.Analysis.Complex.Norm

/-!
Model of `vortex_criterions/FTLE/ftle.py`.  A point or a velocity of the plane is a complex number; the velocity given by the
spline of scipy is a parameter.
-/

namespace IMT.Ftle

/-! ### displacement of a particle -/

/-- `fun`, ftle.py:128-135: the velocity, reversed for a negative time. -/
def velocity (v : ℂ → ℂ) (reverse : Bool) (x : ℂ) : ℂ := if reverse then -v x else v x

/-- `k1`, ftle.py:139. -/
noncomputable def k1 (f : ℂ → ℂ) (x : ℂ) (h : ℝ) : ℂ := f x * h
/-- `k2`, ftle.py:140. -/
noncomputable def k2 (f : ℂ → ℂ) (x : ℂ) (h : ℝ) : ℂ := f (x + k1 f x h / 4) * h
/-- `k3`, ftle.py:141. -/
noncomputable def k3 (f : ℂ → ℂ) (x : ℂ) (h : ℝ) : ℂ := f (x + 3 / 32 * k1 f x h + 9 / 32 * k2 f x h) * h
/-- `k4`, ftle.py:142-143. -/
noncomputable def k4 (f : ℂ → ℂ) (x : ℂ) (h : ℝ) : ℂ :=
  f (x + 1932 / 2197 * k1 f x h - 7200 / 2197 * k2 f x h + 7296 / 2197 * k3 f x h) * h
/-- `k5`, ftle.py:144-145. -/
noncomputable def k5 (f : ℂ → ℂ) (x : ℂ) (h : ℝ) : ℂ :=
  f (x + 439 / 216 * k1 f x h - 8 * k2 f x h + 3680 / 513 * k3 f x h - 845 / 4104 * k4 f x h) * h
/-- `k6`, ftle.py:146-147. -/
noncomputable def k6 (f : ℂ → ℂ) (x : ℂ) (h : ℝ) : ℂ :=
  f (x - 8 / 27 * k1 f x h + 2 * k2 f x h - 3544 / 2565 * k3 f x h + 1859 / 4104 * k4 f x h - 11 / 40 * k5 f x h) * h

/-- `new_xy`, ftle.py:148-149. -/
noncomputable def rk4 (f : ℂ → ℂ) (x : ℂ) (h : ℝ) : ℂ :=
  x + 25 / 216 * k1 f x h + 1408 / 2565 * k3 f x h + 2197 / 4104 * k4 f x h - 1 / 5 * k5 f x h

/-- `best_xy`, ftle.py:150-151. -/
noncomputable def rk5 (f : ℂ → ℂ) (x : ℂ) (h : ℝ) : ℂ :=
  x + 16 / 135 * k1 f x h + 6656 / 12825 * k3 f x h + 28561 / 56430 * k4 f x h - 9 / 50 * k5 f x h + 2 / 55 * k6 f x h

/-- A time step: a number, an infinity (a division by zero) or NaN. -/
inductive Dt where
  | num (h : ℝ) | inf | nan

open Classical in
/-- `((rel_err*rk_dt)/(2.*err))**.25`, ftle.py:152-155, with `a` and `b` the numerator and the denominator of `err`. -/
noncomputable def ideal (relErr h a b : ℝ) : Dt :=
  if b = 0 then (if a = 0 then .nan else .num 0)
  else if a = 0 then (if h = 0 then .nan else .inf)
  else .num ((relErr * h / (2 * (a / b))) ^ (1 / 4 : ℝ))

open Classical in
/-- `dampl*rk_dt + (1 - dampl)*new_rk_dt`, ftle.py:156. -/
noncomputable def damped (dampl h : ℝ) : Dt → Dt
  | .num q => .num (dampl * h + (1 - dampl) * q)
  | .inf => if dampl = 1 then .nan else .inf
  | .nan => .nan

/-- The next time step, ftle.py:152-156. -/
noncomputable def next (f : ℂ → ℂ) (relErr dampl : ℝ) (x : ℂ) (h : ℝ) : Dt :=
  damped dampl h (ideal relErr h ‖rk5 f x h - rk4 f x h‖ ‖rk4 f x h - x‖)

/-- The extent of the field: `axe_x[0]`, `axe_x[-1]`, `axe_y[0]`, `axe_y[-1]`. -/
structure Box where
  xa : ℝ
  xb : ℝ
  ya : ℝ
  yb : ℝ

/-- The stopping test, ftle.py:169-174. -/
def Box.out (k : Box) (x : ℂ) : Prop := x.re < k.xa ∨ x.re > k.xb ∨ x.im < k.ya ∨ x.im > k.yb

open Classical in
/-- The time loop, ftle.py:167-182, for at most `n` rounds.  With a NaN step the position becomes NaN and no test ever holds: the
loop does not end. -/
noncomputable def loop (f : ℂ → ℂ) (k : Box) (relErr dampl dt : ℝ) : ℕ → ℂ → ℝ → Dt → Bool → Option (ℂ × Bool)
  | 0, _, _, _, _ => none
  | n + 1, x, t, h, tEnd =>
    if k.out x then some (x, true)
    else if tEnd then some (x, false)
    else match h with
      | .nan => none
      | .inf => loop f k relErr dampl dt n (rk4 f x (dt - t)) (t + (dt - t)) (next f relErr dampl x (dt - t)) true
      | .num h =>
        if t + h > dt then loop f k relErr dampl dt n (rk4 f x (dt - t)) (t + (dt - t)) (next f relErr dampl x (dt - t)) true
        else loop f k relErr dampl dt n (rk4 f x h) (t + h) (next f relErr dampl x h) false

open Classical in
/-- The first step, ftle.py:162. -/
noncomputable def firstDt (f : ℂ → ℂ) (dx : ℝ) (x : ℂ) : Dt := if ‖f x‖ = 0 then .inf else .num (dx / ‖f x‖)

open Classical in
/-- `get_pts_displacement(xy, dt, rel_err, dampl)`, ftle.py:87-182, with `n` rounds allowed; `none`: not ended. -/
noncomputable def displacement (v : ℂ → ℂ) (k : Box) (dx : ℝ) (x : ℂ) (dt relErr dampl : ℝ) (n : ℕ) : Res (Option (ℂ × Bool)) :=
  if dt = 0 then .error .valueError
  else if relErr ≤ 0 then .error .valueError
  else if dampl < 0 ∨ dampl > 1 then .error .valueError
  else .ok (loop (velocity v (decide (dt < 0))) k relErr dampl |dt| n x 0 (firstDt (velocity v (decide (dt < 0))) dx x) false)

/-! ### the points -/

/-- `dx`, `dy` of `generate_point_field`, ftle.py:79-80. -/
noncomputable def spacing (a b res : ℝ) : ℝ := (b - a) / (res + 1)

/-- `delta`, ftle.py:81. -/
noncomputable def delta (dx dy : ℝ) : ℝ := √(dx ^ 2 + dy ^ 2) / 2

/-- `np.arange(start, stop, h)`, in exact arithmetic. -/
noncomputable def arange (start stop h : ℝ) : List ℝ := (List.range ⌈(stop - start) / h⌉.toNat).map fun k : ℕ => start + k * h

/-- `pos_x` and `pos_y`, ftle.py:82-83. -/
noncomputable def positions (a b d : ℝ) : List ℝ := arange (a + d / 2) b d

/-! ### the exponent -/

/-- `np.gradient` along one axis of `n` points, ftle.py:254-255. -/
noncomputable def gradient (n : ℕ) (h : ℝ) (g : ℕ → ℝ) (i : ℕ) : ℝ :=
  if i = 0 then (g 1 - g 0) / h else if i + 1 = n then (g i - g (i - 1)) / h else (g (i + 1) - g (i - 1)) / (2 * h)

/-- The points a gradient is computed with. -/
def used (n i : ℕ) : List ℕ := if i = 0 then [1, 0] else if i + 1 = n then [i, i - 1] else [i + 1, i - 1]

/-- The largest eigenvalue of the symmetric matrix `[[a, b], [b, d]]`, ftle.py:266-267. -/
noncomputable def eigMax (a b d : ℝ) : ℝ := (a + d + √((a - d) ^ 2 + 4 * b ^ 2)) / 2

/-- `Delta = phi phi^T` and its largest eigenvalue, ftle.py:263-267. -/
noncomputable def stretch (xx xy yx yy : ℝ) : ℝ := eigMax (xx ^ 2 + xy ^ 2) (xx * yx + xy * yy) (yx ^ 2 + yy ^ 2)

/-- The value of `get_FTLE` at the point `i, j`, ftle.py:251-269: `pos i j` is the place of the particle after the displacement, `out i j`
whether it left.  Masked (`none`) where a neighbour needed by the gradient has left.  (The logarithm of zero is not modelled.) -/
noncomputable def ftle (nx ny : ℕ) (dx dy dt : ℝ) (pos : ℕ → ℕ → ℂ) (out : ℕ → ℕ → Bool) (i j : ℕ) : Option ℝ :=
  if (used nx i).any (fun a => out a j) || (used ny j).any (fun b => out i b) then none
  else some (1 / |dt| * Real.log (√(stretch
    (gradient nx dx (fun a => (pos a j).re) i) (gradient ny dy (fun b => (pos i b).re) j)
    (gradient nx dx (fun a => (pos a j).im) i) (gradient ny dy (fun b => (pos i b).im) j))))

/-- The place of a displaced particle. -/
def placeOf : Res (Option (ℂ × Bool)) → ℂ
  | .ok (some q) => q.1
  | _ => 0

/-- Whether a displaced particle left the field. -/
def leftOf : Res (Option (ℂ × Bool)) → Bool
  | .ok (some q) => q.2
  | _ => false

/-- The particle `a, b` of the points of `generate_point_field`, displaced, ftle.py:235-250. -/
noncomputable def particle (v : ℂ → ℂ) (k : Box) (dx sx sy dt relErr dampl : ℝ) (n a b : ℕ) : Res (Option (ℂ × Bool)) :=
  displacement v k dx ⟨(positions k.xa k.xb (delta sx sy)).getD a 0, (positions k.ya k.yb (delta sx sy)).getD b 0⟩ dt relErr dampl n

open Classical in
/-- `get_FTLE(res, dt, rel_err, dampl)` at the point `i, j`, ftle.py:220-275, each particle being given `n` rounds.  `np.gradient` needs
two points along each axis. -/
noncomputable def getFtle (v : ℂ → ℂ) (k : Box) (dx resX resY dt relErr dampl : ℝ) (n i j : ℕ) : Res (Option ℝ) :=
  if (positions k.xa k.xb (delta (spacing k.xa k.xb resX) (spacing k.ya k.yb resY))).length < 2 ∨
      (positions k.ya k.yb (delta (spacing k.xa k.xb resX) (spacing k.ya k.yb resY))).length < 2 then .error .valueError
  else if dt = 0 ∨ relErr ≤ 0 ∨ dampl < 0 ∨ dampl > 1 then .error .valueError
  else .ok (ftle (positions k.xa k.xb (delta (spacing k.xa k.xb resX) (spacing k.ya k.yb resY))).length
    (positions k.ya k.yb (delta (spacing k.xa k.xb resX) (spacing k.ya k.yb resY))).length
    (spacing k.xa k.xb resX) (spacing k.ya k.yb resY) dt
    (fun a b => placeOf (particle v k dx (spacing k.xa k.xb resX) (spacing k.ya k.yb resY) dt relErr dampl n a b))
    (fun a b => leftOf (particle v k dx (spacing k.xa k.xb resX) (spacing k.ya k.yb resY) dt relErr dampl n a b)) i j)

end IMT.Ftle
