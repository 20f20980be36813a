import Verif.Vector.Model
import Mathlib.Algebra.Order.Floor.Ring

/-!
Model of `/repo/IMTreatment/field_treatment/field_treatment.py`: gradients, divergence, track field, reconstruction from
gradients, fast streamlines, seeds of the streamlines, extension up to a wall.
Eigen-properties of the Jacobian are in `EigenModel.lean`. Not modelled: the VODE integrator behind
`get_streamlines` (a parameter here), the interpolation splines (a parameter), the least-squares refinement `ols=True`,
profiles given to `get_gradients`.
-/

namespace IMT.Treat

/-! ### gradients -/

/-- One line of `np.gradient(masked_array, h)` (edge order 1): centred differences inside, one-sided ones at both ends.  The
arithmetic of masked arrays masks (`none`) a difference one of whose operands is masked. -/
def diff1 (n : Nat) (h : Rat) (g : Nat → Option Rat) (i : Nat) : Option Rat :=
  if i = 0 then nanOp (fun a b => (b - a) / h) (g 0) (g 1)
  else if i = n - 1 then nanOp (fun a b => (b - a) / h) (g (n - 2)) (g (n - 1))
  else nanOp (fun a b => (b - a) / (2 * h)) (g (i - 1)) (g (i + 1))

/-- `axe[1] - axe[0]`, field_treatment.py:57-58, 93-94 (the lengths are tested by the callers). -/
def step (l : List Rat) : Rat := l.getD 1 0 - l.getD 0 0

/-- Derivative along x of the array `c` shown on the axis `ax`, field_treatment.py:59-61, 95-100. -/
def gradX (ax : List Rat) (c : Nat → Nat → Option Rat) (i j : Nat) : Option Rat :=
  diff1 ax.length (step ax) (fun k => c k j) i
/-- Derivative along y, field_treatment.py:59-61, 95-100. -/
def gradY (ay : List Rat) (c : Nat → Nat → Option Rat) (i j : Nat) : Option Rat :=
  diff1 ay.length (step ay) (fun k => c i k) j

/-- One returned gradient: values multiplied by `unit.asNumber()`, the joint mask, the normalised unit,
field_treatment.py:71-91, 112-145.  The data hidden by the mask are modelled as NaN. -/
def gradField (ax ay : List Rat) (ux uy u : Sym) (d : Nat → Nat → Option Rat) (m : Nat → Nat → Bool) : Res SF :=
  SF.importArrays ax ay ⟨ax.length, ay.length, fun i j => (d i j).map (· * SF.unitNum u)⟩
    (.array ⟨ax.length, ay.length, m⟩) ux uy (SF.unitSym u)

/-- `get_gradients(ScalarField)`, field_treatment.py:56-91. -/
def gradients (f : SF) : Res (SF × SF) :=
  if f.ax.length < 2 ∨ f.ay.length < 2 then .error .indexError
  else
    match gradField f.ax f.ay f.ux f.uy (f.uv.div f.ux) (gradX f.ax f.cell)
            (fun i j => (gradX f.ax f.cell i j).isNone || (gradY f.ay f.cell i j).isNone),
          gradField f.ax f.ay f.ux f.uy (f.uv.div f.uy) (gradY f.ay f.cell)
            (fun i j => (gradX f.ax f.cell i j).isNone || (gradY f.ay f.cell i j).isNone) with
    | .ok gx, .ok gy => .ok (gx, gy)
    | .error e, _ => .error e
    | _, .error e => .error e

/-- `np.ma.masked_array(field.comp_x, field.mask)`, field_treatment.py:95-97. -/
def compX (f : VF) (i j : Nat) : Option Rat := if f.mask.get i j then none else f.cx.get i j
/-- `np.ma.masked_array(field.comp_y, field.mask)`, field_treatment.py:98-100. -/
def compY (f : VF) (i j : Nat) : Option Rat := if f.mask.get i j then none else f.cy.get i j

/-- The joint mask of the four gradients, field_treatment.py:102-104. -/
def gradMask (f : VF) (i j : Nat) : Bool :=
  (gradX f.ax (compX f) i j).isNone || (gradY f.ay (compX f) i j).isNone ||
    (gradX f.ax (compY f) i j).isNone || (gradY f.ay (compY f) i j).isNone

/-- `get_gradients(VectorField)`, field_treatment.py:92-145: (dVx/dx, dVx/dy, dVy/dx, dVy/dy). -/
def gradientsV (f : VF) : Res (SF × SF × SF × SF) :=
  if f.ax.length < 2 ∨ f.ay.length < 2 then .error .indexError
  else
    match gradField f.ax f.ay f.ux f.uy (f.uv.div f.ux) (gradX f.ax (compX f)) (gradMask f),
          gradField f.ax f.ay f.ux f.uy (f.uv.div f.uy) (gradY f.ay (compX f)) (gradMask f),
          gradField f.ax f.ay f.ux f.uy (f.uv.div f.ux) (gradX f.ax (compY f)) (gradMask f),
          gradField f.ax f.ay f.ux f.uy (f.uv.div f.uy) (gradY f.ay (compY f)) (gradMask f) with
    | .ok a, .ok b, .ok c, .ok d => .ok (a, b, c, d)
    | .error e, _, _, _ => .error e
    | _, .error e, _, _ => .error e
    | _, _, .error e, _ => .error e
    | _, _, _, .error e => .error e

/-- `get_divergence(VectorField)`, field_treatment.py:602-604. -/
def divergence (f : VF) : Res SF :=
  match gradientsV f with
  | .ok (ux, _, _, vy) => ux.add vy
  | .error e => .error e

/-- `get_grad_field`, field_treatment.py:545-583 (`true` is direction 'x'): the unit of the values is the one of the
original field. -/
def gradFieldV (f : VF) (x : Bool) : Res VF :=
  match gradientsV f with
  | .ok (a, b, c, d) =>
    let gx := if x then a else c
    let gy := if x then b else d
    VF.importArrays f.ax f.ay gx.values gy.values (.bool false) f.ux f.uy f.uv
  | .error e => .error e

/-! ### track field -/

/-- `get_track_field`, field_treatment.py:585-596. -/
def trackField (f : VF) : Res VF :=
  VF.importArrays f.ax f.ay (VF.opp f.cy) f.cx (.array f.mask) f.ux f.uy f.uv

/-- The field integrated by `get_fieldlines`, field_treatment.py:979-981 (the component setters, core/vectorfield.py:297-341,
touch neither the mask nor the other component). -/
def fieldlineField (f : VF) : VF := { f with cx := f.cy, cy := VF.opp f.cx }

/-- `get_tracklines(VF, xys, reverse)`, field_treatment.py:990-1030, for a given streamline routine
`solve field seeds reverse`: `reverse` is not forwarded and takes its default. -/
def tracklines {α : Type} (solve : VF → List (Rat × Rat) → Bool → α) (f : VF) (xys : List (Rat × Rat)) (_reverse : Bool) :
    Res α := (trackField f).map fun t => solve t xys false

/-- `get_fieldlines(VF, xys, reverse)`, field_treatment.py:949-987. -/
def fieldlines {α : Type} (solve : VF → List (Rat × Rat) → Bool → α) (f : VF) (xys : List (Rat × Rat)) (reverse : Bool) : α :=
  solve (fieldlineField f) xys reverse

/-! ### reconstruction -/

/-- A real array under construction. -/
abbrev Arr := Nat → Nat → Rat

/-- `dx*(g[i, j] + g[i', j'])/2`. -/
def trap (h : Rat) (a b : Rat) : Rat := h * (a + b) / 2

/-- A border line integrated upwards from its first point: `u[k] = u[k-1] + h*(g[k-1] + g[k])/2`, `u[0] = 0`,
field_treatment.py:240-245, 248-250, 259-261. -/
def up (h : Rat) (g : Nat → Rat) : Nat → Rat
  | 0 => 0
  | k + 1 => up h g k + trap h (g k) (g (k + 1))

/-- A border line integrated downwards from its last point, given as a function of the distance to the end:
`u[m-k-1] = u[m-k] - h*(g[m-k] + g[m-k-1])/2`, `u[m] = 0`, field_treatment.py:251-253, 256-258, 264-269. -/
def down (h : Rat) (g : Nat → Rat) (m : Nat) : Nat → Rat
  | 0 => 0
  | k + 1 => down h g m k - trap h (g (m - k)) (g (m - k - 1))

section Recon
variable (nx ny : Nat) (dx dy : Rat) (gx gy : Arr)

/-- Border array 1, from the corner (0, 0), field_treatment.py:238-245. -/
def b1 : Arr := fun i j => if j = 0 then up dx (fun k => gx k 0) i else if i = 0 then up dy (fun k => gy 0 k) j else 0
/-- Border array 2, from (0, ny-1), field_treatment.py:246-253. -/
def b2 : Arr := fun i j => if j = ny - 1 then up dx (fun k => gx k (ny - 1)) i
  else if i = 0 then down dy (fun k => gy 0 k) (ny - 1) (ny - 1 - j) else 0
/-- Border array 3, from (nx-1, 0), field_treatment.py:254-261. -/
def b3 : Arr := fun i j => if j = 0 then down dx (fun k => gx k 0) (nx - 1) (nx - 1 - i)
  else if i = nx - 1 then up dy (fun k => gy (nx - 1) k) j else 0
/-- Border array 4, from (nx-1, ny-1), field_treatment.py:262-269. -/
def b4 : Arr := fun i j => if j = ny - 1 then down dx (fun k => gx k (ny - 1)) (nx - 1) (nx - 1 - i)
  else if i = nx - 1 then down dy (fun k => gy (nx - 1) k) (ny - 1) (ny - 1 - j) else 0

/-- `filt_border`, field_treatment.py:271-275. -/
def onBorder (i j : Nat) : Bool := decide (j = 0) || decide (j = ny - 1) || decide (i = 0) || decide (i = nx - 1)

/-- All cells, row by row. -/
def cells : List (Nat × Nat) := (List.range nx).flatMap fun i => (List.range ny).map fun j => (i, j)

/-- `np.mean` over a list of cells. -/
def meanOver (l : List (Nat × Nat)) (u : Arr) : Rat := (l.map fun p => u p.1 p.2).sum / l.length

/-- `u[filt_border] -= np.mean(u[filt_border])`, field_treatment.py:281, 287. -/
def centreBorder (u : Arr) : Arr := fun i j =>
  if onBorder nx ny i j then u i j - meanOver ((cells nx ny).filter fun p => onBorder nx ny p.1 p.2) u else u i j

/-- `ua` before centring: array 1 joined to array 4, field_treatment.py:276-280. -/
def joinA (u1 u4 : Arr) : Arr :=
  let c := (u4 (nx - 1) 0 - u1 (nx - 1) 0 + u4 0 (ny - 1) - u1 0 (ny - 1)) / 2
  fun i j =>
    let s := u1 i j + (if i < nx - 1 ∧ j < ny - 1 then 0 else u4 i j - c)
    if (i = nx - 1 ∧ j = 0) ∨ (i = 0 ∧ j = ny - 1) then s / 2 else s

/-- `ub` before centring: array 2 joined to array 3, field_treatment.py:282-286. -/
def joinB (u2 u3 : Arr) : Arr :=
  let c := (u3 0 0 - u2 0 0 + u3 (nx - 1) (ny - 1) - u2 (nx - 1) (ny - 1)) / 2
  fun i j =>
    let s := u2 i j + (if i < nx - 1 ∧ 1 ≤ j then 0 else u3 i j - c)
    if (i = 0 ∧ j = 0) ∨ (i = nx - 1 ∧ j = ny - 1) then s / 2 else s

/-- The array `u` before the sweeps, field_treatment.py:237-288. -/
def border : Arr :=
  let ua := centreBorder nx ny (joinA nx ny (b1 dx dy gx gy) (b4 nx ny dx dy gx gy))
  let ub := centreBorder nx ny (joinB nx ny (b2 ny dx dy gx gy) (b3 nx dx dy gx gy))
  fun i j => (ua i j + ub i j) / 2

/-- Sweep 1 from the corner (0, 0), field_treatment.py:290-298: the cell `(i, j)`, `1 ≤ i`, `1 ≤ j`, is the average of two
estimates from already computed cells; row 0 and column 0 keep the border values `u`. -/
def sweep1 (u : Arr) : Nat → Nat → Rat
  | 0, j => u 0 j
  | i + 1, 0 => u (i + 1) 0
  | i + 1, j + 1 =>
    ((sweep1 u i (j + 1) + trap dx (gx i (j + 1)) (gx (i + 1) (j + 1))) +
      (sweep1 u (i + 1) j + trap dy (gy (i + 1) j) (gy (i + 1) (j + 1)))) / 2

/-- Sweep 2 from (0, ny-1), field_treatment.py:299-307; the second index is the distance `k` to the last column. -/
def sweep2 (u : Arr) : Nat → Nat → Rat
  | 0, k => u 0 (ny - 1 - k)
  | i + 1, 0 => u (i + 1) (ny - 1)
  | i + 1, k + 1 =>
    ((sweep2 u i (k + 1) + trap dx (gx i (ny - 1 - (k + 1))) (gx (i + 1) (ny - 1 - (k + 1)))) +
      (sweep2 u (i + 1) k - trap dy (gy (i + 1) (ny - 1 - k)) (gy (i + 1) (ny - 1 - (k + 1))))) / 2

/-- Sweep 3 from (nx-1, 0), field_treatment.py:308-316; the first index is the distance to the last row. -/
def sweep3 (u : Arr) : Nat → Nat → Rat
  | 0, j => u (nx - 1) j
  | k + 1, 0 => u (nx - 1 - (k + 1)) 0
  | k + 1, j + 1 =>
    ((sweep3 u k (j + 1) - trap dx (gx (nx - 1 - k) (j + 1)) (gx (nx - 1 - (k + 1)) (j + 1))) +
      (sweep3 u (k + 1) j + trap dy (gy (nx - 1 - (k + 1)) j) (gy (nx - 1 - (k + 1)) (j + 1)))) / 2

/-- Sweep 4 from (nx-1, ny-1), field_treatment.py:317-325; both indices are distances to the end. -/
def sweep4 (u : Arr) : Nat → Nat → Rat
  | 0, l => u (nx - 1) (ny - 1 - l)
  | k + 1, 0 => u (nx - 1 - (k + 1)) (ny - 1)
  | k + 1, l + 1 =>
    ((sweep4 u k (l + 1) - trap dx (gx (nx - 1 - k) (ny - 1 - (l + 1))) (gx (nx - 1 - (k + 1)) (ny - 1 - (l + 1)))) +
      (sweep4 u (k + 1) l - trap dy (gy (nx - 1 - (k + 1)) (ny - 1 - l)) (gy (nx - 1 - (k + 1)) (ny - 1 - (l + 1))))) / 2

/-- `np.mean(u[filt_corn])` with the integer array `filt_corn`, field_treatment.py:327-335: numpy takes row 1 for each of the
four corners (one or two rows of corners collapse when an axis has a single point; not modelled) and row 0 for every other
cell, so that this is the mean over the cells `(r, c)` of the selected rows. -/
def cornMean (u : Arr) : Rat :=
  meanOver ((cells nx ny).flatMap fun p =>
    (List.range ny).map fun c =>
      ((if (p.1 = 0 ∨ p.1 = nx - 1) ∧ (p.2 = 0 ∨ p.2 = ny - 1) then 1 else 0), c)) u

/-- The weights 1 to 4 and their use, field_treatment.py:338-344. -/
def blend (u1 u2 u3 u4 : Arr) : Arr := fun i j =>
  let x : Rat := (j : Nat)
  let y : Rat := (i : Nat)
  let x' : Rat := ((ny - 1 - j : Nat) : Rat)
  let y' : Rat := ((nx - 1 - i : Nat) : Rat)
  (u1 i j * (x' + y') + u2 i j * (x + y') + u3 i j * (x' + y) + u4 i j * (x + y)) /
    ((x' + y') + (x + y') + (x' + y) + (x + y))

/-- The reconstructed array before the final normalisation, field_treatment.py:237-344. -/
def reconRaw : Arr :=
  let u := border nx ny dx dy gx gy
  let s1 : Arr := sweep1 dx dy gx gy u
  let s2 : Arr := fun i j => sweep2 ny dx dy gx gy u i (ny - 1 - j)
  let s3 : Arr := fun i j => sweep3 nx dx dy gx gy u (nx - 1 - i) j
  let s4 : Arr := fun i j => sweep4 nx ny dx dy gx gy u (nx - 1 - i) (ny - 1 - j)
  blend nx ny (fun i j => s1 i j - cornMean nx ny s1) (fun i j => s2 i j - cornMean nx ny s2)
    (fun i j => s3 i j - cornMean nx ny s3) (fun i j => s4 i j - cornMean nx ny s4)

/-- The final normalisation, field_treatment.py:358-359. -/
def reconNorm (fact : Rat) : Arr := fun i j =>
  reconRaw nx ny dx dy gx gy i j * fact -
    meanOver (cells nx ny) (fun i j => reconRaw nx ny dx dy gx gy i j * fact)
end Recon

/-- Whether a field has a masked point. -/
def anyMasked (f : SF) : Bool := f.values.any (·.isNone)

/-- `reconstruct_from_gradients(field_dx, field_dy)`, field_treatment.py:225-367, `ols=False`, for gradients on one grid (arrays
of other shapes raise IndexError).  The x axis is taken from `field_dx`, the y axis from `field_dy`; the unit of the values is
the one of `field_dx` times the unit of x: the units of `field_dy` are not looked at.  A NaN anywhere reaches every cell
through the means (359), so that the result is masked everywhere. -/
def reconstruct (fx fy : SF) : Res SF :=
  if fx.ax.length < 2 ∨ fy.ay.length < 2 then .error .indexError
  else if fy.val.nx ≠ fx.val.nx ∨ fy.val.ny ≠ fx.val.ny then .error .indexError
  else
    SF.importArrays fx.ax fy.ay
      ⟨fx.val.nx, fx.val.ny, fun i j =>
        if anyMasked fx || anyMasked fy then none
        else some (reconNorm fx.val.nx fx.val.ny (step fx.ax) (step fy.ay) (fun i j => (fx.cell i j).getD 0)
          (fun i j => (fy.cell i j).getD 0) (SF.unitNum (fx.uv.mul fx.ux)) i j)⟩
      .none fx.ux fx.uy (SF.unitSym (fx.uv.mul fx.ux))

/-! ### streamlines

Over any ordered field, so that the square root of the norm exists (for instance in the real numbers). -/

section Stream
variable {K : Type} [Field K] [LinearOrder K]

/-- `x < axe_x[0] or x > axe_x[-1] or y < axe_y[0] or y > axe_y[-1]`, field_treatment.py:699, 732-733, for non-empty axes. -/
def outside (ax ay : List K) (p : K × K) : Bool :=
  decide (p.1 < ax.headD 0) || decide (p.1 > ax.getLastD 0) || decide (p.2 < ay.headD 0) || decide (p.2 > ay.getLastD 0)

/-- Squared distance. -/
def dist2 (p q : K × K) : K := (p.1 - q.1) ^ 2 + (p.2 - q.2) ^ 2

/-- The test of a closed loop, field_treatment.py:716-721: the points computed so far, last one first, are `p :: rest`; with
`i` of them, the first `i - 10` computed are compared to the last. -/
def looped (d : K) (pts : List (K × K)) : Bool :=
  decide (15 < pts.length) && match pts with
    | [] => false
    | p :: rest => (rest.reverse.take (pts.length - 10)).any fun q => decide (dist2 q p < d ^ 2 / 2)

/-- One Euler step, field_treatment.py:723-727 (`norm` is `np.linalg.norm` of the velocity). -/
def euler (norm : K × K → K) (d : K) (rev : Bool) (v p : K × K) : K × K :=
  let n := if rev then - norm v else norm v
  (p.1 + v.1 / n * d, p.2 + v.2 / n * d)

/-- The loop of one streamline, field_treatment.py:706-734: `fuel` is `longmax - 1 - i` and `pts` the `i` computed points, last
first.  The order of the tests is the one of the code. -/
def walk (ax ay : List K) (vel : K × K → K × K) (norm : K × K → K) (d : K) (rev : Bool) :
    Nat → List (K × K) → List (K × K)
  | 0, pts => pts
  | fuel + 1, pts =>
    match pts with
    | [] => pts
    | p :: _ =>
      if vel p = (0, 0) then pts
      else if looped d pts then pts
      else if outside ax ay (euler norm d rev (vel p) p) then euler norm d rev (vel p) p :: pts
      else walk ax ay vel norm d rev fuel (euler norm d rev (vel p) p :: pts)

/-- `deltaabs`, field_treatment.py:674-675. -/
def deltaAbs (ax ay : List K) (delta : K) : K :=
  delta * ((ax.getLastD 0 - ax.headD 0) / ax.length + (ay.getLastD 0 - ay.headD 0) / ay.length) / 2

variable [IsStrictOrderedRing K] [FloorRing K]

/-- `np.round` of a non-negative number: nearest integer, halves to even. -/
def roundHalfEven (q : K) : Int :=
  if q - ⌊q⌋ < 1 / 2 then ⌊q⌋
  else if q - ⌊q⌋ > 1 / 2 then ⌊q⌋ + 1
  else if ⌊q⌋ % 2 = 0 then ⌊q⌋ else ⌊q⌋ + 1

/-- `longmax`, field_treatment.py:691. -/
def longmax (ax ay : List K) (delta : K) : Nat := (roundHalfEven (((ax.length + ay.length : Nat) : K) / delta)).toNat

/-- `get_streamlines_fast(vf, xy, delta, reverse)`, field_treatment.py:616-746, for a list of seeds.  `vel` is the interpolated
velocity, `norm` the euclidean norm.  The result is the list of streamlines, first point first; `None` (no seed inside) is
the empty list. -/
def streamlinesFast (ax ay : List K) (vel : K × K → K × K) (norm : K × K → K) (delta : K) (rev : Bool)
    (seeds : List (K × K)) : Res (List (List (K × K))) :=
  if delta ≤ 0 then .error .valueError
  else if delta > ax.length ∨ delta > ay.length then .error .valueError
  else .ok ((seeds.filter fun p => !outside ax ay p).map fun p =>
    (walk ax ay vel norm (deltaAbs ax ay delta) rev (longmax ax ay delta - 2) [p]).reverse)

end Stream

/-! ### seeds of `get_streamlines` -/

/-- How the seeds reach `get_streamlines`: an array of floats (or one flat pair) or an array of integers. -/
inductive Seeds where
  | floats (l : List (Rat × Rat))
  | ints (l : List (Int × Int))

/-- Storage of a real number in an integer array: truncation towards zero. -/
def trunc (q : Rat) : Rat := if 0 ≤ q then (q.floor : Rat) else -((-q).floor : Rat)

/-- Seed coordinate on the axis rescaled to [0, 1], field_treatment.py:820-821. -/
def rescale (l : List Rat) (x : Rat) : Rat := (x - l.headD 0) / (l.getLastD 0 - l.headD 0)
/-- Back to the axis, field_treatment.py:935-936. -/
def unscale (l : List Rat) (t : Rat) : Rat := l.headD 0 + t * (l.getLastD 0 - l.headD 0)

/-- The rescaled seeds, field_treatment.py:794-796, 820-821: `xys[:, 0] = …` writes in the array the caller's sequence was
turned into: an integer one for a list of seeds with integer coordinates (a single seed given as a flat pair is turned into
floats before). -/
def seedsIn (ax ay : List Rat) : Seeds → List (Rat × Rat)
  | .floats l => l.map fun p => (rescale ax p.1, rescale ay p.2)
  | .ints l => l.map fun p => (trunc (rescale ax p.1), trunc (rescale ay p.2))

/-- `is_outside` on the rescaled axes, field_treatment.py:873-884, 892-894. -/
def outsideUnit (p : Rat × Rat) : Bool := decide (p.1 < 0) || decide (p.1 > 1) || decide (p.2 < 0) || decide (p.2 > 1)

/-- First point of every streamline returned by `get_streamlines`, field_treatment.py:890-905, 933-939: `res = [xy]`, then the
scaling back. -/
def starts (ax ay : List Rat) (s : Seeds) : List (Rat × Rat) :=
  ((seedsIn ax ay s).filter fun p => !outsideUnit p).map fun p => (unscale ax p.1, unscale ay p.2)

/-! ### wall -/

/-- Number of added points and side (`true`: before the axis) of `extrapolate_until_wall` along the wall direction,
field_treatment.py:1157-1192; `np.int` truncates. -/
def wallCount (l : List Rat) (pos : Rat) : Res (Bool × Int) :=
  if l.length < 2 then .error .indexError
  else if pos < l.getLastD 0 ∧ pos > l.headD 0 then .error .valueError
  else if pos < l.headD 0 then .ok (true, ((l.headD 0 - pos) / step l).floor)
  else .ok (false, if 0 ≤ (pos - l.getD 1 0) / step l then ((pos - l.getD 1 0) / step l).floor
    else -(-((pos - l.getD 1 0) / step l)).floor)

/-- The extended axis, and the coordinate of the line set to zero, field_treatment.py:1177-1212 (a negative count, for a wall on
the first point, is refused by `extend`, core/scalarfield.py:1461-1462). -/
def wall (l : List Rat) (pos : Rat) : Res (List Rat × Option Rat) :=
  match wallCount l pos with
  | .error e => .error e
  | .ok (before, n) =>
    if n < 0 then .error .valueError
    else match Axis.extend l (if before then n.toNat else 0) (if before then 0 else n.toNat) with
      | .error e => .error e
      | .ok m => .ok (m, if before then m.head? else m.getLast?)

end IMT.Treat
