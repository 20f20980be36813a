import Verif.Crit.Model
import Verif.Treat.Model

/-!
Model of the local vortex criteria of `/repo/IMTreatment/vortex_criterions/vortex_criterions.py`: vorticity, divergence, residual and
shear vorticities, Q, Nk, Delta, lambda2, swirling strength, Stokes vorticity, non-local gradients, enstrophy.
Vorticity and divergence are modelled on whole fields, with units; the criteria with a square root as functions of the velocity
gradient at one point, over any ordered field, with the root as a parameter.
Iota is in `IotaModel.lean`, the improved swirling strength in `ImprovedModel.lean`. Not modelled: the temporal versions (one field after the other), the interpolation of `fill`
(a parameter).
-/

namespace IMT.Crit

/-! ### whole fields -/

/-- `vf.fill(inplace=False)`, core/vectorfield.py:910-966, core/scalarfield.py:1847-1880: the masked points of both components get
interpolated values `ipx`, `ipy` (scipy's interpolators, a parameter; a field with no value at all, on which they fail, is not
modelled), and nothing is masked any more. -/
def fillV (ipx ipy : Nat → Nat → Rat) (f : VF) : VF :=
  { f with
    cx := ⟨f.cx.nx, f.cx.ny, fun i j => if f.mask.get i j then some (ipx i j) else f.cx.get i j⟩
    cy := ⟨f.cy.nx, f.cy.ny, fun i j => if f.mask.get i j then some (ipy i j) else f.cy.get i j⟩
    mask := ⟨f.mask.nx, f.mask.ny, fun _ _ => false⟩ }

/-- `get_vorticity(VectorField)`, vortex_criterions.py:848-871. -/
def vorticity (ipx ipy : Nat → Nat → Rat) (f : VF) : Res SF :=
  if f.ax.length < 2 ∨ f.ay.length < 2 then .error .indexError
  else Treat.gradField f.ax f.ay f.ux f.uy (f.uv.div f.ux)
    (fun i j => nanOp (fun a b => (a - b) / 2) (Treat.gradX f.ax (Treat.compY (fillV ipx ipy f)) i j)
      (Treat.gradY f.ay (Treat.compX (fillV ipx ipy f)) i j))
    (fillV ipx ipy f).mask.get

/-- `get_divergence(VectorField)`, vortex_criterions.py:792-815. -/
def divergence (ipx ipy : Nat → Nat → Rat) (f : VF) : Res SF :=
  if f.ax.length < 2 ∨ f.ay.length < 2 then .error .indexError
  else Treat.gradField f.ax f.ay f.ux f.uy (f.uv.div f.ux)
    (fun i j => nanOp (fun a b => a + b) (Treat.gradX f.ax (Treat.compX (fillV ipx ipy f)) i j)
      (Treat.gradY f.ay (Treat.compY (fillV ipx ipy f)) i j))
    (fillV ipx ipy f).mask.get

/-! ### the velocity gradient at one point -/

/-- `Exx`, `Exy`, `Eyx`, `Eyy`: derivatives of Vx along x and y, of Vy along x and y, vortex_criterions.py:1320-1321, 1387-1388. -/
structure Jac (K : Type) where
  xx : K
  xy : K
  yx : K
  yy : K

section
variable {K : Type} [Field K] [LinearOrder K] [IsStrictOrderedRing K]

/-- `omega`, vortex_criterions.py:383, 1325, 1392. -/
def omega (J : Jac K) : K := (J.yx - J.xy) / 2
/-- `s`, vortex_criterions.py:381, 1323, 1390. -/
def strain (sq : K → K) (J : Jac K) : K := sq (4 * J.xx ^ 2 + (J.xy + J.yx) ^ 2) / 2

/-- `get_residual_vorticity` at one point, vortex_criterions.py:1322-1334. -/
def residual (sq : K → K) (J : Jac K) : K :=
  if strain sq J < |omega J| then (if |omega J| = 0 then 1 else omega J / |omega J|) * (|omega J| - strain sq J) else 0

/-- `get_shear_vorticity` at one point, vortex_criterions.py:1389-1400. -/
def shear (sq : K → K) (J : Jac K) : K :=
  if strain sq J < |omega J| then omega J / |omega J| * strain sq J else omega J

/-- `norm_rot2`, vortex_criterions.py:1105, 1205. -/
def rot2 (J : Jac K) : K := 1 / 2 * (J.xy - J.yx) ^ 2
/-- `norm_shear2`, vortex_criterions.py:1106, 1206. -/
def shear2 (J : Jac K) : K := J.xx ^ 2 + 1 / 2 * (J.xy + J.yx) ^ 2 + J.yy ^ 2
/-- `get_q_criterion` at one point, vortex_criterions.py:1105-1107. -/
def qCrit (J : Jac K) : K := 1 / 2 * rot2 J - shear2 J

/-- `get_Nk_criterion` at one point, vortex_criterions.py:1157-1159; `none` is numpy's inf or NaN. -/
def nk (sq : K → K) (J : Jac K) : Option K :=
  if sq (shear2 J) = 0 then none else some (1 / sq 2 * |J.xy - J.yx| / sq (shear2 J))

/-- Discriminant of the characteristic polynomial of the gradient: its eigenvalues (`np.linalg.eigvals`, vortex_criterions.py:1000,
1213) are real exactly when it is not negative. -/
def discr (J : Jac K) : K := (J.xx - J.yy) ^ 2 + 4 * J.xy * J.yx

/-- `get_delta_criterion` at one point, vortex_criterions.py:1204-1219: masked (`none`) where the eigenvalues are real. -/
def delta (J : Jac K) : Option K :=
  if 0 ≤ discr J then none else some ((qCrit J / 3) ^ 3 + (-(J.xx * J.yy - J.xy * J.yx) / 2) ^ 2)

/-- `get_swirling_strength` at one point, vortex_criterions.py:996-1001: the largest imaginary part of the eigenvalues. -/
def swirl (sq : K → K) (J : Jac K) : K := if 0 ≤ discr J then 0 else sq (-discr J) / 2

/-- Diagonal and off-diagonal terms of `np.dot(S, S) + np.dot(Omega, Omega)`, vortex_criterions.py:1273-1278. -/
def m11 (J : Jac K) : K := J.xx ^ 2 + ((J.xy + J.yx) / 2) ^ 2 - ((J.xy - J.yx) / 2) ^ 2
/-- Second diagonal term, vortex_criterions.py:1273-1278. -/
def m22 (J : Jac K) : K := ((J.xy + J.yx) / 2) ^ 2 + J.yy ^ 2 - ((J.xy - J.yx) / 2) ^ 2
/-- Off-diagonal term, vortex_criterions.py:1273-1278. -/
def m12 (J : Jac K) : K := J.xx * ((J.xy + J.yx) / 2) + (J.xy + J.yx) / 2 * J.yy
/-- `get_lambda2` at one point, vortex_criterions.py:1272-1283: the smallest eigenvalue of a symmetric matrix (`linalg.eig`). -/
def lambda2 (sq : K → K) (J : Jac K) : K :=
  (m11 J + m22 J - sq ((m11 J - m22 J) ^ 2 + 4 * m12 J ^ 2)) / 2

/-- `get_lambda2(raw=True)`, vortex_criterions.py:1285-1286: a masked array made of the last eigenvalue and of the mask of the whole
field, which numpy refuses (MaskError) unless the field has one point. -/
def lambda2Raw (nx ny : Nat) (last : K) : Res K := if nx * ny = 1 then .ok last else .error .exception

/-! ### Stokes -/

/-- `np.trapz(values, dx=h)` of `n + 1` values. -/
def trapz (h : K) (g : Nat → K) : Nat → K
  | 0 => 0
  | n + 1 => trapz h g n + h * (g n + g (n + 1)) / 2

/-- The circulation around the window, vortex_criterions.py:934-945. -/
def circulation (dx dy : K) (w : Nat) (vx vy : Nat → Nat → K) (i j : Nat) : K :=
  trapz dy (fun k => -vy i (j + k)) (w - 1) + trapz dy (fun k => vy (i + w - 1) (j + k)) (w - 1) +
    trapz dx (fun k => vx (i + k) j) (w - 1) + trapz dx (fun k => -vx (i + k) (j + w - 1)) (w - 1)

/-- One value of `get_stokes_vorticity` with the window size `w`, vortex_criterions.py:926-949. -/
def stokes (dx dy : K) (w : Nat) (vx vy : Nat → Nat → K) (mask : Nat → Nat → Bool) (i j : Nat) : Option K :=
  if (List.range w).any fun a => (List.range w).any fun b => mask (i + a) (j + b) then none
  else some (circulation dx dy w vx vy i j * (1 / (dx * dy * w ^ 2)))

/-- `np.mean`. -/
def mean (l : List K) : K := l.sum / l.length

/-- `np.arange(start, stop, h)` for `0 < h`. -/
def arange [FloorRing K] (start stop h : K) : List K := (List.range ⌈(stop - start) / h⌉.toNat).map fun k : Nat => start + k * h

/-- The axis of `get_stokes_vorticity`, vortex_criterions.py:917-922; `np.mean(axe[-w::] + d*.9)`. -/
def stokesAxis [FloorRing K] (l : List K) (w : Nat) : List K :=
  arange (mean (l.take w)) (mean ((l.drop (l.length - w)).map fun x => x + (l.getD 1 0 - l.getD 0 0) * (9 / 10))) (l.getD 1 0 - l.getD 0 0)

/-! ### neighbourhoods -/

/-- Slope of `np.polyfit(xs, ys, 1)`, vortex_criterions.py:376-379. -/
def polyfit1 {α : Type} (l : List α) (x y : α → K) : K :=
  (l.length * (l.map fun a => x a * y a).sum - (l.map x).sum * (l.map y).sum) /
    (l.length * (l.map fun a => x a ^ 2).sum - (l.map x).sum ^ 2)

/-- The gradient fitted around one point by `get_NL_residual_vorticity`, vortex_criterions.py:368-379, on evenly spaced axes from `x0`
and `y0`. -/
def nlJac (f : Vel K) (x0 y0 : K) (motif : List (Int × Int)) (i j : Int) : Jac K :=
  { xx := polyfit1 motif (fun m => x0 + (m.1 + i : Int) * f.dx) (fun m => f.vx (m.1 + i) (m.2 + j))
    xy := polyfit1 motif (fun m => y0 + (m.2 + j : Int) * f.dy) (fun m => f.vx (m.1 + i) (m.2 + j))
    yx := polyfit1 motif (fun m => x0 + (m.1 + i : Int) * f.dx) (fun m => f.vy (m.1 + i) (m.2 + j))
    yy := polyfit1 motif (fun m => y0 + (m.2 + j : Int) * f.dy) (fun m => f.vy (m.1 + i) (m.2 + j)) }

/-- `get_NL_residual_vorticity` with `ind=True`, vortex_criterions.py:310-395 (raw); `none` is a masked point.  An empty motif (radius below
one) is refused by `np.polyfit` at the first point that is not masked, which is given here for the whole call. -/
def nlResidual (sq : K → K) (nx ny : Nat) (f : Vel K) (x0 y0 : K) (mask : Int → Int → Bool) (r : Rat) : Res (Nat → Nat → Option K) :=
  match motifInd nx ny r with
  | .error e => .error e
  | .ok motif =>
    if motif = [] then .error .typeError
    else .ok fun i j => if hidden nx ny r mask motif i j then none else some (residual sq (nlJac f x0 y0 motif i j))

/-- `get_enstrophy` at one point, vortex_criterions.py:653-672: the squared vorticities of the neighbours times the area of a cell. -/
def enstrophy (vort : Int → Int → K) (dx dy : K) (motif : List (Int × Int)) (i j : Int) : K :=
  (motif.map fun m => vort (m.1 + i) (m.2 + j) ^ 2).sum * (dx * dy)

/-- `get_enstrophy` with `ind=True`, vortex_criterions.py:607-678 (raw), from the values of `get_vorticity`. -/
def enstrophyField (nx ny : Nat) (vort : Int → Int → K) (dx dy : K) (mask : Int → Int → Bool) (r : Rat) : Res (Nat → Nat → Option K) :=
  match motifInd nx ny r with
  | .error e => .error e
  | .ok motif => .ok fun i j => if hidden nx ny r mask motif i j then none else some (enstrophy vort dx dy motif i j)

end
end IMT.Crit
