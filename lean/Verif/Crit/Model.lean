import Verif.Field.Disc
import Mathlib.Algebra.Order.Field.Basic
import Mathlib.Algebra.Order.Ring.Abs
import Mathlib.Algebra.Order.Field.Rat

/-!
Model of the non-local vortex criteria of `/repo/IMTreatment/vortex_criterions/vortex_criterions.py`: `get_gamma`, `get_kappa`,
and their common preparation.  Velocities live in any ordered field `K`, with a square root `sq` as a parameter, so that the
real numbers are covered.  A field is given by its number of points, its components as functions of the indices, its steps and
its mask (field mask or user mask, vortex_criterions.py:696).
Not modelled: `dev_pass=True`, the angle of `get_iota`.
-/

namespace IMT.Crit

/-! ### preparation -/

/-- The motif with `ind=True`, vortex_criterions.py:700-703: the points around the central one, relatively to it, without the
one in the middle of the list. -/
def motifInd (nx ny : Nat) (r : Rat) : Res (List (Int × Int)) :=
  match Disc.around ((nx / 2 : Nat) : Rat) ((ny / 2 : Nat) : Rat) r with
  | .error e => .error e
  | .ok l => .ok ((l.map fun p => (p.1 - ((nx / 2 : Nat) : Int), p.2 - ((ny / 2 : Nat) : Int))).eraseIdx (l.length / 2))

/-- The motif with `ind=False`, vortex_criterions.py:705-708: the radius is divided by the mean step (core/field.py:254-258), the
centre is a point of the grid, and no point is removed. -/
def motifUnits (nx ny : Nat) (dx dy r : Rat) : Res (List (Int × Int)) :=
  match Disc.around ((nx / 2 : Nat) : Rat) ((ny / 2 : Nat) : Rat) (r / ((dx + dy) / 2)) with
  | .error e => .error e
  | .ok l => .ok (l.map fun p => (p.1 - ((nx / 2 : Nat) : Int), p.2 - ((ny / 2 : Nat) : Int)))

/-- `mask_border` along one axis of `n` points with `ind=True`, vortex_criterions.py:721-729. -/
def nearEdge (n : Nat) (r : Rat) (i : Int) : Bool := decide (i ≤ ⌊r⌋ - 1) || decide (i ≥ (n : Int) - 1 - (⌊r⌋ - 1))

/-- `mask_border` along one axis with `ind=False`, vortex_criterions.py:731-737; `delta` is the mean of the two steps. -/
def nearEdgeUnits (l : List Rat) (delta r : Rat) (i : Nat) : Bool :=
  decide (l.getD i 0 ≤ l.headD 0 + (r - delta)) || decide (l.getD i 0 ≥ l.getLastD 0 - (r - delta))

/-- `mask_surr`, vortex_criterions.py:712-720: the masked points spread over the motif. -/
def nearMasked (nx ny : Nat) (mask : Int → Int → Bool) (motif : List (Int × Int)) (i j : Int) : Bool :=
  ((List.range nx).flatMap fun (a : Nat) => (List.range ny).map fun (b : Nat) => (Int.ofNat a, Int.ofNat b)).any fun q =>
    mask q.1 q.2 && motif.any fun m => decide (m.1 + q.1 = i ∧ m.2 + q.2 = j)

/-- The mask of the result, vortex_criterions.py:295-297, 517-519. -/
def hidden (nx ny : Nat) (r : Rat) (mask : Int → Int → Bool) (motif : List (Int × Int)) (i j : Int) : Bool :=
  mask i j || (nearEdge nx r i || nearEdge ny r j) || nearMasked nx ny mask motif i j

/-! ### the criteria at one point -/

section
variable {K : Type} [Field K] [LinearOrder K] [IsStrictOrderedRing K]

/-- A vector field on indices: components and steps of the grid. -/
structure Vel (K : Type) where
  vx : Int → Int → K
  vy : Int → Int → K
  dx : K
  dy : K

/-- One term of gamma or kappa: the division by the two norms is skipped when one is zero, vortex_criterions.py:275-285. -/
def term (sq : K → K) (num : K) (ax ay bx bY : K) : K :=
  if sq (bx ^ 2 + bY ^ 2) * sq (ax ^ 2 + ay ^ 2) ≠ 0 then num / (sq (bx ^ 2 + bY ^ 2) * sq (ax ^ 2 + ay ^ 2)) else 0

/-- Mean of a component over the neighbours, vortex_criterions.py:255-256. -/
def meanAround (c : Int → Int → K) (motif : List (Int × Int)) (i j : Int) : K :=
  (motif.map fun m => c (m.1 + i) (m.2 + j)).sum / motif.length

/-- The sum over the neighbours of the (cross or dot) products of the unit vectors, for velocities taken relatively to
`(u, v)`, vortex_criterions.py:266-285, 499-514. -/
def total (sq : K → K) (f : Vel K) (motif : List (Int × Int)) (cross : Bool) (u v : K) (i j : Int) : K :=
  (motif.map fun m =>
    let bx := f.vx (m.1 + i) (m.2 + j) - u
    let bY := f.vy (m.1 + i) (m.2 + j) - v
    let ax := m.1 * f.dx
    let ay := m.2 * f.dy
    term sq (if cross then ax * bY - ay * bx else ax * bx + ay * bY) ax ay bx bY).sum

/-- `gamma1`, vortex_criterions.py:266-288. -/
def gamma1 (sq : K → K) (f : Vel K) (motif : List (Int × Int)) (i j : Int) : K :=
  total sq f motif true 0 0 i j / motif.length
/-- `gamma2`, vortex_criterions.py:254-256, 279-288. -/
def gamma2 (sq : K → K) (f : Vel K) (motif : List (Int × Int)) (i j : Int) : K :=
  total sq f motif true (meanAround f.vx motif i j) (meanAround f.vy motif i j) i j / motif.length
/-- `kappa1`, vortex_criterions.py:499-516. -/
def kappa1 (sq : K → K) (f : Vel K) (motif : List (Int × Int)) (i j : Int) : K :=
  total sq f motif false 0 0 i j / motif.length

/-- `v_mean` of `kappa2`, vortex_criterions.py:491-497: the velocity of the centre, added once per neighbour. -/
def kappaMean (c : Int → Int → K) (motif : List (Int × Int)) (i j : Int) : K :=
  (motif.map fun _ => c i j).sum / motif.length
/-- `kappa2`, vortex_criterions.py:490-516. -/
def kappa2 (sq : K → K) (f : Vel K) (motif : List (Int × Int)) (i j : Int) : K :=
  total sq f motif false (kappaMean f.vx motif i j) (kappaMean f.vy motif i j) i j / motif.length

/-- `gamma1b`, vortex_criterions.py:254-256, 289-290: `gamma1` times the norm of the mean velocity. -/
def gamma1b (sq : K → K) (f : Vel K) (motif : List (Int × Int)) (i j : Int) : K :=
  total sq f motif true 0 0 i j / motif.length * sq (meanAround f.vx motif i j ^ 2 + meanAround f.vy motif i j ^ 2)

/-- `fact` of `gamma2b`, vortex_criterions.py:257-265: the ratio of the fluctuation to the norm of the mean velocity, at most one;
`none` is numpy's NaN, for a zero over a zero. -/
def fact (sq : K → K) (f : Vel K) (motif : List (Int × Int)) (i j : Int) : Option K :=
  let u := meanAround f.vx motif i j
  let v := meanAround f.vy motif i j
  let num := sq (meanAround (fun a b => (f.vx a b - u) ^ 2) motif i j + meanAround (fun a b => (f.vy a b - v) ^ 2) motif i j)
  let den := sq (u ^ 2 + v ^ 2)
  if den = 0 then (if num = 0 then none else some 1) else some (if |num / den| > 1 then 1 else num / den)
/-- `gamma2b`, vortex_criterions.py:291-292. -/
def gamma2b (sq : K → K) (f : Vel K) (motif : List (Int × Int)) (i j : Int) : Option K :=
  (fact sq f motif i j).map fun c => gamma2 sq f motif i j * c

/-- The four criteria. -/
inductive Kind where | gamma1 | gamma2 | kappa1 | kappa2

/-- The value of a criterion at one point. -/
def value (sq : K → K) (k : Kind) (f : Vel K) (motif : List (Int × Int)) (i j : Int) : K :=
  match k with
  | .gamma1 => gamma1 sq f motif i j
  | .gamma2 => gamma2 sq f motif i j
  | .kappa1 => kappa1 sq f motif i j
  | .kappa2 => kappa2 sq f motif i j

/-- `get_gamma` / `get_kappa` with `ind=True` at the point of indices `i, j`, vortex_criterions.py:153-307, 409-529; `none` is a
masked point.  An empty motif (radius below one) divides zero by zero: ZeroDivisionError at the first point that is not
masked, which is given here for the whole call. -/
def criterion (sq : K → K) (k : Kind) (nx ny : Nat) (f : Vel K) (mask : Int → Int → Bool) (r : Rat) : Res (Nat → Nat → Option K) :=
  match motifInd nx ny r with
  | .error e => .error e
  | .ok motif =>
    if motif = [] then .error .zeroDivision
    else .ok fun i j => if hidden nx ny r mask motif i j then none else some (value sq k f motif i j)

/-! ### radius in axis units -/

/-- Index of numpy's arrays: negative indices count from the end. -/
def wrap (n : Nat) (i : Int) : Int := if i < 0 then i + n else i

/-- The mask of the result with `ind=False`, vortex_criterions.py:712-720, 730-738. -/
def hiddenUnits (lx ly : List Rat) (dx dy r : Rat) (mask : Int → Int → Bool) (motif : List (Int × Int)) (i j : Nat) : Bool :=
  mask i j || (nearEdgeUnits lx ((dx + dy) / 2) r i || nearEdgeUnits ly ((dx + dy) / 2) r j) ||
    nearMasked lx.length ly.length mask motif i j

/-- One point at least is computed with a neighbour outside of the arrays: IndexError. -/
def outside (lx ly : List Rat) (dx dy r : Rat) (mask : Int → Int → Bool) (motif : List (Int × Int)) : Bool :=
  ((List.range lx.length).flatMap fun (a : Nat) => (List.range ly.length).map fun (b : Nat) => (a, b)).any fun p =>
    !hiddenUnits lx ly dx dy r mask motif p.1 p.2 && motif.any fun m =>
      decide (m.1 + (p.1 : Int) < -(lx.length : Int) ∨ (lx.length : Int) ≤ m.1 + p.1 ∨
        m.2 + (p.2 : Int) < -(ly.length : Int) ∨ (ly.length : Int) ≤ m.2 + p.2)

/-- `get_gamma` / `get_kappa` with `ind=False`, on axes `lx` and `ly`, vortex_criterions.py:153-307, 409-529. -/
def criterionUnits (sq : K → K) (k : Kind) (lx ly : List Rat) (vx vy : Int → Int → K) (mask : Int → Int → Bool) (r : Rat) :
    Res (Nat → Nat → Option K) :=
  let dx := lx.getD 1 0 - lx.getD 0 0
  let dy := ly.getD 1 0 - ly.getD 0 0
  match motifUnits lx.length ly.length dx dy r with
  | .error e => .error e
  | .ok motif =>
    if outside lx ly dx dy r mask motif then .error .indexError
    else .ok fun i j =>
      if hiddenUnits lx ly dx dy r mask motif i j then none
      else some (value sq k
        ⟨fun a b => vx (wrap lx.length a) (wrap ly.length b), fun a b => vy (wrap lx.length a) (wrap ly.length b), dx, dy⟩ motif i j)

end
end IMT.Crit
