import Verif.Axis.Model
import Mathlib.Data.Real.Sqrt
import Mathlib.Analysis.Real.Pi.Bounds
import Mathlib.Data.List.FinRange

/-!
Model of `/repo/IMTreatment/vortex_properties/vortex_properties.py`: radius, centre, property and circulation of one vortex, and
their evolutions in time.  The criteria (residual vorticity, vorticity, ...) are given: one value by cell, `none` for nan.
`scipy.ndimage.label` is a parameter, with the specification `IsLabel` (Radius.lean).  Not modelled: drawings, units of the radius.
-/

namespace IMT.Zone

/-- The cells of a field. -/
abbrev Cell (nx ny : Nat) := Fin nx × Fin ny

/-- `msr.label` with its structure by default, vortex_properties.py:80, 85, 270, 281, 416. -/
abbrev Labeller := (nx ny : Nat) → (Cell nx ny → Bool) → Cell nx ny → Nat

/-- numpy's `>`: false with a nan. -/
def gt : Option Rat → Option Rat → Bool
  | some a, some b => decide (a > b)
  | _, _ => false

/-- numpy's `max`: nan when there is one; nothing is never asked. -/
def npMax : List (Option Rat) → Option Rat
  | [] => none
  | [a] => a
  | a :: l =>
    match a, npMax l with
    | some x, some y => some (max x y)
    | _, _ => none

/-- All the cells. -/
def cells (nx ny : Nat) : List (Cell nx ny) := (List.finRange nx).flatMap fun i => (List.finRange ny).map fun j => (i, j)

variable {nx ny : Nat}

/-- `vort.values > threshold`, vortex_properties.py:80, 85, 269, 280. -/
def above (w : Cell nx ny → Option Rat) (t : Option Rat) (q : Cell nx ny) : Bool := gt (w q) t

/-- The cells with the label of the given one, vortex_properties.py:81-86, 271-282. -/
def zone (L : Labeller) (w : Cell nx ny → Option Rat) (t : Option Rat) (c : Cell nx ny) : List (Cell nx ny) :=
  (cells nx ny).filter fun q => L nx ny (above w t) q == L nx ny (above w t) c

/-- The maximum on the first zone, vortex_properties.py:78-83, 268-279. -/
def peak (L : Labeller) (eps : Rat) (w : Cell nx ny → Option Rat) (c : Cell nx ny) : Option Rat :=
  npMax ((zone L w ((w c).map (eps * ·)) c).map w)

/-- The final zone, vortex_properties.py:84-86, 280-282. -/
def vortexZone (L : Labeller) (eps : Rat) (w : Cell nx ny → Option Rat) (c : Cell nx ny) : List (Cell nx ny) :=
  zone L w ((peak L eps w c).map (eps * ·)) c

/-- The area of the zone, vortex_properties.py:88. -/
def area (L : Labeller) (eps dx dy : Rat) (w : Cell nx ny → Option Rat) (c : Cell nx ny) : Rat :=
  ((vortexZone L eps w c).length : Rat) * dx * dy

/-- The radius, vortex_properties.py:89. -/
noncomputable def radius (L : Labeller) (eps dx dy : Rat) (w : Cell nx ny → Option Rat) (c : Cell nx ny) : ℝ :=
  √(((area L eps dx dy w c : Rat) : ℝ) / Real.pi)

/-- `center_of_mass` of `|vort|` on the zone, along one direction, put on the axis, vortex_properties.py:91-95: a nan in the zone, or
a null mass, gives a nan. -/
def centre (L : Labeller) (eps a0 d : Rat) (ind : Cell nx ny → Nat) (w : Cell nx ny → Option Rat) (c : Cell nx ny) : Option Rat :=
  let z := vortexZone L eps w c
  if z.any fun q => (w q).isNone then none
  else
    let m := (z.map fun q => |(w q).getD 0|).sum
    if m = 0 then none
    else some (a0 + (z.map fun q => |(w q).getD 0| * (ind q : Rat)).sum / m * d)

/-- `VF.get_indice_on_axe(..., kind='nearest')` in both directions, vortex_properties.py:75-76, 259-260, 405-406. -/
def cellOf (ax ay : List Rat) (x y : Rat) : Res (Cell ax.length ay.length) :=
  match Axis.nearest ax x, Axis.nearest ay y with
  | .ok i, .ok j => if h : i < ax.length ∧ j < ay.length then .ok (⟨i, h.1⟩, ⟨j, h.2⟩) else .error .indexError
  | .error e, _ => .error e
  | _, .error e => .error e

/-- `axe[1] - axe[0]`, vortex_properties.py:72-73, 286-287, 407-408. -/
def step (l : List Rat) : Rat := l.getD 1 0 - l.headD 0

/-- `get_vortex_radius(VF, vort_center, eps_detection)`, vortex_properties.py:35-109, `w` being the residual vorticity; an axis
with one point has no step. -/
noncomputable def getRadius (L : Labeller) (eps : Rat) (ax ay : List Rat) (w : Cell ax.length ay.length → Option Rat) (x y : Rat) :
    Res ℝ :=
  if ax.length < 2 ∨ ay.length < 2 then .error .indexError
  else
    match cellOf ax ay x y with
    | .error e => .error e
    | .ok c => .ok (radius L eps (step ax) (step ay) w c)

/-! ### property -/

/-- Sum of the three points rules one after the other, `_basic_simpson` of scipy. -/
def basic : List Rat → Rat
  | a :: b :: c :: l => (a + 4 * b + c) + basic (c :: l)
  | _ => 0

/-- `scipy.integrate.simps(y, dx=dx)` (`even='avg'`), vortex_properties.py:288. -/
def simps (dx : Rat) (y : List Rat) : Rat :=
  if y.length % 2 = 1 then dx / 3 * basic y
  else (dx / 2 * (y.getLastD 0 + y.dropLast.getLastD 0) + dx / 2 * (y.getD 0 0 + y.getD 1 0)) / 2 +
    (dx / 3 * basic y + dx / 3 * basic y.tail) / 2

/-- Integral on the lines, then of the lines, vortex_properties.py:288. -/
def simps2 (dx dy : Rat) (f : Cell nx ny → Rat) : Rat :=
  simps dx ((List.finRange nx).map fun i => simps dy ((List.finRange ny).map fun j => f (i, j)))

/-- `VF.magnitude[ind_x, ind_y] <= 0`, vortex_properties.py:263. -/
def still : Option Rat → Bool
  | some m => decide (m ≤ 0)
  | none => false

/-- `get_vortex_property` on a cell, vortex_properties.py:263-289: `mag` is the magnitude of the velocity, `s` the size criterion, in
absolute value, `p` the integrated one.  A nan in the zone is not modelled. -/
def property (L : Labeller) (lim dx dy : Rat) (mag s p : Cell nx ny → Option Rat) (c : Cell nx ny) : Res Rat :=
  if still (mag c) then .error .valueError
  else if L nx ny (above s ((s c).map (lim * ·))) c = 0 then .ok 0
  else .ok (simps2 dx dy fun q => if q ∈ vortexZone L lim s c then (p q).getD 0 else 0)

/-! ### circulation -/

/-- `np.abs(vort.values)/max_vort > epsilon`, vortex_properties.py:411-412: a division by zero gives a nan or an infinity, and zero is
a maximum of absolute values only when all are zero. -/
def strong (eps : Rat) (w : Cell nx ny → Option Rat) (q : Cell nx ny) : Bool :=
  match w q, npMax (((cells nx ny).filter fun q => (w q).isSome).map fun q => (w q).map abs) with
  | some v, some m => if m = 0 then false else decide (|v| / m > eps)
  | _, _ => false

/-- `get_vortex_circulation` on a cell, vortex_properties.py:409-432, without the unit; `np.max` refuses a field without value. -/
def circulation (L : Labeller) (eps dx dy : Rat) (w : Cell nx ny → Option Rat) (c : Cell nx ny) : Res Rat :=
  if (cells nx ny).all fun q => (w q).isNone then .error .valueError
  else if L nx ny (strong eps w) c = 0 then .ok 0
  else .ok ((((cells nx ny).filter fun q => L nx ny (strong eps w) q == L nx ny (strong eps w) c).map fun q => (w q).getD 0).sum
    * dx * dy)

/-! ### evolutions in time -/

/-- The first item for which something holds, `l[cond][0]`. -/
def firstWith {α : Type} (f : α → Bool) (l : List α) : Res α :=
  match l.find? f with
  | some a => .ok a
  | none => .error .indexError

/-- `get_vortex_radius_time_evolution(TVFS, traj)`, vortex_properties.py:147-193: for each point of the trajectory its time and the
radius in the first field of this time; `rad` is `get_vortex_radius`. -/
def radiusEvo {F : Type} (rad : F → Rat × Rat → Res ℝ) (fields : List (Rat × F)) :
    List ((Rat × Rat) × Rat) → Res (List (Rat × ℝ))
  | [] => .ok []
  | p :: l =>
    match firstWith (fun f => f.1 == p.2) fields with
    | .error e => .error e
    | .ok f =>
      match rad f.2 p.1 with
      | .error e => .error e
      | .ok r =>
        match radiusEvo rad fields l with
        | .error e => .error e
        | .ok rs => .ok ((p.2, r) :: rs)

open Classical in
/-- The mask of the radii, vortex_properties.py:188. -/
noncomputable def radiusMask (l : List (Rat × ℝ)) : List Bool := l.map fun r => decide (r.2 = 0)

/-- The loop of `get_vortex_property_time_evolution`, vortex_properties.py:354-374. -/
def propLoop {F : Type} (prop : F → Rat × Rat → Res Rat) (traj : List ((Rat × Rat) × Rat)) :
    List (Rat × F) → Res (List (Rat × Rat))
  | [] => .ok []
  | f :: l =>
    match traj.find? fun p => p.2 == f.1 with
    | none => propLoop prop traj l
    | some p =>
      match prop f.2 p.1 with
      | .error e => .error e
      | .ok v =>
        match propLoop prop traj l with
        | .error e => .error e
        | .ok vs => .ok ((f.1, v) :: vs)

/-- `get_vortex_property_time_evolution`, vortex_properties.py:343-380: without any common time, `unit` does not exist. -/
def propEvo {F : Type} (prop : F → Rat × Rat → Res Rat) (traj : List ((Rat × Rat) × Rat)) (fields : List (Rat × F)) :
    Res (List (Rat × Rat)) :=
  match propLoop prop traj fields with
  | .error e => .error e
  | .ok [] => .error .nameError
  | .ok l => .ok l

end IMT.Zone
