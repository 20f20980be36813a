import Verif.TPoints.Model
import Verif.Reshape.Model

/-!
Model of the smoothing of sets of points and of collections of sets (`/repo/IMTreatment/core/points.py`,
`/repo/IMTreatment/core/temporalpoints.py`), for coordinates and values that are numbers (no NaN).
-/

namespace IMT.TPoints

open IMT.Points (P)

/-- The arguments `tos` and `size`. -/
inductive Tos where
  | uniform (size : Option Nat)
  | gaussian (size : Option Rat)
  | lowpass (size : Option Rat)
  | other

/-- What scipy computes: `gaussian_filter(l, size, mode='nearest')`, and `filtfilt` with the Butterworth filter. -/
structure Scipy where
  gauss : Rat → List Rat → List Rat
  low : Rat → List Rat → List Rat

/-- The filter of one array, points.py:1372-1412 with the default sizes: `uniform_filter` leaves the array when the size is 0 or 1, `butter`
refuses frequencies out of ]0, 1[, and `filtfilt` the arrays of nine elements or less. -/
def filterArray (s : Scipy) (l : List Rat) : Tos → Res (List Rat)
  | .uniform size => .ok (if size.getD 3 ≤ 1 then l else Reshape.uniform (size.getD 3) l)
  | .gaussian size => .ok (s.gauss (size.getD 1) l)
  | .lowpass size =>
    if size.getD (1 / 10) ≤ 0 ∨ 1 ≤ size.getD (1 / 10) ∨ l.length ≤ 9 then .error .valueError else .ok (s.low (size.getD (1 / 10)) l)
  | .other => .error .valueError

/-- A number stored in an array of whole numbers. -/
def truncated (q : Rat) : Rat := if 0 ≤ q then (q.floor : Rat) else -((-q).floor : Rat)

/-- The values once smoothed, points.py:1389-1395, 1409-1410, for `v` not empty: `ndimage` gives arrays of the type of the given one (`isInt`
when these are whole numbers), `filtfilt` floats. -/
def filterValues (s : Scipy) (isInt : Bool) (l : List Rat) (tos : Tos) : Res (List Rat) :=
  match filterArray s l tos, tos with
  | .error e, _ => .error e
  | .ok w, .lowpass _ => .ok w
  | .ok w, _ => .ok (if isInt then w.map truncated else w)

/-- The smoothed set, points.py:1385-1427. -/
def smoothed (s : Scipy) (isInt : Bool) (tos : Tos) (p : P) : Res P :=
  match filterArray s (Reshape.nums (p.xy.map Prod.fst)) tos, filterArray s (Reshape.nums (p.xy.map Prod.snd)) tos with
  | .error e, _ => .error e
  | .ok _, .error e => .error e
  | .ok x, .ok y =>
    if p.v = [] then .ok { p with xy := (x.map some).zip (y.map some) }
    else match filterValues s isInt (Reshape.nums p.v) tos with
      | .error e => .error e
      | .ok v => .ok { p with xy := (x.map some).zip (y.map some), v := v.map some }

/-- `Points.smooth(tos, size, inplace)`, points.py:1349-1427: the set afterwards, and what is returned. -/
def smoothPts (s : Scipy) (isInt : Bool) (tos : Tos) (p : P) (inplace : Bool) : P × Res (Option P) :=
  match smoothed s isInt tos p with
  | .error e => (p, .error e)
  | .ok q => if inplace then (q, .ok none) else (p, .ok (some q))

/-- `for pt in tmp_pts.point_sets: pt.smooth(..., inplace=True)`, temporalpoints.py:328-329, for values that are floats. -/
def smoothCells (s : Scipy) (tos : Tos) (m : Heap) : List Nat → Heap × Res PUnit
  | [] => (m, .ok ⟨⟩)
  | a :: as => match m[a]? with
    | none => smoothCells s tos m as
    | some p => match smoothPts s false tos p true with
      | (q, .error e) => (m.set a q, .error e)
      | (q, .ok _) => smoothCells s tos (m.set a q) as

/-- `TemporalPoints.smooth(tos, size, inplace)`, temporalpoints.py:302-330: the memory, and the collection that is returned. -/
def smoothAll (s : Scipy) (tos : Tos) (m : Heap) (t : TP) (inplace : Bool) : Heap × Res TP :=
  match if inplace then (m, t) else deepCopy m t with
  | (m0, t0) => match smoothCells s tos m0 t0.sets with
    | (m1, .error e) => (m1, .error e)
    | (m1, .ok _) => (m1, .ok t0)

end IMT.TPoints
