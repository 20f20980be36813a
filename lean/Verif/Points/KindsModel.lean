import Verif.Points.DensityModel

/-!
Model of `CritPoints.get_points_density` (`/repo/IMTreatment/vortex_detection/vortex_detection.py`, vd.py below), for sets of points in the same units.
-/

namespace IMT.Cloud

/-- The critical points of a record: for each kind, the sets of points, one per field. -/
structure Kinds where
  foc : List (List (Rat × Rat))
  focC : List (List (Rat × Rat))
  nodeI : List (List (Rat × Rat))
  nodeO : List (List (Rat × Rat))
  sadd : List (List (Rat × Rat))

/-- The argument `kind`. -/
inductive Kind where
  | foc | focC | sadd | nodeI | nodeO | other

/-- vd.py:711-722. -/
def Kinds.of (c : Kinds) : Kind → Res (List (List (Rat × Rat)))
  | .foc => .ok c.foc
  | .focC => .ok c.focC
  | .sadd => .ok c.sadd
  | .nodeI => .ok c.nodeI
  | .nodeO => .ok c.nodeO
  | .other => .error .valueError

/-- `self.iter`, vd.py:582-583. -/
def Kinds.iter (c : Kinds) : List (List (List (Rat × Rat))) := [c.foc, c.focC, c.nodeI, c.nodeO, c.sadd]

/-- `np.sum([len(pt.xy) for pt in pts])`, vd.py:736. -/
def countPts (pts : List (List (Rat × Rat))) : Nat := (pts.map List.length).sum

/-- vd.py:737-738. -/
def Kinds.total (c : Kinds) : Nat := (c.iter.map countPts).sum

/-- `dens *= c`: `None` cannot be multiplied. -/
def scaleDens (c : Rat) : Option Dens → Res (Option Dens)
  | none => .error .typeError
  | some d => .ok (some { d with v := fun i j => d.v i j * c })

/-- `get_points_density(kind, bw_method, resolution, output_format)`, vd.py:681-741; `fmt` is `none` for 'absolute'.  The kernel and its factor depend
on the points.  `absolute = False` is in the loop on the sets (728): without any, the name is not defined, if it is not by 'absolute' (730). -/
def kindDensity (K : List (Rat × Rat) → Rat → Rat → Rat) (f : List (Rat × Rat) → Rat) (res : Int) (fmt : Option Format) (c : Kinds) (k : Kind) :
    Res (Option Dens) :=
  match c.of k with
  | .error e => .error e
  | .ok pts =>
    match density (K pts.flatten) (f pts.flatten) res (fmt.getD .normalized) pts.flatten with
    | .error e => .error e
    | .ok d =>
      match fmt with
      | none => scaleDens ((countPts pts : Rat) / c.total) d
      | some _ => if pts = [] then .error .nameError else .ok d

end IMT.Cloud
