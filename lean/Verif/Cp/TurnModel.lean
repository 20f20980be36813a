import Verif.Tidy.ExtremaModel

/-!
Model of `CritPoints.get_traj_direction_changement` (`/repo/IMTreatment/vortex_detection/vortex_detection.py`), without smoothing.
-/

namespace IMT.Turn

open Profile Tidy

/-- A point of a trajectory: position and time. -/
structure Pt where
  x : Rat
  y : Rat
  t : Rat
  deriving DecidableEq

/-- The units of a trajectory: of x, of y, of the times. -/
structure Units where
  ux : Sym
  uy : Sym
  ut : Sym

/-- The argument `direction`. -/
inductive Dir where
  | x
  | y
  | other

/-- `Profile(traj.v, values, unit_x=traj.unit_v, unit_y=unit)`, vortex_detection.py:800-805.  The times of a trajectory increase, so that the
sort of the constructor (profile.py:57-93) moves nothing. -/
def profOf (f : Pt → Rat) (ut uf : Sym) (tr : List Pt) : Prof := ⟨tr.map Pt.t, tr.map fun p => some (f p), tr.map fun _ => false, ut, uf⟩

/-- `get_interpolated_values(x=inds, ind=True)`, profile.py:518-525, for one of the indices, profile.py:570-602: NaN when nothing is found. -/
def atIndex (p : Prof) (k : Rat) : F := ((atX (byIndex p) k).head?).getD none

/-- `x_min[i], y_min[i], t_min[i]`, vortex_detection.py:822-833. -/
def pick (u : Units) (tr : List Pt) (k : Rat) : F × F × F :=
  (atIndex (profOf Pt.x u.ut u.ux tr) k, atIndex (profOf Pt.y u.ut u.uy tr) k, atIndex (profOf Pt.t u.ut u.ut tr) k)

/-- `prof_a`, vortex_detection.py:811-817. -/
def along (u : Units) (dir : Dir) (tr : List Pt) : Res Prof :=
  match dir with
  | .x => .ok (profOf Pt.x u.ut u.ux tr)
  | .y => .ok (profOf Pt.y u.ut u.uy tr)
  | .other => .error .valueError

/-- The body of the loop on trajectories, vortex_detection.py:795-836: points for the minima and for the maxima. -/
def ofTraj (u : Units) (dir : Dir) (tr : List Pt) : Res (List (F × F × F) × List (F × F × F)) :=
  if tr.length ≤ 2 then .ok ([], [])
  else match along u dir tr with
    | .error e => .error e
    | .ok p =>
      match extremaInd p with
      | .error e => .error e
      | .ok r => .ok (r.1.map (pick u tr), r.2.map (pick u tr))

/-- The loop, vortex_detection.py:795-836. -/
def loop (u : Units) (dir : Dir) : List (List Pt) → Res (List (F × F × F) × List (F × F × F))
  | [] => .ok ([], [])
  | tr :: l =>
    match ofTraj u dir tr with
    | .error e => .error e
    | .ok a =>
      match loop u dir l with
      | .error e => .error e
      | .ok b => .ok (a.1 ++ b.1, a.2 ++ b.2)

/-- `get_traj_direction_changement(cp_type, direction)`, vortex_detection.py:768-838: `none` stands for a type without trajectories in the object
(ValueError); `trajs[0]` raises IndexError when there is none of the type.  The trajectories are in the same units. -/
def directionChanges (u : Units) (trajs : Option (List (List Pt))) (dir : Dir) : Res (List (F × F × F) × List (F × F × F)) :=
  match trajs with
  | none => .error .valueError
  | some [] => .error .indexError
  | some l => loop u dir l

end IMT.Turn
