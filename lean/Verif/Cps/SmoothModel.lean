import Verif.Cps.Model
import Verif.TPoints.SmoothModel

/-!
Model of `CritPoints.smooth_traj` (`/repo/IMTreatment/vortex_detection/vortex_detection.py`, "vd.py"), for trajectories of numbers.
-/

namespace IMT.Cps

open Cp (Kind kinds)
open Points (P)
open TPoints (Scipy Tos smoothPts)

/-- `for traj in typ: traj.smooth(tos=tos, size=size, inplace=True)`, vd.py:1423-1424: the trajectories afterwards, and the outcome. -/
def smoothSets (s : Scipy) (tos : Tos) : List P → List P × Res PUnit
  | [] => ([], .ok ⟨⟩)
  | p :: ps => match smoothPts s false tos p true with
    | (q, .error e) => (q :: ps, .error e)
    | (q, .ok _) => (q :: (smoothSets s tos ps).1, (smoothSets s tos ps).2)

/-- The loop of vd.py:1422-1424 on the kinds given: `None` is not iterable. -/
def smoothKinds (s : Scipy) (tos : Tos) (c : CP) : List Kind → CP × Res PUnit
  | [] => (c, .ok ⟨⟩)
  | k :: ks => match c.traj k with
    | none => (c, .error .typeError)
    | some t => match smoothSets s tos t.sets with
      | (l, .error e) => ({ c with traj := fun k' => if k' = k then some { t with sets := l } else c.traj k' }, .error e)
      | (l, .ok _) => smoothKinds s tos { c with traj := fun k' => if k' = k then some { t with sets := l } else c.traj k' } ks

/-- `smooth_traj(tos, size)`, vd.py:1407-1424: the object afterwards, and the outcome. -/
def smoothTraj (s : Scipy) (tos : Tos) (c : CP) : CP × Res PUnit := smoothKinds s tos c kinds

end IMT.Cps
