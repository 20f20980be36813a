import Verif.Detect.Model
import Verif.Axis.Model

/-!
Model of `get_critical_points` (`/repo/IMTreatment/vortex_detection/vortex_detection.py`, "vd.py"), around the detection itself (Verif.Pbi): walls,
smoothing, records.  `VectorField.mirroring`, the smoothing and the detection are parameters.  Arguments of wrong types and threads are not modelled.
-/

namespace IMT.Detect

open Cp (CP Pts Kind)

variable {Tr I : Type}

/-- What the function calls: `mirroring` with the method of `mirror_interp` (vd.py:2705-2715), `smooth` (vd.py:2720), the detection (vd.py:2722-2738). -/
structure Tools (Tr I : Type) where
  mirror : I → Bool × Rat → VF → Res VF
  smooth : VF → VF
  detect : VF → Rat → Res (CP Tr)

/-- A wall: its direction (`true` for 'x') and its position. -/
abbrev Wall := Bool × Rat

/-- The loop of mirrorings on the copy, vd.py:2702-2715. -/
def mirrorAll (T : Tools Tr I) (i : I) : List Wall → VF → Res VF
  | [], f => .ok f
  | w :: l, f => match T.mirror i w f with
    | .error e => .error e
    | .ok g => mirrorAll T i l g

/-- The axis of a direction. -/
def axis (f : VF) (d : Bool) : List Rat := if d then f.ax else f.ay

/-- `(axe[-1] + axe[0])/2.`, vd.py:2741-2742. -/
def median (l : List Rat) : Rat := (l.getLastD 0 + l.headD 0) / 2

/-- `intervx` and `intervy`, vd.py:2743-2744: by direction, the lower (`true`) and the upper bound; nothing for an infinite bound. -/
abbrev Win := Bool → Bool → Option Rat

/-- One bound replaced. -/
def Win.set (w : Win) (d low : Bool) (a : Rat) : Win := fun d' low' => if d' = d ∧ low' = low then some a else w d' low'

/-- `axe[ind - 1]`, with the indices of python: before the first one is the last one. -/
def before (l : List Rat) (i : Nat) : Res Rat :=
  match l[if i = 0 then l.length - 1 else i - 1]? with
  | some a => .ok a
  | none => .error .indexError

/-- `axe[ind + 1]`. -/
def after (l : List Rat) (i : Nat) : Res Rat :=
  match l[i + 1]? with
  | some a => .ok a
  | none => .error .indexError

/-- `position > interv[0]`. -/
def aboveLow (b : Option Rat) (p : Rat) : Bool := match b with
  | none => true
  | some a => decide (p > a)

/-- `position < interv[1]`. -/
def belowHigh (b : Option Rat) (p : Rat) : Bool := match b with
  | none => true
  | some a => decide (p < a)

/-- One turn of the loop of vd.py:2746-2759. -/
def narrow (f : VF) (w : Win) (q : Wall) : Res Win :=
  if decide (q.2 < median (axis f q.1)) && aboveLow (w q.1 true) q.2 then
    match Axis.bounds (axis f q.1) q.2 with
    | .error e => .error e
    | .ok ij => match before (axis f q.1) ij.1 with
      | .error e => .error e
      | .ok a => .ok (w.set q.1 true a)
  else if belowHigh (w q.1 false) q.2 then
    match Axis.bounds (axis f q.1) q.2 with
    | .error e => .error e
    | .ok ij => match after (axis f q.1) ij.2 with
      | .error e => .error e
      | .ok a => .ok (w.set q.1 false a)
  else .ok w

/-- The loop of vd.py:2746-2759. -/
def window (f : VF) : Win → List Wall → Res Win
  | w, [] => .ok w
  | w, q :: l => match narrow f w q with
    | .error e => .error e
    | .ok w' => window f w' l

/-- A coordinate within the bounds of its direction. -/
def within (w : Win) (d : Bool) (v : Rat) : Bool :=
  (match w d true with
    | none => true
    | some a => decide (a ≤ v)) &&
  (match w d false with
    | none => true
    | some b => decide (v ≤ b))

/-- `res.crop(intervx, intervy)`, vd.py:2760 and 1341-1348. -/
def cropWin (w : Win) (c : CP Tr) : CP Tr :=
  Cp.removeTrajectories { c with pts := fun k => (c.pts k).map fun p => { p with xy := p.xy.filter fun q => within w true q.1 && within w false q.2 } }

/-- The detection on a field ready for it and the cropping, vd.py:2722-2760. -/
def detectCropped (T : Tools Tr I) (walls : List Wall) (t : Rat) (g : VF) : Res (CP Tr) :=
  match T.detect g t with
  | .error e => .error e
  | .ok c =>
    if walls = [] then .ok c
    else match window g (fun _ _ => none) walls with
      | .error e => .error e
      | .ok w => .ok (cropWin w c)

/-- `get_critical_points(field, time, mirroring, mirror_interp, smoothing_size)`, vd.py:2696-2760: the field of the caller after the call, and the
result.  An empty list of walls is no wall (vd.py:2675-2676). -/
def points (T : Tools Tr I) (i : I) (walls : List Wall) (smoothing : Rat) (t : Rat) (f : VF) : VF × Res (CP Tr) :=
  if smoothing < 0 then (f, .error .valueError)
  else if f.mask.any id then (f, .error .valueError)
  else if walls = [] then
    if smoothing ≠ 0 then (T.smooth f, detectCropped T walls t (T.smooth f)) else (f, detectCropped T walls t f)
  else match mirrorAll T i walls f with
    | .error e => (f, .error e)
    | .ok g => (f, detectCropped T walls t (if smoothing ≠ 0 then T.smooth g else g))

/-- The loop on the fields of a record, vd.py:2782-2784: `get_cp_on_one_field` (vd.py:2769-2779) does not give `mirror_interp`, whose default is `linear`. -/
def pointsLoop (T : Tools Tr I) (linear : I) (walls : List Wall) (smoothing : Rat) : CP Tr → List (Rat × VF) → List (Rat × VF) × Res (CP Tr)
  | c, [] => ([], .ok c)
  | c, q :: l =>
    match points T linear walls smoothing q.1 q.2 with
    | (g, .error e) => ((q.1, g) :: l, .error e)
    | (g, .ok r) => match Cp.add c r with
      | .error e => ((q.1, g) :: l, .error e)
      | .ok c' => ((q.1, g) :: (pointsLoop T linear walls smoothing c' l).1, (pointsLoop T linear walls smoothing c' l).2)

/-- `get_critical_points(fields, ...)` for a record, vd.py:2692-2693, 2762-2796; `i` is the argument `mirror_interp`. -/
def recordPoints (T : Tools Tr I) (linear : I) (_i : I) (walls : List Wall) (smoothing : Rat) (ut : Sym) (fs : List (Rat × VF)) : List (Rat × VF) × Res (CP Tr) :=
  if smoothing < 0 then (fs, .error .valueError)
  else if fs.any fun q => q.2.mask.any id then (fs, .error .valueError)
  else pointsLoop T linear walls smoothing (Cp.new ut) fs

end IMT.Detect
