import Verif.Centre.Model
import Verif.Cp.Model
import Verif.Scalar.BorderModel
import Verif.Scalar.ArithModel
import Verif.Vector.Model

/-!
Model of `get_vortex_position` (`/repo/IMTreatment/vortex_detection/vortex_detection.py`, "vd.py").  The criterion is a parameter.  Arguments of wrong
types are not modelled.
-/

namespace IMT.Detect

open Centre (Lab Pick zonesCenters visible)
open Cp (CP Pts Kind)

/-- The criterion and the cropping of its borders, vd.py:2888-2892: any exception becomes TypeError; without masked value the cropping does nothing. -/
def cropped (crit : Res SF) : Res SF :=
  match crit with
  | .error _ => .error .typeError
  | .ok f => match f.cropMaskedSoft with
    | .error _ => .error .typeError
    | .ok none => .ok f
    | .ok (some g) => .ok g

/-- `np.max(np.abs(sf.values[~sf.mask]))`, vd.py:2896. -/
def peak (f : SF) : Option Rat := ((visible f).map fun v => |v|).max?

/-- `bornes_n`, vd.py:2900-2905. -/
def lower (m t : Rat) : Rat × Rat := if m > t then (-m, -t) else (-(t * (11 / 10)), -t)

/-- `bornes_p`, vd.py:2900-2905. -/
def upper (m t : Rat) : Rat × Rat := if m > t then (t, m) else (t, t * (11 / 10))

/-- The positions of the zones and the units of the field, as a set of points. -/
def asPts (f : SF) (l : Option (List (Rat × Rat))) : Option Pts := l.map fun xy => ⟨f.ux, f.uy, xy⟩

/-- `_get_vortex_position_on_VF`, vd.py:2849-2910, from the outcome of the criterion: zones of negative values, zones of positive values. -/
def onField (L : Lab) (pick : Pick) (thr : Rat) (rel : Bool) (crit : Res SF) : Res (Option Pts × Option Pts) :=
  if thr < 0 then .error .valueError
  else if rel && decide (thr > 1) then .error .valueError
  else match cropped crit with
    | .error e => .error e
    | .ok f => match peak f with
      | none => .error .valueError
      | some m =>
        match zonesCenters L pick (lower m (if rel then thr * m else thr)) false .ponderated f with
        | .error e => .error e
        | .ok n => match zonesCenters L pick (upper m (if rel then thr * m else thr)) false .ponderated f with
          | .error e => .error e
          | .ok p => .ok (asPts f n, asPts f p)

/-- The arguments of `add_point`, vd.py:2826-2832, 2838-2844: the first set returned is received as `vort_c`, the second one as `vort`. -/
def given (r : Option Pts × Option Pts) : Kind → Option Pts
  | .foc => r.2
  | .focC => r.1
  | _ => none

variable {Tr : Type}

/-- `get_vortex_position(field)`, vd.py:2824-2833. -/
def vortices (L : Lab) (pick : Pick) (crit : VF → Res SF) (thr : Rat) (rel : Bool) (f : VF) : Res (CP Tr) :=
  match onField L pick thr rel (crit f) with
  | .error e => .error e
  | .ok r => match Cp.addPoint (Cp.new Sym.one) (given r) 0 with
    | (_, .error e) => .error e
    | (c, .ok _) => .ok c

/-- The loop on the fields, vd.py:2837-2844. -/
def loop (L : Lab) (pick : Pick) (crit : VF → Res SF) (thr : Rat) (rel : Bool) : CP Tr → List (Rat × VF) → Res (CP Tr)
  | c, [] => .ok c
  | c, (t, f) :: l => match onField L pick thr rel (crit f) with
    | .error e => .error e
    | .ok r => match Cp.addPoint c (given r) t with
      | (_, .error e) => .error e
      | (c', .ok _) => loop L pick crit thr rel c' l

/-- `get_vortex_position(fields)` for a record, vd.py:2834-2846; `ut` is the unit of its times. -/
def recordVortices (L : Lab) (pick : Pick) (crit : VF → Res SF) (thr : Rat) (rel : Bool) (ut : Sym) (fs : List (Rat × VF)) : Res (CP Tr) :=
  loop L pick crit thr rel (Cp.new ut) fs

end IMT.Detect
