import Verif.Temporal.Model
import Verif.Mirror.Model

/-!
Model of `extend` and `mirroring` of `TemporalFields` (`/repo/IMTreatment/core/temporalfields.py`) on scalar fields.
-/

namespace IMT.Trace

open Temporal (TF mapRes)
open Line (Dir)
open Mirror (Interp)

/-- `extend(nmb_left, nmb_right, nmb_up, nmb_down)`, core/temporalfields.py:954-985: the axes of the record by `Field.extend`, then every
field.  Modelled for numbers that are not negative. -/
def extend (t : TF) (nl nr nu nd : Nat) : Res TF :=
  match Axis.extend t.ax nl nr, Axis.extend t.ay nd nu with
  | .ok ax, .ok ay =>
    match mapRes (fun f : SF => f.extendInplace nl nr nu nd none) t.fields with
    | .error e => .error e
    | .ok fs => .ok { t with ax := ax, ay := ay, fields := fs }
  | .error e, _ => .error e
  | _, .error e => .error e

/-- `mirroring(direction, position, inds_to_mirror, mir_coef, interp, value)`, core/temporalfields.py:1400-1417: `tmp_tf.__axe_x` (1413)
is an attribute `_TemporalFields__axe_x`, which is not the axis of the record; `self.fields[0]` raises IndexError on an empty record. -/
def mirroring (main : Bool) (t : TF) (d : Dir) (pos : Rat) (inds : Option Int) (coef : Rat) (interp : Interp) : Res TF :=
  match mapRes (fun f : SF => Mirror.mirroring main f d pos inds coef interp) t.fields with
  | .error e => .error e
  | .ok fs => if fs = [] then .error .indexError else .ok { t with fields := fs }

end IMT.Trace
