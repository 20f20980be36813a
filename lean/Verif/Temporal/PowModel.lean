import Verif.Temporal.Model
import Verif.Quant.Model

/-!
Model of two more operations on the records of scalar fields (`/repo/IMTreatment/core/temporalfields.py`): quotient by a field, power.
-/

namespace IMT.Temporal

/-- `tf / field`, core/temporalfields.py:128-135: `self.fields[0]` raises IndexError when there is none; the results are stored without time. -/
def divSF (srt : List Rat → List Nat) (t : TF) (g : SF) : Res TF :=
  if t.fields.length = 0 then .error .indexError
  else if t.ax ≠ g.ax ∧ t.ay = g.ay then .error .exception
  else match mapRes (fun f : SF => f.div g) t.fields with
    | .error e => .error e
    | .ok fs => addAll srt TF.empty fs

/-- `tf ** number` with a natural exponent, core/temporalfields.py:147-154: `np.power(field, number)` is `field ** number`. -/
def pow (srt : List Rat → List Nat) (t : TF) (n : Nat) : Res TF := addAll srt TF.empty (t.fields.map fun f => f.pow n)

end IMT.Temporal
