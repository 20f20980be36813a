import Verif.Spatial.AlgebraModel
import Verif.Quant.Model

/-!
Model of `__pow__` of a `SpatialScalarFields` (`/repo/IMTreatment/core/spatialfields.py:76-83`).
-/

namespace IMT.Spatial

/-- The loop of `__pow__`, core/spatialfields.py:81-82; `np.power(field, number)` is `field ** number`. -/
def powLoop (n : Nat) : SP → List SF → Res SP
  | acc, [] => .ok acc
  | acc, f :: fs => match addField acc (f.pow n) with
    | (_, _, .error e) => .error e
    | (s, _, .ok _) => powLoop n s fs

/-- `__pow__` with a natural exponent, core/spatialfields.py:76-83. -/
def powAll (s : SP) (n : Nat) : Res SP := powLoop n SP.empty s.fields

end IMT.Spatial
