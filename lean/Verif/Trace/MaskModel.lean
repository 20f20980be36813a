import Verif.Trace.BorderModel

/-!
Model of masks given as fields: `mask_as_sf` of scalar fields (`/repo/IMTreatment/core/scalarfield.py`), `mask_as_sf` and `mask_cum_as_sf` of records
(`/repo/IMTreatment/core/temporalfields.py`) on scalar fields.
-/

namespace IMT.Trace

open Temporal (TF mapRes)

/-- An array of booleans as numbers. -/
def ones (m : Grid Bool) : Grid (Option Rat) := ⟨m.nx, m.ny, fun i j => some (if m.get i j then 1 else 0)⟩

/-- `ScalarField.mask_as_sf`, core/scalarfield.py:377-384. -/
def maskSf (f : SF) : Res SF := SF.importArrays f.ax f.ay (ones f.mask) (.bool false) f.ux f.uy f.uv

/-- `TemporalFields.mask_as_sf`, core/temporalfields.py:211-217. -/
def masksSf (t : TF) : Res (List SF) := mapRes maskSf t.fields

/-- `TemporalFields.mask_cum_as_sf`, core/temporalfields.py:225-232. -/
def maskCumSf (t : TF) : Res SF := SF.importArrays t.ax t.ay (ones (maskCum t)) .none t.ux t.uy Sym.one

end IMT.Trace
