import Verif.Temporal.ShareModel

/-!
Model of the spatial `crop` in place of a record of scalar fields (`/repo/IMTreatment/core/temporalfields.py:1477-1537`) whose fields are objects of a
memory, which may be shared (`add_field(copy=False)`), the state after an exception included.  Simplification: `intervt` is not given.
-/

namespace IMT.Temporal

/-- `for field in cropfield.fields: field.crop(..., inplace=True)`, temporalfields.py:1532-1534.  Simplification: an address without object, which
python does not have, is passed over. -/
def loopHeld (step : SF → Res SF) (m : List SF) : List Nat → List SF × Res PUnit
  | [] => (m, .ok ⟨⟩)
  | a :: as => match m[a]? with
    | none => loopHeld step m as
    | some f => match step f with
      | .error e => (m, .error e)
      | .ok g => loopHeld step (m.set a g) as

/-- The end of `crop`, temporalfields.py:1530-1534: the parent, whose crop writes its own axes only (core/field.py:562-566), then the fields. -/
def cropAll (step : SF → Res SF) (m : List SF) (t : Held) : List SF × Held × Res PUnit :=
  match step t.frame with
  | .error e => (m, t, .error e)
  | .ok g => match loopHeld step m t.held with
    | (m', r) => (m', { t with ax := g.ax, ay := g.ay }, r)

/-- `crop(intervx, intervy, inplace=True)`. -/
def cropHeld (m : List SF) (t : Held) (ix iy : Option (Rat × Rat)) : List SF × Held × Res PUnit := cropAll (fun f => f.crop ix iy) m t

/-- `crop(intervx, intervy, ind=True, inplace=True)`. -/
def cropIndHeld (m : List SF) (t : Held) (ix iy : Option (Int × Int)) : List SF × Held × Res PUnit := cropAll (fun f => f.cropInd ix iy) m t

end IMT.Temporal
