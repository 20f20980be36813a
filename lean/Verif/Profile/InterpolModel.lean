import Verif.Profile.Model

/-! Model of `Profile.get_interpolator` and of `get_interpolated_values(ind=True)` (`/repo/IMTreatment/core/profile.py`). -/

namespace IMT.Profile

/-- `get_interpolator(kind='linear', bounds_error, fill_value)(t)`, profile.py:437-485: `scipy.interpolate.interp1d` on the points that are not masked.
Fewer than two of them are refused, at least when a value is asked for (given here as ValueError).  Other kinds and `fill_value='extrapolate'` are not modelled. -/
def interpolator (p : Prof) (bounds : Bool) (fillv : F) (t : Rat) : Res F :=
  if (valid p).length < 2 then .error .valueError
  else match lin (valid p) t with
    | some v => .ok (some v)
    | none => if bounds then .error .valueError else .ok fillv

/-- `get_interpolated_values(x=v, ind=True)`, profile.py:565-572: `np.arange(len(self.x))` instead of the abscissae. -/
def atIndX (p : Prof) (v : Rat) : List F := single (((List.range p.x.length).map fun k : Nat => some (k : Rat)).zip (getY p)) v

/-- `get_interpolated_values(y=v, ind=True)`, profile.py:573-577: `np.arange(self.y)` is refused (TypeError) for an array that does not have one element exactly;
with one element, which is not modelled further, there are as many indices as the value of y. -/
def atIndY (p : Prof) (v : Rat) : Res (List F) := if p.x.length ≠ 1 then .error .typeError else .ok (atY p v)

end IMT.Profile
