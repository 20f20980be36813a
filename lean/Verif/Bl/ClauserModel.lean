import Verif.Bl.FieldModel
import Mathlib.Analysis.SpecialFunctions.Pow.Real

/-! Model of `get_clauser_thickness` (`/repo/IMTreatment/boundary_layer/boundary_layer.py`). -/

namespace IMT.Meas

open IMT.Profile IMT.Line

/-- `get_displ_thickness(obj)*v_top/u_star`, boundary_layer.py:889-893; NaN and the infinities are `none`. -/
noncomputable def clauserOf (d vTop : F) (tau rho : ℝ) : Option ℝ :=
  match d, vTop with
  | some d, some v => if 0 < tau / rho then some ((d : ℝ) * v / Real.sqrt (tau / rho)) else none
  | _, _ => none

/-- `get_clauser_thickness(profile, rho=rho, tau=tau)`, boundary_layer.py:882-893, for a given `tau`; `obj.y[-1]` is the last value. -/
noncomputable def clauser (srt : List Rat → List Nat) (p : Prof) (tau rho : ℝ) : Res (Option ℝ) :=
  match (getY p).getLast? with
  | none => .error .indexError
  | some v => match displThickness srt p with
    | .error e => .error e
    | .ok d => .ok (clauserOf d.val v tau rho)

/-- `get_clauser_thickness(field, direction)`, boundary_layer.py:895-903: `for prof, _ in profiles` unpacks a `Profile`, that cannot be iterated on. -/
def clauserOn (main : Bool) (srt : List Rat → List Nat) (f : SF) (d : DirArg) : Res (List (Rat × Option ℝ)) :=
  match collect ((swept f d).map (lineAt main srt f d)) with
  | .error e => .error e
  | .ok [] => .ok []
  | .ok (_ :: _) => .error .typeError

end IMT.Meas
