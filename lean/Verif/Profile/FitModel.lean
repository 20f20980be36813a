import Verif.Profile.Model

/-!
Model of `get_fitting` of a `Profile` (`/repo/IMTreatment/core/profile.py:957-1001`).  The optimiser `spopt.leastsq` is a parameter.
-/

namespace IMT.Profile

/-- `min_func(args, x, y)`, profile.py:988-989: the differences between the profile and the function. -/
def residual (func : Rat → List Rat → Rat) (p : Prof) (args : List Rat) : List F :=
  (pts p).map fun q => q.2.map fun y => y - func q.1 args

/-- The sum of squares that `leastsq` makes least, NaN as soon as a difference is. -/
def squares : List F → F
  | [] => some 0
  | none :: _ => none
  | some a :: l => (squares l).map fun s => a ^ 2 + s

/-- `get_fitting(func, p0)`, profile.py:957-1001, with `nargs` the number of arguments of the function (`func.__code__.co_argcount`) and `leastsq` applied to the
differences and the first guess. -/
def getFitting (srt : List Rat → List Nat) (leastsq : (List Rat → List F) → List Rat → List Rat) (func : Rat → List Rat → Rat) (nargs : Nat)
    (p0 : Option (List Rat)) (p : Prof) : Res (Prof × List Rat) :=
  let guess := match p0 with
    | none => List.replicate (nargs - 1) 1
    | some g => g
  let param := leastsq (residual func p) guess
  match new srt p.x (p.x.map fun x => some (func x param)) (.flag false) p.ux p.uy with
  | .error e => .error e
  | .ok r => .ok (r, param)

end IMT.Profile
