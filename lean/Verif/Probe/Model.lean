import Verif.Mirror.VecModel
import Verif.Line.Model
import Verif.Stat.Model

/-!
Model of the readings of a `VectorField` (`/repo/IMTreatment/core/vectorfield.py`): values at a point, profiles of a component, norm.
-/

namespace IMT.Probe

open Profile (Prof)

/-- `get_value(x, y)`, core/vectorfield.py:629-638, `ind=False`, `unit=False`: the two numbers of the array. -/
def value (main : Bool) (f : VF) (x y : Rat) : Res (Option Rat × Option Rat) :=
  match Mirror.compX f with
  | .error e => .error e
  | .ok sx => match sx.getValue main x y with
    | .error e => .error e
    | .ok u => match Mirror.compY f with
      | .error e => .error e
      | .ok sy => match sy.getValue main x y with
        | .error e => .error e
        | .ok v => .ok (u, v)

/-- The argument `component`. -/
inductive Comp where
  | vx | vy | bad
  deriving DecidableEq

/-- The field asked, core/vectorfield.py:671-679. -/
def asked (f : VF) : Comp → Res SF
  | .vx => Mirror.compX f
  | .vy => Mirror.compY f
  | .bad => .error .typeError

/-- `get_profile(component, direction, position, interp=interp)` for a number, core/vectorfield.py:640-679. -/
def profile (main : Bool) (srt : List Rat → List Nat) (f : VF) (c : Comp) (d : Line.Dir) (v : Rat) (interp : Line.Interp) : Res Prof :=
  match asked f c with
  | .error e => .error e
  | .ok s => Line.getProfile main srt s d v interp

/-- `get_profile(component, direction, i, ind=True, interp=interp)` for an integer, core/vectorfield.py:640-679. -/
def profileInd (main : Bool) (srt : List Rat → List Nat) (f : VF) (c : Comp) (d : Line.Dir) (i : Int) (interp : Line.Interp) : Res Prof :=
  match asked f c with
  | .error e => .error e
  | .ok s => Line.getProfileInd main srt s d i interp

/-- `get_profile(component, direction, [a, b])`, core/vectorfield.py:640-679. -/
def profileBetween (srt : List Rat → List Nat) (f : VF) (c : Comp) (d : Line.Dir) (a b : Rat) : Res Prof :=
  match asked f c with
  | .error e => .error e
  | .ok s => Line.getProfileBetween srt s d a b

/-- The vectors of the unmasked points, row after row. -/
def seen (f : VF) : List (Rat × Rat) :=
  ((List.range f.ax.length).flatMap fun i => (List.range f.ay.length).map fun j => f.cell i j).filterMap id

/-- `values`, core/vectorfield.py:690-691: all the x components, then all the y components. -/
def values (f : VF) : List Rat := (seen f).map Prod.fst ++ (seen f).map Prod.snd

/-- `get_norm(norm=p, normalized)`, core/vectorfield.py:686-695, for a positive number `p` and a field with an unmasked point. -/
noncomputable def norm (f : VF) (p : ℝ) (perPoint : Bool) : ℝ :=
  if perPoint then (((values f).map fun v : Rat => |(v : ℝ)| ^ p).sum) ^ (1 / p) / (seen f).length
  else (((values f).map fun v : Rat => |(v : ℝ)| ^ p).sum) ^ (1 / p)

end IMT.Probe
