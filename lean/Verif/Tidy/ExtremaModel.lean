import Verif.Tidy.Model

/-!
Model of `Profile.get_extrema_position` (`/repo/IMTreatment/core/profile.py`).
-/

namespace IMT.Tidy

open Profile

/-- `tmp_y[0:-1] += tmp_y[1::]` then `tmp_y[1::] += tmp_y[0:-1]`, profile.py:1109-1110: each operation reads the values from before it. -/
def accum (a : List Rat) : List Rat :=
  let b := (List.range a.length).map fun i => if i + 1 < a.length then a.getD i 0 + a.getD (i + 1) 0 else a.getD i 0
  (List.range a.length).map fun i => if 0 < i then b.getD i 0 + b.getD (i - 1) 0 else b.getD i 0

/-- `grad_min` and `grad_max` of `get_extrema_position()`, profile.py:1100-1117, without smoothing. -/
def extremaGrads (p : Prof) : Res (Prof × Prof) :=
  match gradientProfile p with
  | .error e => .error e
  | .ok g => match gradientProfile g with
    | .error e => .error e
    | .ok g2 =>
      let maxFilt := (accum ((getY g2).map fun v => v.getD 0)).map fun v => decide (v < 0)
      let gMax := (setMask g (List.zipWith (fun b c => !b || c) maxFilt g.m)).1
      let gMin := (setMask g (List.zipWith (fun b c => b || c) maxFilt g.m)).1
      .ok (gMin, gMax)

/-- `get_extrema_position()`, profile.py:1082-1136, without smoothing and with `ind=False`: minima, then maxima. -/
def extrema (p : Prof) : Res (List Rat × List Rat) :=
  match extremaGrads p with
  | .error e => .error e
  | .ok g => .ok (valuePosition g.1 0, valuePosition g.2 0)

/-- A profile with the indices for abscissae. -/
def byIndex (p : Prof) : Prof := { p with x := (List.range p.x.length).map fun i : Nat => (i : Rat) }

/-- `get_extrema_position(ind=True)`, profile.py:1082-1136, without smoothing: `get_value_position(0, ind=True)` (604-650) differs from the
other one by `x_1 = ind_0` and `x_2 = ind_0 + 1` only. -/
def extremaInd (p : Prof) : Res (List Rat × List Rat) :=
  match extremaGrads p with
  | .error e => .error e
  | .ok g => .ok (valuePosition (byIndex g.1) 0, valuePosition (byIndex g.2) 0)

end IMT.Tidy
