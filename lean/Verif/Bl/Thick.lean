import Verif.Profile.Model

/-!
Model of the measured boundary layers of `boundary_layer/boundary_layer.py`: thicknesses, shape factor and shear stress of a
`Profile`.  Numbers are rational; `none` stands for NaN and for the infinities of a division by zero.
-/

namespace IMT.Meas

open IMT.Profile

/-- `get_bl_thickness(obj, perc)` for a Profile, boundary_layer.py:840-845. -/
def thickness (p : Prof) (perc : Rat) : Res Rat :=
  match max? p with
  | none => .ok 0
  | some m => match atY p (m * perc) with
    | [] => .error .indexError
    | t :: _ => .ok (t.getD 0)

/-- `pos_x, pos_y`, boundary_layer.py:939-945 and 996-1002: a point at rest is added at the wall. -/
def withWall (l : List (Rat × F)) : List (Rat × F) :=
  match l with
  | [] => []
  | r :: l => if r.1 ≠ 0 then (0, some 0) :: r :: l else r :: l

/-- All the values, when none is NaN. -/
def numbers : List (Rat × F) → Option (List (Rat × Rat))
  | [] => some []
  | (x, some v) :: l => (numbers l).map ((x, v) :: ·)
  | (_, none) :: _ => none

/-- `np.max`, of a list that is not empty. -/
def maxi : List (Rat × Rat) → Rat
  | [] => 0
  | r :: l => l.foldl (fun m q => max m q.2) r.2

/-- `np.trapz(fonct, pos_x)` with `fonct = w(pos_y/np.max(pos_y))`, boundary_layer.py:947-948 and 1004-1005. -/
def integrated (w : Rat → Rat) (l : List (Rat × F)) : F :=
  match numbers l with
  | none => none
  | some l => if maxi l = 0 then none else some (trapz (l.map fun r => (r.1, w (r.2 / maxi l))))

/-- What the thickness functions return: the python integer 0, or a float. -/
inductive Out where
  | zero
  | num (v : F)
  deriving DecidableEq

/-- The value of the answer. -/
def Out.val : Out → F
  | .zero => some 0
  | .num v => v

/-- `get_displ_thickness` and `get_momentum_thickness` for a Profile, boundary_layer.py:925-949 and 982-1006.  `obj.y` is never a
masked array (profile.py:281-284), so that lines 934-937 do nothing. -/
def layer (srt : List Rat → List Nat) (w : Rat → Rat) (p : Prof) : Res Out :=
  match thickness p (95 / 100) with
  | .error e => .error e
  | .ok t =>
    if t = 0 then .ok .zero
    else match crop srt p (some (0, t)) none with
      | .error e => .error e
      | .ok q => if q.x.length = 0 then .ok .zero else .ok (.num (integrated w (withWall (pts q))))

/-- `fonct`, boundary_layer.py:947. -/
def deficit (r : Rat) : Rat := 1 - r
/-- `fonct`, boundary_layer.py:1004. -/
def momentum (r : Rat) : Rat := r * (1 - r)

/-- `get_displ_thickness(profile)`. -/
def displThickness (srt : List Rat → List Nat) (p : Prof) : Res Out := layer srt deficit p
/-- `get_momentum_thickness(profile)`. -/
def momThickness (srt : List Rat → List Nat) (p : Prof) : Res Out := layer srt momentum p

/-- Division of floats; NaN and infinities are `none`. -/
def divF (a b : F) : F :=
  match a, b with
  | some a, some b => if b = 0 then none else some (a / b)
  | _, _ => none

/-- `displ/mom`: python refuses to divide by the integer 0. -/
def Out.div (a b : Out) : Res F :=
  match a, b with
  | .zero, .zero => .error .zeroDivision
  | a, b => .ok (divF a.val b.val)

/-- `get_shape_factor(profile)`, boundary_layer.py:1038-1043. -/
def shapeFactor (srt : List Rat → List Nat) (p : Prof) : Res F :=
  match displThickness srt p with
  | .error e => .error e
  | .ok d => match momThickness srt p with
    | .error e => .error e
    | .ok m => d.div m

/-! ### Shear stress -/

/-- `np.gradient(y, dx)`: differences at the ends, centred differences inside; NaN where a used value is NaN. -/
def gradAt (y : List F) (dx : Rat) (i : Nat) : F :=
  if i = 0 then (y.getD 1 none).bind fun b => (y.getD 0 none).map fun a => (b - a) / dx
  else if i + 1 = y.length then (y.getD i none).bind fun b => (y.getD (i - 1) none).map fun a => (b - a) / dx
  else (y.getD (i + 1) none).bind fun b => (y.getD (i - 1) none).map fun a => (b - a) / (2 * dx)

/-- The even spacing test of profile.py:682-685. -/
def evenly (xs : List Rat) : Bool :=
  let dxs := List.zipWith (fun a b => b - a) xs xs.tail
  dxs.all fun d => decide (|d - (xs.getD 1 0 - xs.getD 0 0)| < 1 / 1000000 * (dxs.max?).getD 0)

/-- `get_gradient()`, profile.py:663-692.  (`unit.asNumber()` is 1: the quotient of two units carries no number in the model
of units.) -/
def gradient (p : Prof) : Res Prof :=
  if p.x.length < 2 then .error .indexError
  else if evenly p.x = false then .error .exception
  else .ok { setY p ((List.range p.x.length).map (gradAt (getY p) (p.x.getD 1 0 - p.x.getD 0 0))) with uy := p.uy.div p.ux }

/-- `make_unit('m^2/s') * make_unit('kg/m^3')`. -/
def viscUnit : Sym := (⟨2, -1, 0, 1⟩ : Sym).mul ⟨-3, 0, 1, 1⟩

/-- The argument `method`; the logarithmic law needs a solver of scipy and is not modelled. -/
inductive Method where
  | simple | lin | other
  deriving DecidableEq

/-- `get_shear_stress(profile, direction, method, rho, nu)`, boundary_layer.py:1076-1105 and 1134, without `respace`. -/
def shearStress (srt : List Rat → List Nat) (p : Prof) (direction : Int) (k : Method) (rho nu : Rat) : Res Prof :=
  if nu ≤ 0 then .error .valueError
  else if direction ≠ 1 ∧ direction ≠ 2 then .error .valueError
  else match k with
    | .simple => match gradient p with
      | .error e => .error e
      | .ok g => match mulNum srt g nu with
        | .error e => .error e
        | .ok g => match mulNum srt g rho with
          | .error e => .error e
          | .ok g => .ok { g with uy := g.uy.mul viscUnit }
    | .lin =>
      new srt (sel p.x (p.x.map fun x => decide (0 < x)))
        ((sel (pts p) (p.x.map fun x => decide (0 < x))).map fun r => r.2.map fun v => v / r.1 * nu * rho)
        (.arr (sel p.m (p.x.map fun x => decide (0 < x)))) p.ux ((p.uy.div p.ux).mul viscUnit)
    | .other => .error .valueError

end IMT.Meas
