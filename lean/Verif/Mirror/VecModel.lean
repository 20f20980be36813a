import Verif.Mirror.Model

/-! Model of `VectorField.mirroring` (core/vectorfield.py:1116-1186). -/

namespace IMT.Mirror

open Line (Dir axe)

/-- `comp_x_as_sf`, core/vectorfield.py:311-318. -/
def compX (f : VF) : Res SF := SF.importArrays f.ax f.ay f.cx (.array f.mask) f.ux f.uy f.uv

/-- `comp_y_as_sf`, core/vectorfield.py:338-345. -/
def compY (f : VF) : Res SF := SF.importArrays f.ax f.ay f.cy (.array f.mask) f.ux f.uy f.uv

/-- The argument `mir_coef`: a number or a pair. -/
inductive Coef where
  | number (c : Rat)
  | pair (a b : Rat)

/-- `coefx` and `coefy`, core/vectorfield.py:1151-1165. -/
def coefs (d : Dir) : Coef → Rat × Rat
  | .number c => match d with
    | .x => (-1 * c, 1 * c)
    | .y => (1 * c, -1 * c)
  | .pair a b => (a, b)

/-- The argument `interp`: missing, or 'value' with a pair of values. -/
inductive VInterp where
  | none
  | value (u v : Rat)

/-- `value[0]`, core/vectorfield.py:1168. -/
def VInterp.x : VInterp → Interp
  | .none => .none
  | .value u _ => .value u

/-- `value[1]`, core/vectorfield.py:1171. -/
def VInterp.y : VInterp → Interp
  | .none => .none
  | .value _ v => .value v

/-- `np.logical_or(vx.mask, vy.mask)`, core/vectorfield.py:1178. -/
def orMask (a b : SF) : Grid Bool := ⟨a.mask.nx, a.mask.ny, fun i j => a.mask.get i j || b.mask.get i j⟩

/-- The storage, core/vectorfield.py:1179-1182. -/
def join (gx gy : SF) : Res VF :=
  VF.importArrays gx.ax gx.ay gx.values gy.values (.array (orMask gx gy)) gx.ux gy.uy gx.uv

/-- `VectorField.mirroring`, core/vectorfield.py:1116-1186. -/
def vmirroring (main : Bool) (f : VF) (d : Dir) (pos : Rat) (inds : Option Int) (coef : Coef) (interp : VInterp) : Res VF :=
  match compX f, compY f with
  | .ok sx, .ok sy =>
    match mirroring main sx d pos inds (coefs d coef).1 interp.x with
    | .error e => .error e
    | .ok gx =>
      match mirroring main sy d pos inds (coefs d coef).2 interp.y with
      | .error e => .error e
      | .ok gy => join gx gy
  | .error e, _ => .error e
  | _, .error e => .error e

end IMT.Mirror
