import Verif.Bl.Model
import Verif.Bl.Thick
import Verif.Line.Model

/-!
Model of the boundary layer functions applied to a field, and of the profiles of `BlasiusBL` (boundary_layer/boundary_layer.py).
-/

namespace IMT.Bl

/-- `BlasiusBL.get_profile(x, y, allTurbulent)`, boundary_layer.py:197-253, for an array of heights; `f1` is the second component
of the solution of `odeint`.  The turbulent case calls a method `get_thickness` that the class does not have. -/
noncomputable def Blasius.profile (b : Blasius) (turb : Bool) (f1 : ℝ → ℝ) (x : ℝ) (ys : List ℝ) : Res (List ℝ) :=
  if turb then .error .attributeError else .ok (ys.map (b.velocity f1 x))

/-- `get_profile_with_confinement(x, h, y, allTurbulent)`, boundary_layer.py:255-287: the position equivalent to the confined
thickness is computed without `allTurbulent`. -/
noncomputable def Blasius.profileConfined (b : Blasius) (turb : Bool) (f1 : ℝ → ℝ) (x h : ℝ) (ys : List ℝ) : Res (List ℝ) :=
  match b.withConfinement turb h [x] with
  | .error e => .error e
  | .ok [] => .error .indexError
  | .ok (d :: _) => b.profile turb f1 (b.xFromDelta false d) ys

end IMT.Bl

namespace IMT.Meas

open IMT.Profile IMT.Line

/-- The argument `direction`. -/
inductive DirArg where
  | num (n : Int)
  | str (s : String)
  deriving DecidableEq

/-- The swept axis, boundary_layer.py:847-850, 951-954 and 1008-1011. -/
def swept (f : SF) (d : DirArg) : List Rat := if d = .num 1 then f.ax else f.ay

/-- `obj.get_profile(direction, x)`, with the test of scalarfield.py:821-822. -/
def lineAt (main : Bool) (srt : List Rat → List Nat) (f : SF) (d : DirArg) (v : Rat) : Res Prof :=
  match d with
  | .num _ => .error .typeError
  | .str s =>
    if s = "x" then getProfile main srt f .x v .linear
    else if s = "y" then getProfile main srt f .y v .linear
    else .error .typeError

/-- `get_bl_thickness`, `get_displ_thickness` and `get_momentum_thickness` of a ScalarField, boundary_layer.py:846-853, 950-957 and
1007-1014: the points of the profile that is returned, `thick` being the function on profiles. -/
def onField (thick : Prof → Res F) (main : Bool) (srt : List Rat → List Nat) (f : SF) (d : DirArg) : Res (List (Rat × F)) :=
  match collect ((swept f d).map (lineAt main srt f d)) with
  | .error e => .error e
  | .ok ps => match collect (ps.map thick) with
    | .error e => .error e
    | .ok vs => .ok ((swept f d).zip vs)

/-- The units of that profile, boundary_layer.py:853, 957 and 1014. -/
def onFieldUnits (f : SF) : Sym × Sym := (f.ux, f.uy)

/-- `get_bl_thickness(field, direction, perc)`. -/
def thicknessOn (perc : Rat) (main : Bool) (srt : List Rat → List Nat) (f : SF) (d : DirArg) : Res (List (Rat × F)) :=
  onField (fun p => match thickness p perc with | .ok t => .ok (some t) | .error e => .error e) main srt f d

/-- `get_displ_thickness(field, direction)`. -/
def displOn (main : Bool) (srt : List Rat → List Nat) (f : SF) (d : DirArg) : Res (List (Rat × F)) :=
  onField (fun p => match displThickness srt p with | .ok t => .ok t.val | .error e => .error e) main srt f d

/-- `get_momentum_thickness(field, direction)`. -/
def momOn (main : Bool) (srt : List Rat → List Nat) (f : SF) (d : DirArg) : Res (List (Rat × F)) :=
  onField (fun p => match momThickness srt p with | .ok t => .ok t.val | .error e => .error e) main srt f d

/-- `get_shear_stress(field, direction)`, boundary_layer.py:1075-1085, 1135-1170, up to the profiles: `stress` stands for what follows. -/
def shearOn (stress : List Prof → Res (List (List F))) (main : Bool) (srt : List Rat → List Nat) (f : SF) (d : DirArg) (nu : Rat) :
    Res (List (List F)) :=
  if nu ≤ 0 then .error .valueError
  else if d ≠ .num 1 ∧ d ≠ .num 2 then .error .valueError
  else match collect ((swept f d).map (lineAt main srt f d)) with
    | .error e => .error e
    | .ok ps => stress ps

/-- A python slice `l[i:j]` of a list, with integers of any sign. -/
def cut {α : Type} (l : List α) (i j : Int) : List α :=
  slice l (if i < 0 then (l.length + i).toNat else i.toNat) (if j < 0 then (l.length + j).toNat else j.toNat)

/-- The lines around the wall, boundary_layer.py:1256-1269.  `inds` are the indices of `get_indice_on_axe`; the last slice has
float bounds. -/
def linesAround (axe : List Rat) (w : Rat) (nmb : Int) (inds : Rat → Nat × Nat) : Res (List Rat) :=
  if w < axe.getD 0 0 then .ok (cut axe 0 nmb)
  else if w > axe.getD (axe.length - 1) 0 then .ok (cut axe (-nmb - 1) (-1))
  else if ((inds w).1 : Rat) - nmb / 2 < 0 then .ok (cut axe 0 nmb)
  else if ((inds w).2 : Rat) + nmb / 2 > axe.length then .ok (cut axe (-nmb - 1) (-1))
  else .error .typeError

/-- The kind of the object given to `get_separation_position`. -/
inductive Kind where
  | scalar | vector

/-- `get_separation_position(obj, wall_direction, wall_position, interval, nmb_lines)` of a field, boundary_layer.py:1201-1300; `f`
is the field or the component chosen, `zeros` what is found on a line and `fit` the extrapolation.  A `ScalarField` has no
`values_as_sf`. -/
def separation (kind : Kind) (main : Bool) (srt : List Rat → List Nat) (f : SF) (dir : Int) (w : Rat) (nmb : Int)
    (inds : Rat → Nat × Nat) (zeros : Prof → List Rat) (fit : List (Rat × List Rat) → Res Rat) : Res Rat :=
  if dir ≠ 1 ∧ dir ≠ 2 then .error .valueError
  else match kind with
    | .scalar => .error .attributeError
    | .vector => match linesAround (swept f (.num dir)) w nmb inds with
      | .error e => .error e
      | .ok ls => match collect (ls.map (lineAt main srt f (.num dir))) with
        | .error e => .error e
        | .ok ps => if (ps.filter fun p => zeros p ≠ []) = [] then .error .exception else fit (ls.zip (ps.map zeros))

end IMT.Meas
