import Verif.Vector.Model

/-!
Model of the vector fields made from a system of vortices, with their units and masks
(`/repo/IMTreatment/vortex_creation/vortex_creation.py`: `get_vector_field` of the vortices, of the custom fields and of the
systems).  `Verif/Vortex/Model.lean` models the velocities themselves: here a vortex, or an image, is any function from positions to
velocities, with rational values.
-/

namespace IMT.SysField

/-- A custom field, vortex_creation.py:572-598: its function (NaN is `none`) and its unit, already read by `make_unit`
(core/vectorfield.py, the setter of `unit_values`). -/
structure Custom where
  fx : Rat → Rat → Option Rat
  fy : Rat → Rat → Option Rat
  unit : Sym

/-- The vortices and images of a system, after `refresh_imaginary_vortex`, and its custom fields, vortex_creation.py:673-684. -/
structure System where
  vortices : List (Rat → Rat → Rat × Rat)
  customs : List Custom

/-- Metre per second, vortex_creation.py:80, 975. -/
def mps : Sym := Sym.m.div Sym.s

/-- The two loops filling an array, vortex_creation.py:73-75, 614-616. -/
def fillGrid (ax ay : List Rat) (fn : Rat → Rat → Option Rat) : Grid (Option Rat) :=
  ⟨ax.length, ay.length, fun i j => match ax[i]?, ay[j]? with
    | some x, some y => fn x y
    | _, _ => none⟩

/-- `Vortex.get_vector_field`, vortex_creation.py:68-81. -/
def vortexField (w : Rat → Rat → Rat × Rat) (ax ay : List Rat) (ux uy : Sym) : Res VF :=
  VF.importArrays ax ay (fillGrid ax ay fun x y => some (w x y).1) (fillGrid ax ay fun x y => some (w x y).2) (.bool false) ux uy mps

/-- The mask of `CustomField.get_vector_field`, vortex_creation.py:617. -/
def nanGrid (cx cy : Grid (Option Rat)) : Grid Bool := ⟨cx.nx, cx.ny, fun i j => (cx.get i j).isNone || (cy.get i j).isNone⟩

/-- `CustomField.get_vector_field`, vortex_creation.py:607-621. -/
def customField (c : Custom) (ax ay : List Rat) (ux uy : Sym) : Res VF :=
  VF.importArrays ax ay (fillGrid ax ay c.fx) (fillGrid ax ay c.fy)
    (.array (nanGrid (fillGrid ax ay c.fx) (fillGrid ax ay c.fy))) ux uy c.unit

/-- `VF += part`, vortex_creation.py:978-987. -/
def plus (r part : Res VF) : Res VF :=
  match r with
  | .error e => .error e
  | .ok f =>
    match part with
    | .error e => .error e
    | .ok g => f.add g

/-- The null field at the start, vortex_creation.py:971-975. -/
def start (ax ay : List Rat) (ux uy : Sym) : Res VF :=
  VF.importArrays ax ay (Grid.const ax.length ay.length (some 0)) (Grid.const ax.length ay.length (some 0)) (.bool false) ux uy mps

/-- `VortexSystem.get_vector_field`, vortex_creation.py:944-989, for axes given as arrays. -/
def System.field (s : System) (ax ay : List Rat) (ux uy : Sym) : Res VF :=
  s.customs.foldl (fun r c => plus r (customField c ax ay ux uy))
    (s.vortices.foldl (fun r w => plus r (vortexField w ax ay ux uy)) (start ax ay ux uy))

/-- `VortexSystem.get_vector(x, y)`, vortex_creation.py:815-869, everything being selected: NaN as soon as one term is, the units of
the custom fields are not looked at. -/
def System.vector (s : System) (x y : Rat) : Option Rat × Option Rat :=
  (s.customs.foldl (fun a c => nanOp (· + ·) a (c.fx x y)) (some (s.vortices.map fun w => (w x y).1).sum),
    s.customs.foldl (fun a c => nanOp (· + ·) a (c.fy x y)) (some (s.vortices.map fun w => (w x y).2).sum))

end IMT.SysField
