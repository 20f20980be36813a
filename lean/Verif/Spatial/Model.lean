import Verif.Scalar.BorderModel
import Verif.Scalar.ValueModel

/-!
Model of `SpatialFields` (`/repo/IMTreatment/core/spatialfields.py`) holding scalar fields, i.e. of
`SpatialScalarFields` (`/repo/IMTreatment/core/spatialscalarfields.py`).

`add_field` converts and crops the field it is given before storing a copy, so its model returns the state of the
caller's field as well.
-/

namespace IMT.Spatial

/-- A `SpatialScalarFields`: the fields and the units of the collection, core/spatialfields.py:41-45, 103-131. -/
structure SP where
  fields : List SF
  ux : Sym
  uy : Sym
  uv : Sym

/-- `SpatialScalarFields()`, core/spatialscalarfields.py:31-33; the units are set by the first field. -/
def SP.empty : SP := ⟨[], Sym.one, Sym.one, Sym.one⟩

/-- The changes of units of `add_field`, core/spatialfields.py:163-166, in order: the state of the caller's field, and the
outcome (the error of unum is turned into ValueError, 167-168). -/
def convert (s : SP) (f : SF) : SF × Res PUnit :=
  match f.changeUnit .x s.ux with
  | .error _ => (f, .error .valueError)
  | .ok f1 => match f1.changeUnit .y s.uy with
    | .error _ => (f1, .error .valueError)
    | .ok f2 => match f2.changeUnit .values s.uv with
      | .error _ => (f2, .error .valueError)
      | .ok f3 => (f3, .ok ⟨⟩)

/-- `field.crop_masked_border(hard=False, inplace=True)`, core/spatialfields.py:170. -/
def border (f : SF) : SF × Res PUnit :=
  match f.cropMaskedSoft with
  | .error e => (f, .error e)
  | .ok none => (f, .ok ⟨⟩)
  | .ok (some g) => (g, .ok ⟨⟩)

/-- The units of the collection when a field is added, core/spatialfields.py:157-160. -/
def adopt (s : SP) (f : SF) : SP := if s.fields.length = 0 then { s with ux := f.ux, uy := f.uy, uv := f.uv } else s

/-- The field once in the units of the collection, core/spatialfields.py:157-168. -/
def inUnits (s : SP) (f : SF) : SF × Res PUnit := if s.fields.length = 0 then (f, .ok ⟨⟩) else convert s f

/-- `add_field(field)`, core/spatialfields.py:151-173 and core/fields.py:123-138: the collection, the caller's field and the
outcome. -/
def addField (s : SP) (f : SF) : SP × SF × Res PUnit :=
  match inUnits s f with
  | (f1, .error e) => (adopt s f, f1, .error e)
  | (f1, .ok _) => match border f1 with
    | (f2, .error e) => (adopt s f, f2, .error e)
    | (f2, .ok _) => ({ adopt s f with fields := s.fields ++ [f2] }, f2, .ok ⟨⟩)

/-- The test of `get_value` on a field, core/spatialfields.py:192-193; `axe_x[0]` of an empty axis is not modelled
(false). -/
def covers (f : SF) (x y : Rat) : Bool :=
  match f.ax.head?, f.ax.getLast?, f.ay.head?, f.ay.getLast? with
  | some x0, some x1, some y0, some y1 => decide (x > x0 ∧ x < x1 ∧ y > y0 ∧ y < y1)
  | _, _, _, _ => false

/-- `values += ...` over the remaining fields, core/spatialfields.py:206-208; NaN propagates. -/
def sumValues (main : SF → Bool) (x y : Rat) : Option Rat → List SF → Res (Option Rat)
  | acc, [] => .ok acc
  | acc, f :: fs => match f.getValue (main f) x y with
    | .error e => .error e
    | .ok r => sumValues main x y (match acc, r with | some a, some b => some (a + b) | _, _ => none) fs

/-- `get_value(x, y, error=True)`, core/spatialfields.py:175-210. -/
def getValue (main : SF → Bool) (s : SP) (x y : Rat) : Res (Option Rat) :=
  match s.fields.filter fun f => covers f x y with
  | [] => .error .valueError
  | [f] => f.getValue (main f) x y
  | f :: fs => match f.getValue (main f) x y with
    | .error e => .error e
    | .ok r => match sumValues main x y r fs with
      | .error e => .error e
      | .ok t => .ok (t.map (· / (fs.length + 1 : Nat)))

end IMT.Spatial
