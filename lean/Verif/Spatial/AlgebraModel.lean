import Verif.Spatial.Model
import Verif.Scalar.ArithModel

/-!
Model of the transformations of a `SpatialScalarFields`: `__neg__`, `__mul__` with a number
(`/repo/IMTreatment/core/spatialfields.py:47-63`), `scale` and `set_origin` (`/repo/IMTreatment/core/fields.py:56-79, 155-173`).
-/

namespace IMT.Spatial

/-- `__neg__`, core/spatialfields.py:47-51. -/
def negAll (s : SP) : SP := { s with fields := s.fields.map SF.neg }

/-- `scale(scalex, scaley, scalev)`, core/fields.py:56-79: the fields are scaled; the units of the collection are not touched. -/
def scaleAll (s : SP) (sx sy sv : Option Unum) : SP := { s with fields := s.fields.map fun f => f.scale sx sy sv }

/-- The first half of `set_origin`, core/fields.py:164-168. -/
def originX (s : SP) : Option Rat → SP
  | none => s
  | some x => { s with fields := s.fields.map fun f => f.setOrigin (some x) none }

/-- The second half of `set_origin`, core/fields.py:169-173. -/
def originY (s : SP) : Option Rat → SP
  | none => s
  | some y => { s with fields := s.fields.map fun f => f.setOrigin none (some y) }

/-- `set_origin(x, y)`, core/fields.py:155-173. -/
def originAll (s : SP) (ox oy : Option Rat) : SP := originY (originX s ox) oy

/-- The loop of `__mul__`, core/spatialfields.py:56-57: `add_field` on the new collection. -/
def mulLoop (q : Rat) : SP → List SF → Res SP
  | acc, [] => .ok acc
  | acc, f :: fs => match addField acc (f.mulNum q) with
    | (_, _, .error e) => .error e
    | (s, _, .ok _) => mulLoop q s fs

/-- `__mul__` with a number, core/spatialfields.py:53-58. -/
def mulAll (s : SP) (q : Rat) : Res SP := mulLoop q SP.empty s.fields

end IMT.Spatial
