import Verif.Vector.Model

/-!
Model of `change_dtype` of `ScalarField` (`/repo/IMTreatment/core/scalarfield.py`) and `VectorField` (`/repo/IMTreatment/core/vectorfield.py`), between
floating and whole numbers.  `junk` is the whole number numpy makes of a NaN.  Rounding of floating numbers is not modelled.
-/

namespace IMT.Dtype

/-- The type of the values, `_values_dtype`. -/
inductive Dt where
  | float | int
  deriving DecidableEq

/-- A number made whole by numpy: towards zero. -/
def trunc (v : Rat) : Rat := if 0 ≤ v then (v.floor : Rat) else -((-v).floor : Rat)

/-- `np.asarray(a, dtype=new_type)` for one element. -/
def cast (junk : Rat) : Dt → Option Rat → Option Rat
  | .float, v => v
  | .int, some v => some (trunc v)
  | .int, none => some junk

/-- The element of `self.values`, core/scalarfield.py:318-325: NaN at the masked points of floating values, 0 at those of whole ones. -/
def shownAs (f : SF) (d : Dt) (i j : Nat) : Option Rat :=
  if f.mask.get i j then (match d with
    | .float => none
    | .int => some 0)
  else f.val.get i j

/-- `ScalarField.change_dtype(new_type)`, core/scalarfield.py:1343-1349, with the setter of the values (327-340): the field afterwards, `old` being the type of
its values. -/
def changeSF (junk : Rat) (f : SF) (old new : Dt) : SF :=
  if new = old then f else f.setValues ⟨f.val.nx, f.val.ny, fun i j => cast junk new (shownAs f old i j)⟩

/-- `VectorField.change_dtype(new_type)`, core/vectorfield.py:795-802, with the setters of the components (297-306): the mask is not touched. -/
def changeVF (junk : Rat) (f : VF) (old new : Dt) : VF :=
  if new = old then f else { f with cx := f.cx.map (cast junk new), cy := f.cy.map (cast junk new) }

end IMT.Dtype
