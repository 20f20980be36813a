import Verif.Spatial.Model

/-!
Model of the changes in place of a `Fields` (`/repo/IMTreatment/core/fields.py`) of scalar fields, the fields being objects of a memory held by
their addresses: `add_field(copy=False)` (fields.py:123-138) shares them.
-/

namespace IMT.Spatial

/-- A loop on the fields of a collection that changes each in place, as in core/fields.py:71-76.  Simplification: an address without object, which
python does not have, is passed over. -/
def eachHeld (step : SF → SF) (m : List SF) : List Nat → List SF
  | [] => m
  | a :: as => eachHeld step (m.modify a step) as

/-- `Fields.set_origin(x, y)`, core/fields.py:154-172: a loop for each direction; the memory afterwards. -/
def originHeld (m : List SF) (held : List Nat) (x y : Option Rat) : List SF :=
  let m1 := match x with | none => m | some x => eachHeld (fun f => f.setOrigin (some x) none) m held
  match y with | none => m1 | some y => eachHeld (fun f => f.setOrigin none (some y)) m1 held

/-- `Fields.scale(scalex, scaley, scalev, inplace=True)`, core/fields.py:56-79: the memory afterwards. -/
def scaleHeld (m : List SF) (held : List Nat) (sx sy sv : Option Unum) : List SF := eachHeld (fun f => f.scale sx sy sv) m held

/-- `Fields.scale(scalex, scaley, scalev, inplace=False)`, core/fields.py:56-79: `copy.deepcopy` (fields.py:52-56) copies an object once, whatever
the number of times it is held; the memory afterwards and the addresses of the fields of the result.  Simplification: the copies are put at the end
of the memory, with a copy of each object, held or not. -/
def scaleCopy (m : List SF) (held : List Nat) (sx sy sv : Option Unum) : List SF × List Nat :=
  let h := held.map (· + m.length)
  (eachHeld (fun f => f.scale sx sy sv) (m ++ m) h, h)

end IMT.Spatial
