import Verif.Prelude

/-!
# Reading a drawing under the mouse (`/repo/IMTreatment/plotlib/plotlib.py`)

`Displayer.get_data_at_point` and the text of `DataCursorTextDisplayer`.  The coordinates are numbers (`np.argmin` would take a
NaN coordinate as the smallest; not modelled), the values may be NaN.
-/

namespace IMT.Cursor

/-- `is_sorted(data)` (`plotlib.py` lines 43-44). -/
def isSorted (l : List Rat) : Bool := (l.zip l.tail).all fun q => decide (q.1 ≤ q.2)

/-- `data_type` (`plotlib.py` lines 925, 985-1003). -/
inductive Kind where
  | profile | points | field1 | field2
  deriving DecidableEq

/-- The type guessed for data without values (`plotlib.py` lines 986-990). -/
def guess (x y : List Rat) : Kind := if isSorted x || isSorted y then .profile else .points

/-- The data of one frame: `x`, `y` and the components of the values. -/
structure Data where
  kind : Kind
  x : List Rat
  y : List Rat
  val : Nat → Nat → Nat → Option Rat

/-- `np.argmin`: the first index of the smallest number. -/
def argmin : List Rat → Nat
  | [] => 0
  | [_] => 0
  | a :: b :: l => if a ≤ (b :: l).getD (argmin (b :: l)) 0 then 0 else argmin (b :: l) + 1

/-- `np.argmin(np.abs(x - tmp_x))` (`plotlib.py` lines 1078, 1084). -/
def nearIdx (l : List Rat) (v : Rat) : Nat := argmin (l.map fun c => |v - c|)

/-- `Displayer.get_data_at_point(x, y)` (`plotlib.py` lines 1068-1097): the names with the values, nothing out of the limits of
the data. -/
def dataAt (d : Data) (xlim ylim : Rat × Rat) (x y : Rat) : Option (List (String × Option Rat)) :=
  if x > xlim.2 ∨ x < xlim.1 ∨ y > ylim.2 ∨ y < ylim.1 then none
  else match d.kind with
    | .profile | .points => some [("x", d.x[nearIdx d.x x]?), ("y", d.y[nearIdx d.x x]?)]
    | .field1 => some [("x", d.x[nearIdx d.x x]?), ("y", d.y[nearIdx d.y y]?),
        ("value", d.val 0 (nearIdx d.x x) (nearIdx d.y y))]
    | .field2 => some [("x", d.x[nearIdx d.x x]?), ("y", d.y[nearIdx d.y y]?),
        ("Vx", d.val 0 (nearIdx d.x x) (nearIdx d.y y)), ("Vy", d.val 1 (nearIdx d.x x) (nearIdx d.y y))]

/-- `DataCursorTextDisplayer.__number_formatter` (`plotlib.py` lines 1414-1424): `int(nan)` raises ValueError; `txt` gives the
text of a number. -/
def number (txt : Rat → String) : Option Rat → Res String
  | some v => .ok (txt v)
  | none => .error .valueError

/-- The loop of `__default_formatter` (`plotlib.py` lines 1407-1411). -/
def spell (txt : Rat → String) : List (String × Option Rat) → Res String
  | [] => .ok ""
  | q :: l =>
    match number txt q.2, spell txt l with
    | .ok s, .ok t => .ok (q.1 ++ "=" ++ s ++ "     " ++ t)
    | .error e, _ => .error e
    | _, .error e => .error e

/-- `DataCursorTextDisplayer.__default_formatter(x, y)` (`plotlib.py` lines 1403-1412). -/
def describe (txt : Rat → String) (d : Data) (xlim ylim : Rat × Rat) (x y : Rat) : Res String :=
  match dataAt d xlim ylim x y with
  | none => .ok ""
  | some l => spell txt l

end IMT.Cursor
