import Verif.Prelude

/-!
# Data of a drawing (`/repo/IMTreatment/plotlib/plotlib.py`)

`Displayer.__init__` and `Displayer.get_data` for data without values (points and profiles) and a given `data_type`: detection of
series of data, limits.  Buffers and drawing arguments are not modelled here.
-/

namespace IMT.Frames

/-- A number, or NaN. -/
abbrev F := Option Rat

/-- Python list or numpy array. -/
inductive Seq where
  | list | array
  deriving DecidableEq

/-- The arguments `x` and `y`: numbers, in a list or an array, or a list of sets of numbers, each in a list or an array. -/
inductive Data where
  | numbers (s : Seq) (l : List F)
  | sets (s : Seq) (ls : List (List F))

/-- `np.concatenate(self.x)`, or `self.x` if it holds numbers (`plotlib.py` lines 937-940, 943-946). -/
def Data.all : Data → List F
  | .numbers _ l => l
  | .sets _ ls => ls.flatten

/-- `len(self.x)`. -/
def Data.len : Data → Nat
  | .numbers _ l => l.length
  | .sets _ ls => ls.length

/-- `[np.min(tmp_x[~np.isnan(tmp_x)]), np.max(...)]` (`plotlib.py` lines 941-942, 947-948); numpy raises ValueError on nothing. -/
def extent (l : List F) : Res (Rat × Rat) :=
  match (l.filterMap id).min?, (l.filterMap id).max? with
  | some a, some b => .ok (a, b)
  | _, _ => .error .valueError

/-- `isinstance(x[0], list)` (`plotlib.py` line 965). -/
def firstIsList : Data → Res Bool
  | .numbers _ [] => .error .indexError
  | .sets _ [] => .error .indexError
  | .numbers _ (_ :: _) => .ok false
  | .sets s (_ :: _) => .ok (decide (s = .list))

/-- `x[0][0]` (`plotlib.py` lines 960-964): whether there is an element, IndexError being caught; a number of a list cannot be
indexed (TypeError), a number of an array gives IndexError. -/
def hasElement : Data → Res Bool
  | .numbers _ [] => .ok false
  | .numbers .list (_ :: _) => .error .typeError
  | .numbers .array (_ :: _) => .ok false
  | .sets _ [] => .ok false
  | .sets _ ([] :: _) => .ok false
  | .sets _ ((_ :: _) :: _) => .ok true

/-- `self.multidim` (`plotlib.py` lines 958-966). -/
def multi (x y : Data) : Res Bool :=
  match hasElement x with
  | .error e => .error e
  | .ok b => match firstIsList x with
    | .error e => .error e
    | .ok false => .ok b
    | .ok true => match firstIsList y with
      | .error e => .error e
      | .ok c => .ok (b || c)

/-- A `Displayer`. -/
structure Displ where
  x : Data
  y : Data
  xlim : Rat × Rat
  ylim : Rat × Rat
  multidim : Bool
  length : Nat

/-- `Displayer(x, y, data_type=...)` (`plotlib.py` lines 925-970).  Without data the limits are not set, and the line 965 raises. -/
def new (x y : Data) : Res Displ :=
  if x.len = 0 then (multi x y).bind fun _ => .error .indexError
  else match extent x.all with
    | .error e => .error e
    | .ok a => match extent y.all with
      | .error e => .error e
      | .ok b => match multi x y with
        | .error e => .error e
        | .ok m => .ok ⟨x, y, a, b, m, if m then x.len else 1⟩

/-- `self.x[i]`. -/
def Data.at : Data → Nat → Res Data
  | .numbers _ l, i => match l[i]? with
    | some v => .ok (.numbers .array [v])
    | none => .error .indexError
  | .sets _ ls, i => match ls[i]? with
    | some l => .ok (.numbers .array l)
    | none => .error .indexError

/-- `get_data(i)` (`plotlib.py` lines 1046-1063): `x` and `y`. -/
def getData (d : Displ) (i : Option Nat) : Res (Data × Data) :=
  if d.multidim = false then .ok (d.x, d.y)
  else match i with
    | none => .error .valueError
    | some i => match d.x.at i, d.y.at i with
      | .error e, _ => .error e
      | .ok _, .error e => .error e
      | .ok a, .ok b => .ok (a, b)

end IMT.Frames
