import Verif.Display.ColorModel
import Verif.Profile.Model

/-!
# Coloured lines and colour maps made by hand (`/repo/IMTreatment/plotlib/plotlib.py`)

`colored_plot` and `make_cmap`.  What is given to matplotlib is modelled; of matplotlib itself, only the table of a `LinearSegmentedColormap`.
-/

namespace IMT.Color

open IMT.Profile

/-- The places of `n` points, `np.linspace(0, 1, n)` (`plotlib.py` lines 302-304, 307-309 and 144). -/
def places (n : Nat) : List Rat := (List.range n).map fun k : Nat => (k : Rat) / ((n : Rat) - 1)

/-- `spinterp.interp1d(np.linspace(0, 1, length), l)(t)` (`plotlib.py` lines 302-309), `t` being from 0 to 1. -/
def along (l : List Rat) (t : Rat) : Rat := (lin ((places l.length).zip l) t).getD 0

/-- The values of the array `z`, of its first argument or of a point that may be NaN. -/
structure Vertex where
  x : Option Rat
  y : Option Rat
  z : Option Rat

/-- The points left once those that have a NaN are taken away (`plotlib.py` lines 293-299). -/
def knownPts (l : List Vertex) : List (Rat × Rat × Rat) :=
  l.filterMap fun v => match v.x, v.y, v.z with
    | some a, some b, some c => some (a, b, c)
    | _, _, _ => none

/-- The number of points of a refined line (`plotlib.py` lines 305-306). -/
def refinedCount (n minColors : Nat) : Nat := n * ceilDiv minColors n

/-- The refined points (`plotlib.py` lines 302-309). -/
def refined (l : List (Rat × Rat × Rat)) (minColors : Nat) : List (Rat × Rat × Rat) :=
  (places (refinedCount l.length minColors)).map fun t =>
    (along (l.map fun p => p.1) t, along (l.map fun p => p.2.1) t, along (l.map fun p => p.2.2) t)

/-- The number of points of a line, `plotlib.py` lines 300-309.  `floatCount` says whether `np.linspace` takes a number of points that is a float, as numpy did
before its version 1.18 (TypeError afterwards).  `interp1d` needs two points (ValueError). -/
def vertices (floatCount : Bool) (l : List (Rat × Rat × Rat)) (minColors : Nat) : Res (List (Rat × Rat × Rat)) :=
  if l.length < minColors then
    if l.length < 2 then .error .valueError
    else if floatCount then .ok (refined l minColors) else .error .typeError
  else .ok l

/-- The argument `log`. -/
inductive Scale where
  | plot | semilogx | semilogy | loglog
  deriving DecidableEq

/-- What is drawn: the vertices of the line (as given when there is no colour), the values of the colours, the axes that are logarithmic, and the bounds of the
colours. -/
structure Drawn where
  pts : List (Option Rat × Option Rat)
  segs : List ((Rat × Rat) × (Rat × Rat))
  colors : List Rat
  xlog : Bool
  ylog : Bool
  norm : Option (Rat × Rat)
  deriving DecidableEq

/-- The end of `colored_plot`, on the points that are drawn (`plotlib.py` lines 311-331); `np.min` refuses an empty array. -/
def drawLine (log : Scale) (l : List (Rat × Rat × Rat)) : Res Drawn :=
  match minOf (l.map fun p => p.2.2), maxOf (l.map fun p => p.2.2) with
  | some lo, some hi => .ok
    { pts := l.map fun p => (some p.1, some p.2.1)
      segs := segments (l.map fun p => p.1) (l.map fun p => p.2.1)
      colors := l.map fun p => p.2.2
      xlog := decide (log = .semilogx ∨ log = .loglog)
      ylog := decide (log = .semilogy ∨ log = .loglog)
      norm := some (lo, hi) }
  | _, _ => .error .valueError

/-- The three arrays put together, `z` being an array or one number for all the points (`plotlib.py` lines 279-286). -/
def zipPts (x y z : List (Option Rat)) : List Vertex := (x.zip (y.zip z)).map fun p => ⟨p.1, p.2.1, p.2.2⟩

/-- `colored_plot(x, y, z, log, min_colors)` without `norm` (`plotlib.py` lines 264-340): without colours it is `plt.plot(x, y)`, on axes left as they are (linear
ones). -/
def coloredPlot (floatCount : Bool) (x y : List (Option Rat)) (z : Option (List (Option Rat))) (log : Scale) (minColors : Nat) : Res Drawn :=
  if x.length ≠ y.length then .error .valueError
  else if x.length < 2 then .error .valueError
  else match z with
    | none => .ok { pts := x.zip y, segs := [], colors := [], xlog := false, ylog := false, norm := none }
    | some z =>
      if z.length ≠ x.length then .error .valueError
      else match vertices floatCount (knownPts (zipPts x y z)) minColors with
        | .error e => .error e
        | .ok l => drawLine log l

/-! ## Colour maps made by hand -/

/-- A colour: red, green, blue. -/
abbrev Rgb := Rat × Rat × Rat

/-- `np.array(colors, dtype=float)` and its two tests (`plotlib.py` lines 137-142): lines of different lengths, no line at all, or lines that are not of length 3
are all refused with ValueError. -/
def rgbs (colors : List (List Rat)) : Option (List Rgb) :=
  if colors = [] then none
  else colors.mapM fun c => match c with
    | [r, g, b] => some (r, g, b)
    | _ => none

/-- The dictionary given to matplotlib, one list for each of red, green, blue (`plotlib.py` lines 152-156): places and values. -/
structure Cdict where
  red : List (Rat × Rat)
  green : List (Rat × Rat)
  blue : List (Rat × Rat)

/-- `position`, `np.linspace(0, 1, len(colors))` by default (`plotlib.py` lines 143-146): `[0]` for one colour. -/
def positionsOf (n : Nat) : Option (List Rat) → List Rat
  | some p => p
  | none => places n

/-- `make_cmap(colors, position)` (`plotlib.py` lines 120-158). -/
def makeCmap (colors : List (List Rat)) (position : Option (List Rat)) : Res Cdict :=
  match rgbs colors with
  | none => .error .valueError
  | some cs =>
    if (positionsOf cs.length position).length ≠ cs.length then .error .valueError
    else .ok
      { red := (positionsOf cs.length position).zip (cs.map fun c => c.1)
        green := (positionsOf cs.length position).zip (cs.map fun c => c.2.1)
        blue := (positionsOf cs.length position).zip (cs.map fun c => c.2.2) }

/-- The table of 256 values of one list, made by matplotlib when the map is first used: the places go from 0 to 1 without going back (ValueError otherwise); the
first and last values are those of the list, the others are on the lines between its values, and all are brought back between 0 and 1 (`np.clip`). -/
def lut (l : List (Rat × Rat)) : Res (List Rat) :=
  match l.head?, l.getLast? with
  | some a, some z =>
    if a.1 ≠ 0 ∨ z.1 ≠ 1 ∨ ¬ (l.map Prod.fst).Pairwise (· ≤ ·) then .error .valueError
    else .ok ((List.range 256).map fun k : Nat =>
      max 0 (min 1 (if k = 0 then a.2 else if k = 255 then z.2 else (lin l ((k : Rat) / 255)).getD 0)))
  | _, _ => .error .valueError

end IMT.Color
