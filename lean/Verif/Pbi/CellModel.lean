import Verif.Prelude
import Mathlib.Tactic.LinearCombination
import Mathlib.Tactic.FieldSimp

/-!
Model of the position of a critical point inside a cell: `get_cp_position_in_cell`
(`/repo/IMTreatment/vortex_detection/vortex_detection.py:218-300`, "vd.py") and the closed formulas of
`/repo/IMTreatment/vortex_detection/levelset_data.py:27-34`.

The formulas are evaluated with IEEE-like special values (`Fl`): a division by zero gives an infinity or NaN and the
square root of a negative number gives NaN, as with numpy floats.  Simplifications: finite arithmetic is exact, in an
ordered field `K` with a square root function `rt`; zeros have no sign; overflow is not modelled; numpy's warnings
are not turned into exceptions (so the `except RuntimeWarning` branch, vd.py:264, is not taken).
-/

namespace IMT.Pbi

/-- A floating point number. -/
inductive Fl (K : Type) where
  | fin (a : K)
  | pinf
  | ninf
  | nan
  deriving DecidableEq, Repr

namespace Fl

variable {K : Type} [Field K] [LinearOrder K]

def neg : Fl K → Fl K
  | fin a => fin (-a)
  | pinf => ninf
  | ninf => pinf
  | nan => nan

def add : Fl K → Fl K → Fl K
  | nan, _ => nan
  | _, nan => nan
  | fin a, fin b => fin (a + b)
  | fin _, pinf => pinf
  | fin _, ninf => ninf
  | pinf, fin _ => pinf
  | ninf, fin _ => ninf
  | pinf, pinf => pinf
  | ninf, ninf => ninf
  | pinf, ninf => nan
  | ninf, pinf => nan

def sub (a b : Fl K) : Fl K := add a (neg b)

/-- `s * ∞` for a finite `s`. -/
def scaleInf (s : K) (i : Fl K) : Fl K := if s = 0 then nan else if 0 < s then i else neg i

def mul : Fl K → Fl K → Fl K
  | nan, _ => nan
  | _, nan => nan
  | fin a, fin b => fin (a * b)
  | fin a, i => scaleInf a i
  | i, fin a => scaleInf a i
  | pinf, i => i
  | ninf, i => neg i

def div : Fl K → Fl K → Fl K
  | nan, _ => nan
  | _, nan => nan
  | fin a, fin b => if b = 0 then scaleInf a pinf else fin (a / b)
  | fin _, _ => fin 0
  | i, fin a => if 0 ≤ a then i else neg i
  | _, _ => nan

/-- `lambda x: x**.5`, vd.py:256. -/
def sqrt (rt : K → K) : Fl K → Fl K
  | fin a => if a < 0 then nan else fin (rt a)
  | pinf => pinf
  | _ => nan

/-- `<`, false as soon as NaN is involved. -/
def lt : Fl K → Fl K → Bool
  | fin a, fin b => a < b
  | ninf, fin _ => true
  | ninf, pinf => true
  | fin _, pinf => true
  | _, _ => false

/-- `np.isnan`. -/
def isNan : Fl K → Bool
  | nan => true
  | _ => false

end Fl

variable {K : Type} [Field K] [LinearOrder K]

/-- The velocities at the corners of a cell: `x1`, `x2` are the `vx` of the lower left and lower right corners, `x3`,
`x4` those of the upper ones (`Vx_bl[0,0]`, `[0,1]`, `[1,0]`, `[1,1]`, vd.py:250-253), `y1`..`y4` the `vy`. -/
structure Cell (K : Type) where
  x1 : K
  x2 : K
  x3 : K
  x4 : K
  y1 : K
  y2 : K
  y3 : K
  y4 : K

namespace Cell

/-- `Vx_1*Vy_2 - Vx_1*Vy_4 - ...`, levelset_data.py:29-32. -/
def dd (c : Cell K) : K :=
  c.x1 * c.y2 - c.x1 * c.y4 - c.x2 * c.y1 + c.x2 * c.y3 - c.x3 * c.y2 + c.x3 * c.y4 + c.x4 * c.y1 - c.x4 * c.y3

/-- The same expression with every coefficient doubled, levelset_data.py:29-32. -/
def dd2 (c : Cell K) : K :=
  2 * c.x1 * c.y2 - 2 * c.x1 * c.y4 - 2 * c.x2 * c.y1 + 2 * c.x2 * c.y3 - 2 * c.x3 * c.y2 + 2 * c.x3 * c.y4 +
    2 * c.x4 * c.y1 - 2 * c.x4 * c.y3

/-- `2*Vx_1*Vy_2 - Vx_1*Vy_4 - ...`, levelset_data.py:29-32. -/
def num (c : Cell K) : K :=
  2 * c.x1 * c.y2 - c.x1 * c.y4 - 2 * c.x2 * c.y1 + c.x2 * c.y3 - c.x3 * c.y2 + c.x4 * c.y1

/-- The expression under the square root, levelset_data.py:29-32. -/
def disc (c : Cell K) : K :=
  c.x1 ^ 2 * c.y4 ^ 2 - 2 * c.x1 * c.x2 * c.y3 * c.y4 - 2 * c.x1 * c.x3 * c.y2 * c.y4 - 2 * c.x1 * c.x4 * c.y1 * c.y4 +
    4 * c.x1 * c.x4 * c.y2 * c.y3 + c.x2 ^ 2 * c.y3 ^ 2 + 4 * c.x2 * c.x3 * c.y1 * c.y4 -
    2 * c.x2 * c.x3 * c.y2 * c.y3 - 2 * c.x2 * c.x4 * c.y1 * c.y3 + c.x3 ^ 2 * c.y2 ^ 2 -
    2 * c.x3 * c.x4 * c.y1 * c.y2 + c.x4 ^ 2 * c.y1 ^ 2

/-- The first terms of the parenthesis of `s00` and `s10`, levelset_data.py:29, 31. -/
def aa (c : Cell K) (dy : K) : K :=
  -c.x1 * c.y2 * dy - c.x1 * c.y3 * dy + c.x1 * c.y4 * dy + c.x2 * c.y1 * dy + c.x3 * c.y1 * dy - c.x4 * c.y1 * dy

/-- The divisor of `s00` and `s10`, levelset_data.py:29, 31. -/
def ee (c : Cell K) : K :=
  c.x1 * c.y3 - c.x1 * c.y4 - c.x2 * c.y3 + c.x2 * c.y4 - c.x3 * c.y1 + c.x3 * c.y2 + c.x4 * c.y1 - c.x4 * c.y2

end Cell

/-- `s01` (`plus = false`) and `s11` (`plus = true`), levelset_data.py:30, 32. -/
def solY (rt : K → K) (c : Cell K) (dy : K) (plus : Bool) : Fl K :=
  let a := Fl.div (.fin (dy * c.num)) (.fin (2 * c.dd))
  let b := Fl.div (Fl.sqrt rt (.fin (dy ^ 2 * c.disc))) (.fin c.dd2)
  if plus then Fl.add a b else Fl.sub a b

/-- `s00` and `s10`, levelset_data.py:29, 31. -/
def solX (rt : K → K) (c : Cell K) (dx dy : K) (plus : Bool) : Fl K :=
  Fl.div (Fl.mul (.fin (-dx)) (Fl.add (.fin (c.aa dy)) (Fl.mul (solY rt c dy plus) (.fin c.dd))))
    (.fin (dy * c.ee))

/-- The two solutions, vd.py:257-268. -/
def sols (rt : K → K) (c : Cell K) (dx dy : K) : List (Fl K × Fl K) :=
  [(solX rt c dx dy false, solY rt c dy false), (solX rt c dx dy true, solY rt c dy true)]

/-- vd.py:278-279: outside of the cell (false for NaN). -/
def outside (dx dy : K) (p : Fl K × Fl K) : Bool :=
  Fl.lt p.1 (.fin 0) || Fl.lt (.fin dx) p.1 || Fl.lt p.2 (.fin 0) || Fl.lt (.fin dy) p.2

/-- `tmp_sol`, vd.py:271-281. -/
def kept (rt : K → K) (c : Cell K) (dx dy : K) : List (Fl K × Fl K) :=
  (sols rt c dx dy).filter fun p => !outside dx dy p

def hasNan (p : Fl K × Fl K) : Bool := p.1.isNan || p.2.isNan

/-- A finite pair; NaN and infinities give `none`. -/
def finite : Fl K × Fl K → Option (K × K)
  | (.fin a, .fin b) => some (a, b)
  | _ => none

/-- vd.py:286-295: several candidates are left; the ones with NaN are removed (`IndexError` when nothing is left) and
the others averaged unless all equal the first one. -/
def several [DecidableEq K] (l : List (Fl K × Fl K)) : Except Err (Option (Fl K × Fl K)) :=
  match l.filter fun p => !hasNan p with
  | [] => .error .indexError
  | p :: rest =>
    if rest.all fun q => decide (q = p) then .ok (some p)
    else
      let n : K := ((p :: rest).length : K)
      .ok (some (Fl.div ((p :: rest).foldl (fun s q => Fl.add s q.1) (.fin 0)) (.fin n),
        Fl.div ((p :: rest).foldl (fun s q => Fl.add s q.2) (.fin 0)) (.fin n)))

/-- vd.py:282-299: the position in the cell; the outer `none` means that no candidate is left and the centre of the
cell is used. -/
def local? [DecidableEq K] (rt : K → K) (c : Cell K) (dx dy : K) : Except Err (Option (Fl K × Fl K)) :=
  match kept rt c dx dy with
  | [] => .ok none
  | [p] => .ok (some p)
  | l => several l

/-- The corners with `Vx + Vy == 0`, vd.py:233, in `np.where` order, as (row, column). -/
def sumZero (c : Cell K) : List (Nat × Nat) :=
  (if c.x1 + c.y1 = 0 then [(0, 0)] else []) ++ (if c.x2 + c.y2 = 0 then [(0, 1)] else []) ++
  (if c.x3 + c.y3 = 0 then [(1, 0)] else []) ++ (if c.x4 + c.y4 = 0 then [(1, 1)] else [])

/-- vd.py:242: a component is exactly null at a corner. -/
def anyZero (c : Cell K) : Prop :=
  c.x1 = 0 ∨ c.x2 = 0 ∨ c.x3 = 0 ∨ c.x4 = 0 ∨ c.y1 = 0 ∨ c.y2 = 0 ∨ c.y3 = 0 ∨ c.y4 = 0

instance (c : Cell K) : Decidable (anyZero c) := by unfold anyZero; infer_instance

/-- Adding the origin of the cell to a local position; a position with NaN is dropped by the caller
(vd.py:316-321). -/
def place (x0 y0 : K) (p : Fl K × Fl K) : Option (K × K) := (finite p).map fun q => (q.1 + x0, q.2 + y0)

/-- `get_cp_position_in_cell`, vd.py:218-300, for an unmasked cell with lower left corner `(x0, y0)`, upper right
corner `(x1, y1)`, centre `pos`, and with `dx`, `dy` the first steps of the axes.  `none` stands for a position that is
dropped because of NaN.  In the branch `np.any(Vx_bl == 0) or np.any(Vy_bl == 0)` no corner has `Vx + Vy == 0`, hence
none has `Vx == Vy == 0`, and the inner `if` of vd.py:244-248 is never taken. -/
def inCell [DecidableEq K] (rt : K → K) (c : Cell K) (x0 x1 y0 y1 dx dy : K) (pos : K × K) :
    Except Err (Option (K × K)) :=
  match sumZero c with
  | [] =>
    if anyZero c then .ok none
    else
      match local? rt c dx dy with
      | .error e => .error e
      | .ok none => .ok (some pos)
      | .ok (some p) => .ok (place x0 y0 p)
  | [(i, j)] => .ok (some (if i = 0 then x0 else x1, if j = 0 then y0 else y1))
  | _ => .ok (some pos)

/-! ### Specification -/

/-- Bilinear interpolation of the corner values `v1` (0, 0), `v2` (dx, 0), `v3` (0, dy), `v4` (dx, dy). -/
def bilin (dx dy v1 v2 v3 v4 x y : K) : K :=
  (v1 * (dx - x) * (dy - y) + v2 * x * (dy - y) + v3 * (dx - x) * y + v4 * x * y) / (dx * dy)

/-- The interpolated velocity vanishes at the local position `(x, y)`. -/
def ZeroAt (c : Cell K) (dx dy x y : K) : Prop :=
  bilin dx dy c.x1 c.x2 c.x3 c.x4 x y = 0 ∧ bilin dx dy c.y1 c.y2 c.y3 c.y4 x y = 0

end IMT.Pbi
