import Verif.Scalar.ValueModel
import Verif.Scalar.BorderModel
import Verif.Vector.Model
import Verif.Line.Model
import Mathlib.Data.Rat.Floor

/-! Model of `mirroring` of scalar and vector fields (core/scalarfield.py:1497-1725, core/vectorfield.py:1116-1186). -/

namespace IMT.Mirror

open Line (Dir axe)

/-- `tmp_vf.crop_masked_border(inplace=True)`, core/scalarfield.py:1545. -/
def trimmed (f : SF) : Res SF := if f.anyMasked = false then .ok f else f.softCrop

/-- The crop along the direction, core/scalarfield.py:1557-1558, 1563-1564, 1579-1580, 1585-1586. -/
def cropAlong (f : SF) (d : Dir) (a b : Rat) : Res SF :=
  match d with
  | .x => f.crop (some (a, b)) none
  | .y => f.crop none (some (a, b))

/-- The side to mirror: the field, whether the mirrored part comes before it, and the border, core/scalarfield.py:1547-1593.  The extent and the
spacing are those of the field before its masked border is cropped. -/
def side (f t : SF) (d : Dir) (pos : Rat) : Res (SF × Bool × Rat) :=
  match (axe f d).head?, (axe f d).getLast? with
  | some a, some z =>
    if (axe f d).length < 2 then .error .indexError
    else if pos < a then .ok (t, true, a)
    else if pos > z then .ok (t, false, z)
    else if pos < (z + a) / 2 then
      match cropAlong t d pos z with
      | .error e => .error e
      | .ok t => match (axe t d).head? with
        | none => .error .indexError
        | some b => .ok (t, true, b)
    else if pos > (z + a) / 2 then
      match cropAlong t d a pos with
      | .error e => .error e
      | .ok t => match (axe t d).getLast? with
        | none => .error .indexError
        | some b => .ok (t, false, b)
    else .error .valueError
  | _, _ => .error .indexError

/-- `inds_to_mirror`, core/scalarfield.py:1595-1596; `none` is 'all'. -/
def lines (n : Nat) : Option Int → Int
  | none => n - 1
  | some k => if k > n then n - 1 else k

/-- `inds_to_add`, core/scalarfield.py:1597-1601. -/
def toAdd (k : Int) (before : Bool) (pos border delta : Rat) : Int :=
  ⌈(k : Rat) + 2 * (if before then -(pos - border) / delta else (pos - border) / delta)⌉ - 1

/-- The extension, core/scalarfield.py:1603-1604; a negative number is refused (1461-1462). -/
def extended (t : SF) (d : Dir) (before : Bool) (n : Int) : Res SF :=
  if n < 0 then .error .valueError
  else match d with
    | .x => if before then t.extendInplace n.toNat 0 0 0 none else t.extendInplace 0 n.toNat 0 0 none
    | .y => if before then t.extendInplace 0 0 0 n.toNat none else t.extendInplace 0 0 n.toNat 0 none

/-- `mir_pos`, core/scalarfield.py:1614-1617. -/
def image (d : Dir) (pos : Rat) (q : Rat × Rat) : Rat × Rat :=
  match d with
  | .x => (pos - (q.1 - pos), q.2)
  | .y => (q.1, pos - (q.2 - pos))

/-- The test of core/scalarfield.py:1619-1622. -/
def outside (f : SF) (q : Rat × Rat) : Prop :=
  q.1 < f.ax.headD 0 ∨ q.1 > f.ax.getLastD 0 ∨ q.2 < f.ay.headD 0 ∨ q.2 > f.ay.getLastD 0

instance (f : SF) (q : Rat × Rat) : Decidable (outside f q) := by unfold outside; infer_instance

/-- `tmp_vf.values[i, j] = v; tmp_vf.mask[i, j] = False`, core/scalarfield.py:1630-1631 (the getter has put NaN under the mask). -/
def put (f : SF) (i j : Nat) (v : Rat) : SF :=
  { f with
      val := ⟨f.val.nx, f.val.ny, fun a b => if a = i ∧ b = j then some v else f.cell a b⟩
      mask := ⟨f.mask.nx, f.mask.ny, fun a b => if a = i ∧ b = j then false else f.mask.get a b⟩ }

/-- What is done with the value of the mirror point, core/scalarfield.py:1626-1631. -/
def store (f : SF) (coef : Rat) (q : Nat × Nat) : Option Rat → SF
  | none => f
  | some v => put f q.1 q.2 (v * coef)

/-- One point of the loop, core/scalarfield.py:1608-1631. -/
def visit (main : Bool) (d : Dir) (pos coef : Rat) (f : SF) (q : Nat × Nat) : Res SF :=
  if f.mask.get q.1 q.2 = false then .ok f
  else if outside f (image d pos (f.ax.getD q.1 0, f.ay.getD q.2 0)) then .ok f
  else
    match f.getValue main (image d pos (f.ax.getD q.1 0, f.ay.getD q.2 0)).1 (image d pos (f.ax.getD q.1 0, f.ay.getD q.2 0)).2 with
    | .error e => .error e
    | .ok r => .ok (store f coef q r)

/-- The loop on the points, core/scalarfield.py:1608-1631. -/
def fillAll (main : Bool) (d : Dir) (pos coef : Rat) : List (Nat × Nat) → SF → Res SF
  | [], f => .ok f
  | q :: l, f =>
    match visit main d pos coef f q with
    | .error e => .error e
    | .ok g => fillAll main d pos coef l g

/-- The argument `interp`: missing, or 'value' with a value (the other ones are not modelled). -/
inductive Interp where
  | none
  | value (v : Rat)

/-- The gap near the plane, core/scalarfield.py:1633-1639. -/
def finish (f : SF) : Interp → SF
  | .none => f
  | .value v => if f.anyMasked then f.fillValue v else f

/-- `mirroring(direction, position, inds_to_mirror, mir_coef, interp, value)`, core/scalarfield.py:1497-1725, the field returned or left in place. -/
def mirroring (main : Bool) (f : SF) (d : Dir) (pos : Rat) (inds : Option Int) (coef : Rat) (interp : Interp) : Res SF :=
  match trimmed f with
  | .error e => .error e
  | .ok t =>
    match side f t d pos with
    | .error e => .error e
    | .ok (t, before, border) =>
      match extended t d before
          (toAdd (lines (axe f d).length inds) before pos border ((axe f d).getD 1 0 - (axe f d).getD 0 0)) with
      | .error e => .error e
      | .ok g =>
        match fillAll main d pos coef g.indexPairs g with
        | .error e => .error e
        | .ok g => .ok (finish g interp)

end IMT.Mirror
