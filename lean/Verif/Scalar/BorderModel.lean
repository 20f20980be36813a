import Verif.Scalar.Model

/-! Model of `ScalarField.crop_masked_border` and of `ScalarField.fill(kind='value')`
(core/scalarfield.py:1727-1880). -/

namespace IMT.SF

/-- `np.any(mask)`. -/
def anyMasked (f : SF) : Bool := f.mask.any id

/-- `np.logical_not(np.all(mask, axis=1))[i]`, core/scalarfield.py:1775. -/
def rowValid (f : SF) (i : Nat) : Bool := (List.range f.mask.ny).any fun j => !f.mask.get i j
/-- `np.logical_not(np.all(mask, axis=0))[j]`, core/scalarfield.py:1776. -/
def colValid (f : SF) (j : Nat) : Bool := (List.range f.mask.nx).any fun i => !f.mask.get i j

/-- `np.where(...)[0]` at positions 0 and -1, core/scalarfield.py:1777-1780 (IndexError when empty). -/
def firstLast (l : List Nat) : Res (Nat × Nat) :=
  match l.head?, l.getLast? with
  | some a, some b => .ok (a, b)
  | _, _ => .error .indexError

/-- The soft cropping, core/scalarfield.py:1774-1783. -/
def softCrop (f : SF) : Res SF :=
  match firstLast ((List.range f.mask.nx).filter f.rowValid), firstLast ((List.range f.mask.ny).filter f.colValid) with
  | .ok (x0, x1), .ok (y0, y1) => f.cropInd (some ((x0 : Int), (x1 : Int))) (some ((y0 : Int), (y1 : Int)))
  | .error e, _ => .error e
  | _, .error e => .error e

/-- `np.sum(mask[i, :])`, core/scalarfield.py:1752-1753. -/
def rowCount (f : SF) (i : Nat) : Nat := ((List.range f.mask.ny).filter fun j => f.mask.get i j).length
/-- `np.sum(mask[:, j])`, core/scalarfield.py:1754-1755. -/
def colCount (f : SF) (j : Nat) : Nat := ((List.range f.mask.nx).filter fun i => f.mask.get i j).length

/-- `np.argmax([a, b, c, d])` (first maximum), core/scalarfield.py:1757. -/
def argmax4 (a b c d : Nat) : Nat :=
  if b ≤ a ∧ c ≤ a ∧ d ≤ a then 0
  else if c ≤ b ∧ d ≤ b then 1
  else if d ≤ c then 2
  else 3

/-- The border with the most masked values, core/scalarfield.py:1752-1757. -/
def worstBorder (f : SF) : Nat :=
  argmax4 (f.rowCount 0) (f.rowCount (f.mask.nx - 1)) (f.colCount 0) (f.colCount (f.mask.ny - 1))

/-- One turn of the loop, core/scalarfield.py:1750-1772. -/
def hardStep (f : SF) : Res SF :=
  if f.worstBorder = 0 then f.cropInd (some (1, (f.ax.length : Int))) none
  else if f.worstBorder = 1 then f.cropInd (some (0, (f.ax.length : Int) - 2)) none
  else if f.worstBorder = 2 then f.cropInd none (some (1, (f.ay.length : Int)))
  else f.cropInd none (some (0, (f.ay.length : Int) - 2))

/-- The loop `while np.any(tmp_vf.mask)` run for at most `n` turns, core/scalarfield.py:1750-1772: `none` means
that it is still running. -/
def hardLoop : Nat → SF → Option (Res SF)
  | 0, f => if f.anyMasked then none else some (.ok f)
  | n + 1, f =>
    if f.anyMasked then
      match f.hardStep with
      | .error e => some (.error e)
      | .ok g => hardLoop n g
    else some (.ok f)

/-- `crop_masked_border(hard=False, inplace=False)`, core/scalarfield.py:1727-1787; python's `None`, returned when
nothing is masked (1745-1746), is `none`. -/
def cropMaskedSoft (f : SF) : Res (Option SF) :=
  if f.anyMasked = false then .ok none else f.softCrop.map some

/-- `crop_masked_border(hard=True)` run for at most `n` turns of its loop. -/
def cropMaskedHard (n : Nat) (f : SF) : Option (Res (Option SF)) :=
  if f.anyMasked = false then some (.ok none)
  else match f.softCrop with
    | .error e => some (.error e)
    | .ok g => (hardLoop n g).map (·.map some)

/-- `ScalarField.fill(kind='value', value=v, inplace=True)`, core/scalarfield.py:1789-1880: `values` is the
internal array.  Returns the field afterwards. -/
def fillValue (f : SF) (v : Rat) : SF :=
  { f with val := ⟨f.val.nx, f.val.ny, fun i j => if f.mask.get i j then some v else f.cell i j⟩,
           mask := Grid.const f.val.nx f.val.ny false }

/-- The state of the source after `f.fill(kind='value', value=v, crop=b, inplace=False)` returned, with the
returned field.  The array `values` written at 1849 is the internal array of `self` (the getter of 318-325
returns it), whose mask is kept: the source still reads masked there.  With `crop=True` the source itself is
cropped (1818-1819). -/
def fillValueCopy (f : SF) (v : Rat) (crop : Bool) : Res (SF × SF) :=
  let src : Res SF := if crop then (if f.anyMasked = false then .ok f else f.softCrop) else .ok f
  match src with
  | .error e => .error e
  | .ok s =>
    let filled : Grid (Option Rat) := ⟨s.val.nx, s.val.ny, fun i j => if s.mask.get i j then some v else s.cell i j⟩
    match importArrays s.ax s.ay filled (.bool false) s.ux s.uy s.uv with
    | .error e => .error e
    | .ok g => .ok ({ s with val := filled }, g)

end IMT.SF
