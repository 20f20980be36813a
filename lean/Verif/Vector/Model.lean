import Verif.Scalar.BorderModel
import Verif.Scalar.ArithModel
import Verif.Scalar.Spec

/-!
Model of `VectorField` (`/repo/IMTreatment/core/vectorfield.py`).  Arrays, units and masks as in the model of `ScalarField`;
dtypes and `xy_scale` are not modelled.
-/

namespace IMT

/-- A `VectorField` object: axes, the raw arrays `__comp_x`, `__comp_y` (NaN is `none`), the raw `__mask` and the units,
core/vectorfield.py:44-50. -/
structure VF where
  ax : List Rat
  ay : List Rat
  cx : Grid (Option Rat)
  cy : Grid (Option Rat)
  mask : Grid Bool
  ux : Sym
  uy : Sym
  uv : Sym

namespace VF

/-- The vector shown at a cell: nothing at masked cells, nor where a component is NaN. -/
def cell (f : VF) (i j : Nat) : Option (Rat × Rat) :=
  if f.mask.get i j then none else match f.cx.get i j, f.cy.get i j with
    | some u, some v => some (u, v)
    | _, _ => none

/-- A consistent field, as `check_consistency` (core/vectorfield.py:575-603) demands, with increasing axes. -/
structure WF (f : VF) : Prop where
  incx : Inc f.ax
  incy : Inc f.ay
  nex : f.ax ≠ []
  ney : f.ay ≠ []
  xx : f.cx.nx = f.ax.length
  xy : f.cx.ny = f.ay.length
  yx : f.cy.nx = f.ax.length
  yy : f.cy.ny = f.ay.length
  mx : f.mask.nx = f.ax.length
  my : f.mask.ny = f.ay.length
  nanx : ∀ i j, i < f.ax.length → j < f.ay.length → f.cx.get i j = none → f.mask.get i j = true
  nany : ∀ i j, i < f.ax.length → j < f.ay.length → f.cy.get i j = none → f.mask.get i j = true

/-- `arr[mask] = np.NaN`, core/vectorfield.py:371-373. -/
def nanify (g : Grid (Option Rat)) (m : Grid Bool) : Grid (Option Rat) :=
  ⟨g.nx, g.ny, fun i j => if m.get i j then none else g.get i j⟩

/-- `f.mask = m` for an array of the right shape, core/vectorfield.py:351-374.  The refusal of a mask that reveals masked
values (367-369) is not modelled: no modelled caller gives such a mask. -/
def setMask (f : VF) (m : Grid Bool) : VF := { f with cx := nanify f.cx m, cy := nanify f.cy m, mask := m }

/-- Elementwise linear combination `a*g + b*h` with NaN propagation. -/
def lin (a b : Rat) (g h : Grid (Option Rat)) : Grid (Option Rat) :=
  ⟨g.nx, g.ny, fun i j => nanOp (fun u v => a * u + b * v) (g.get i j) (h.get i j)⟩

/-! ### arithmetic -/

/-- `__neg__`, core/vectorfield.py:52-56. -/
def neg (f : VF) : VF := { f with cx := f.cx.map (Option.map (fun v => -v)), cy := f.cy.map (Option.map (fun v => -v)) }

/-- Unit tests of the addition, core/vectorfield.py:61-66. -/
def unitsMatch (f g : VF) : Bool :=
  decide (f.uv.Compat g.uv) && decide (f.ux.Compat g.ux) && decide (f.uy.Compat g.uy)

/-- `fact` of the addition, core/vectorfield.py:71, 100. -/
def addFact (f g : VF) : Rat := Unum.ratio ⟨1, g.uv⟩ ⟨1, f.uv⟩

/-- The branch "identical shape and axis", core/vectorfield.py:70-75. -/
def addSame (f g : VF) : VF :=
  ({ f with cx := lin 1 (f.addFact g) f.cx g.cx, cy := lin 1 (f.addFact g) f.cy g.cy } : VF).setMask
    ⟨f.mask.nx, f.mask.ny, fun i j => f.mask.get i j || g.mask.get i j⟩

/-- The test for shared coordinates, core/vectorfield.py:79-81: `np.any(np.abs(val - axe) < np.abs(val)*1e-4)`. -/
def near (m : List Rat) (x : Rat) : Bool := m.any fun o => decide (|x - o| < |x| * (1 / 10000))

/-- The selected indices of an axis, core/vectorfield.py:79-90. -/
def nearIdx (l m : List Rat) : List Nat :=
  (List.range l.length).filter fun i => match l[i]? with
    | some x => near m x
    | none => false

/-- `self.axe_x[new_ind_x]`, core/vectorfield.py:98-99. -/
def nearAx (l m : List Rat) : List Rat := l.filter (near m)

/-- The values of a component at the selected points, core/vectorfield.py:101-110. -/
def nearVals (f g : VF) (cf cg : Grid (Option Rat)) : Grid (Option Rat) :=
  ⟨(nearAx f.ax g.ax).length, (nearAx f.ay g.ay).length, fun i j =>
    nanOp (fun u v => u + v * f.addFact g) (cf.get ((nearIdx f.ax g.ax).getD i 0) ((nearIdx f.ay g.ay).getD j 0))
      (cg.get ((nearIdx g.ax f.ax).getD i 0) ((nearIdx g.ay f.ay).getD j 0))⟩

/-- `new_mask`, core/vectorfield.py:111-113. -/
def nearMask (f g : VF) : Grid Bool :=
  ⟨(nearAx f.ax g.ax).length, (nearAx f.ay g.ay).length, fun i j =>
    f.mask.get ((nearIdx f.ax g.ax).getD i 0) ((nearIdx f.ay g.ay).getD j 0) ||
      g.mask.get ((nearIdx g.ax f.ax).getD i 0) ((nearIdx g.ay f.ay).getD j 0)⟩

/-- How a mask is given to `import_from_arrays`. -/
inductive MaskArg where
  | bool (b : Bool)
  | array (m : Grid Bool)

/-- The mask before NaNs are added, core/vectorfield.py:519-520. -/
def MaskArg.grid (m : MaskArg) (nx ny : Nat) : Grid Bool :=
  match m with
  | .bool b => Grid.const nx ny b
  | .array g => g

/-- "Be sure nan values are masked", core/vectorfield.py:522-523. -/
def nanMask (m : Grid Bool) (cx cy : Grid (Option Rat)) : Grid Bool :=
  ⟨cx.nx, cx.ny, fun i j => m.get i j || (cx.get i j).isNone || (cy.get i j).isNone⟩

/-- The test for a transposed array, core/vectorfield.py:545-548. -/
def isSwapped (ax ay : List Rat) (c : Grid (Option Rat)) : Bool :=
  decide (ax.length = c.ny ∧ ay.length = c.nx ∧ ax.length ≠ ay.length)

/-- "Be sure axes are crescent" for a component array, core/vectorfield.py:555-563. -/
def flips (rx ry : Bool) (c : Grid (Option Rat)) : Grid (Option Rat) :=
  if ry then (if rx then c.flipX else c).flipY else (if rx then c.flipX else c)

/-- The storage of `import_from_arrays`, core/vectorfield.py:555-572: **the mask is not reversed** with the components. -/
def store (ax ay : List Rat) (cx cy : Grid (Option Rat)) (m : Grid Bool) (ux uy uv : Sym) : Res VF :=
  if cx.nx ≠ ax.length ∨ cx.ny ≠ ay.length ∨ cy.nx ≠ ax.length ∨ cy.ny ≠ ay.length then .error .valueError
  else .ok (({ ax := if SF.isRev ax then ax.reverse else ax, ay := if SF.isRev ay then ay.reverse else ay,
               cx := flips (SF.isRev ax) (SF.isRev ay) cx, cy := flips (SF.isRev ax) (SF.isRev ay) cy,
               mask := m, ux := ux, uy := uy, uv := uv } : VF).setMask m)

/-- `import_from_arrays`, core/vectorfield.py:484-573, for one dimensional axes.  The mask and the two components have one
shape (numpy broadcasting of other shapes is not modelled: ValueError); `delta[0]` raises IndexError for an axis with fewer
than two points (534-544; when the y axis is already uneven the code skips the test of x). -/
def importArrays (ax ay : List Rat) (cx cy : Grid (Option Rat)) (m : MaskArg) (ux uy uv : Sym) : Res VF :=
  if (m.grid cx.nx cx.ny).nx ≠ cx.nx ∨ (m.grid cx.nx cx.ny).ny ≠ cx.ny ∨ cy.nx ≠ cx.nx ∨ cy.ny ≠ cx.ny then .error .valueError
  else if ay.length < 2 ∨ ax.length < 2 then .error .indexError
  else if isSwapped ax ay cx then
    store ax ay cx.transpose cy.transpose (nanMask (m.grid cx.nx cx.ny) cx cy).transpose ux uy uv
  else store ax ay cx cy (nanMask (m.grid cx.nx cx.ny) cx cy) ux uy uv

/-- The branch "different shape, partially same axis", core/vectorfield.py:76-122.  Two selections of different sizes make
numpy's addition or `reshape` fail (ValueError). -/
def addShared (f g : VF) : Res VF :=
  if nearIdx f.ax g.ax = [] ∨ nearIdx f.ay g.ay = [] then .error .valueError
  else if (nearIdx g.ax f.ax).length ≠ (nearIdx f.ax g.ax).length ∨ (nearIdx g.ay f.ay).length ≠ (nearIdx f.ay g.ay).length then
    .error .valueError
  else importArrays (nearAx f.ax g.ax) (nearAx f.ay g.ay) (nearVals f g f.cx g.cx) (nearVals f g f.cy g.cy)
    (.array (nearMask f g)) f.ux f.uy f.uv

/-- `__add__` with a VectorField, core/vectorfield.py:58-122 (axis comparison as for ScalarField). -/
def add (f g : VF) : Res VF :=
  if f.unitsMatch g = false then .error .valueError
  else if f.ax = g.ax ∧ f.ay = g.ay then .ok (f.addSame g)
  else f.addShared g

/-- `__sub__`, core/vectorfield.py:159-162. -/
def sub (f g : VF) : Res VF := f.add g.neg

/-- `__mul__` with a number, core/vectorfield.py:224-229. -/
def mulNum (f : VF) (q : Rat) : VF :=
  ({ f with cx := f.cx.map (Option.map (· * q)), cy := f.cy.map (Option.map (· * q)) } : VF).setMask f.mask

/-- `__mul__` with a ScalarField, core/vectorfield.py:230-237: shapes are compared, neither the axes nor the unit of the
scalar field are looked at. -/
def mulSF (f : VF) (s : SF) : Res VF :=
  if f.ax.length ≠ s.ax.length ∨ f.ay.length ≠ s.ay.length then .error .valueError
  else .ok (({ f with cx := ⟨f.cx.nx, f.cx.ny, fun i j => nanOp (· * ·) (f.cx.get i j) (s.cell i j)⟩
                      cy := ⟨f.cy.nx, f.cy.ny, fun i j => nanOp (· * ·) (f.cy.get i j) (s.cell i j)⟩ } : VF).setMask
      ⟨f.mask.nx, f.mask.ny, fun i j => s.mask.get i j || f.mask.get i j⟩)

/-! ### geometry -/

/-- The values part of `scale`, core/vectorfield.py:715-729. -/
def scaleVals (f : VF) : Option Unum → VF
  | none => f
  | some s => { f with cx := f.cx.map (Option.map (· * s.num)), cy := f.cy.map (Option.map (· * s.num)),
                       uv := f.uv.mul s.sym }

/-- Elementwise opposite. -/
def opp (g : Grid (Option Rat)) : Grid (Option Rat) := g.map (Option.map fun v => -v)

/-- The reversals of `scale`, core/vectorfield.py:730-738: **the mask stays as it is**. -/
def reverse (f : VF) (rx ry : Bool) : VF :=
  if rx && ry then { f with cx := opp f.cx.flipX.flipY, cy := opp f.cy.flipX.flipY }
  else if rx then { f with cx := opp f.cx.flipX, cy := f.cy.flipX }
  else if ry then { f with cx := f.cx.flipY, cy := opp f.cy.flipY }
  else f

/-- `scale`, core/vectorfield.py:697-741. -/
def scale (f : VF) (sx sy sv : Option Unum) : VF :=
  ({ f with ax := (SF.scaleAxis f.ax f.ux sx).1, ux := (SF.scaleAxis f.ax f.ux sx).2.1
            ay := (SF.scaleAxis f.ay f.uy sy).1, uy := (SF.scaleAxis f.ay f.uy sy).2.1 } : VF).scaleVals sv
    |>.reverse (SF.scaleAxis f.ax f.ux sx).2.2 (SF.scaleAxis f.ay f.uy sy).2.2

/-- `cos(angle)` and `sin(angle)` for the normalised angles 0, 90, 180, 270, as real numbers (the rounding error of numpy,
about 1e-16, is not modelled). -/
def cosA (a : Int) : Rat := if a = 0 then 1 else if a = 180 then -1 else 0
def sinA (a : Int) : Rat := if a = 90 then 1 else if a = 270 then -1 else 0

/-- `np.rot90(g, angle/90)`. -/
def rotGrid {α : Type} (a : Int) (g : Grid α) : Grid α :=
  if a = 0 then g else if a = 90 then g.rot90 else if a = 180 then g.rot180 else g.rot270

/-- The axes after `Field.rotate`, core/field.py:399-422. -/
def rotAx (f : VF) (a : Int) : List Rat :=
  SF.fixAxis (if a = 0 then f.ax else if a = 90 then f.ay.reverse else if a = 180 then f.ax.reverse else f.ay)
def rotAy (f : VF) (a : Int) : List Rat :=
  SF.fixAxis (if a = 0 then f.ay else if a = 90 then f.ax else if a = 180 then f.ay.reverse else f.ax.reverse)

/-- `rotate`, core/vectorfield.py:743-793, for an integer angle. -/
def rotate (f : VF) (angle : Int) : Res VF :=
  if angle % 90 ≠ 0 then .error .valueError
  else .ok { ax := f.rotAx (angle % 360), ay := f.rotAy (angle % 360)
             cx := lin (cosA (angle % 360)) (-sinA (angle % 360)) (rotGrid (angle % 360) f.cx) (rotGrid (angle % 360) f.cy)
             cy := lin (cosA (angle % 360)) (sinA (angle % 360)) (rotGrid (angle % 360) f.cy) (rotGrid (angle % 360) f.cx)
             mask := rotGrid (angle % 360) f.mask
             ux := if angle % 360 = 90 ∨ angle % 360 = 270 then f.uy else f.ux
             uy := if angle % 360 = 90 ∨ angle % 360 = 270 then f.ux else f.uy
             uv := f.uv }

/-- `Field.set_origin`, core/field.py:460-476. -/
def setOrigin (f : VF) (x y : Option Rat) : VF :=
  { f with ax := match x with | none => f.ax | some x => f.ax.map (· - x)
           ay := match y with | none => f.ay | some y => f.ay.map (· - y) }

/-- `change_unit`, core/vectorfield.py:804-834 and core/field.py:427-458, for a unit object. -/
def changeUnit (f : VF) (w : SF.Which) (new : Sym) : Res VF :=
  match w with
  | .x => (Unum.asUnit ⟨1, f.ux⟩ ⟨1, new⟩).map fun u => { f with ux := u.sym, ax := f.ax.map (· * u.num) }
  | .y => (Unum.asUnit ⟨1, f.uy⟩ ⟨1, new⟩).map fun u => { f with uy := u.sym, ay := f.ay.map (· * u.num) }
  | .values => (Unum.asUnit ⟨1, f.uv⟩ ⟨1, new⟩).map fun u =>
      { f with cx := f.cx.map (Option.map (· * u.num)), cy := f.cy.map (Option.map (· * u.num)), uv := u.sym }

/-- The slices of `crop`, core/vectorfield.py:985-1004 and core/field.py:562-572. -/
def cut (f : VF) (x0 x1 y0 y1 : Nat) : VF :=
  { f with ax := slice f.ax x0 (x1 + 1), ay := slice f.ay y0 (y1 + 1),
           cx := f.cx.sub x0 (x1 + 1) y0 (y1 + 1), cy := f.cy.sub x0 (x1 + 1) y0 (y1 + 1),
           mask := f.mask.sub x0 (x1 + 1) y0 (y1 + 1) }

/-- The interval of a crop by values: a missing one is the whole axis, core/field.py:499-508. -/
def interval (l : List Rat) : Option (Rat × Rat) → Option (Rat × Rat)
  | some p => some p
  | none => match l.head?, l.getLast? with
    | some a, some b => some (a, b)
    | _, _ => none

/-- `crop(intervx, intervy)` by values, core/vectorfield.py:968-1005. -/
def crop (f : VF) (ix iy : Option (Rat × Rat)) : Res VF :=
  match interval f.ax ix, interval f.ay iy with
  | some (a, b), some (c, d) =>
    match Axis.cropInds f.ax a b, Axis.cropInds f.ay c d with
    | .ok (x0, x1), .ok (y0, y1) => .ok (f.cut x0 x1 y0 y1)
    | .error e, _ => .error e
    | _, .error e => .error e
  | _, _ => .error .indexError

/-- `crop(intervx, intervy, ind=True)`, core/vectorfield.py:968-1005. -/
def cropInd (f : VF) (ix iy : Option (Int × Int)) : Res VF :=
  match Axis.cropIndsInd (ix.getD (0, f.ax.length)).1 (ix.getD (0, f.ax.length)).2,
        Axis.cropIndsInd (iy.getD (0, f.ay.length)).1 (iy.getD (0, f.ay.length)).2 with
  | .ok (x0, x1), .ok (y0, y1) => .ok (f.cut x0 x1 y0 y1)
  | .error e, _ => .error e
  | _, .error e => .error e

/-- The mask of a vector field as a scalar field: the functions `rowValid`, `colValid`, `rowCount`, `colCount` and
`worstBorder` of the model of ScalarField read the mask only. -/
def maskF (f : VF) : SF :=
  ⟨f.ax, f.ay, ⟨f.mask.nx, f.mask.ny, fun i j => if f.mask.get i j then none else some 0⟩, f.mask, f.ux, f.uy, f.uv⟩

/-- The soft cropping, core/vectorfield.py:1052-1061. -/
def softCrop (f : VF) : Res VF :=
  match SF.firstLast ((List.range f.mask.nx).filter f.maskF.rowValid),
        SF.firstLast ((List.range f.mask.ny).filter f.maskF.colValid) with
  | .ok (x0, x1), .ok (y0, y1) => f.cropInd (some ((x0 : Int), (x1 : Int))) (some ((y0 : Int), (y1 : Int)))
  | .error e, _ => .error e
  | _, .error e => .error e

/-- One turn of the loop of the hard cropping, core/vectorfield.py:1029-1051; `ly` is `len(self.axe_y)` (1046), the
length of the axis of the original field when the crop is not in place. -/
def hardStep (ly : Nat) (f : VF) : Res VF :=
  if f.maskF.worstBorder = 0 then f.cropInd (some (1, (f.ax.length : Int))) none
  else if f.maskF.worstBorder = 1 then f.cropInd (some (0, (f.ax.length : Int) - 2)) none
  else if f.maskF.worstBorder = 2 then f.cropInd none (some (1, (ly : Int)))
  else f.cropInd none (some (0, (f.ay.length : Int) - 2))

/-- The loop `while np.any(tmp_sf.mask)` run for at most `n` turns, core/vectorfield.py:1029-1051. -/
def hardLoop (ly : Nat) : Nat → VF → Option (Res VF)
  | 0, f => if f.maskF.anyMasked then none else some (.ok f)
  | n + 1, f =>
    if f.maskF.anyMasked then
      match f.hardStep ly with
      | .error e => some (.error e)
      | .ok g => hardLoop ly n g
    else some (.ok f)

/-- `crop_masked_border(hard=False, inplace=False)`, core/vectorfield.py:1007-1064. -/
def cropMaskedSoft (f : VF) : Res (Option VF) :=
  if f.maskF.anyMasked = false then .ok none else f.softCrop.map some

/-- `crop_masked_border(hard=True, inplace=False)` run for at most `n` turns of its loop. -/
def cropMaskedHard (n : Nat) (f : VF) : Option (Res (Option VF)) :=
  if f.maskF.anyMasked = false then some (.ok none)
  else match f.softCrop with
    | .error e => some (.error e)
    | .ok g => (hardLoop f.ay.length n g).map (·.map some)

/-- `extend`, core/vectorfield.py:1066-1114 (both forms), integer counts. -/
def extend (f : VF) (nl nr nu nd : Nat) : Res VF :=
  match Axis.extend f.ax nl nr, Axis.extend f.ay nd nu with
  | .ok ax, .ok ay => .ok { f with ax := ax, ay := ay, cx := SF.padGrid f.cx nl nr nd nu (some 0),
                                   cy := SF.padGrid f.cy nl nr nd nu (some 0), mask := SF.padGrid f.mask nl nr nd nu true }
  | .error e, _ => .error e
  | _, .error e => .error e

/-- `__iter__`, core/vectorfield.py:260-268, over `Field.__iter__`, core/field.py:40-43. -/
def iter (f : VF) : List ((Nat × Nat) × (Rat × Rat) × (Option Rat × Option Rat)) :=
  ((List.range f.ax.length).flatMap fun i => (List.range f.ay.length).map fun j => (i, j)).filterMap fun (i, j) =>
    match f.ax[i]?, f.ay[j]? with
    | some x, some y => if f.mask.get i j then none else some ((i, j), (x, y), (f.cx.get i j, f.cy.get i j))
    | _, _ => none

end VF
end IMT
