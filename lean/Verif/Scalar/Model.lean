import Verif.Axis.Model
import Verif.Units

/-!
Model of `ScalarField` (`/repo/IMTreatment/core/scalarfield.py`) and of the two-dimensional methods of its
parent `Field` (`/repo/IMTreatment/core/field.py`).
-/

namespace IMT

namespace Grid
variable {α β γ : Type}

/-- `m[::-1, :]`. -/
def flipX (g : Grid α) : Grid α := ⟨g.nx, g.ny, fun i j => g.get (g.nx - 1 - i) j⟩
/-- `m[:, ::-1]`. -/
def flipY (g : Grid α) : Grid α := ⟨g.nx, g.ny, fun i j => g.get i (g.ny - 1 - j)⟩
/-- `m.transpose()`. -/
def transpose (g : Grid α) : Grid α := ⟨g.ny, g.nx, fun i j => g.get j i⟩
/-- `np.rot90(m, 1)`: numpy computes `transpose(flip(m, 1))`. -/
def rot90 (g : Grid α) : Grid α := g.flipY.transpose
/-- `np.rot90(m, 2)`: numpy computes `flip(flip(m, 0), 1)`. -/
def rot180 (g : Grid α) : Grid α := g.flipX.flipY
/-- `np.rot90(m, 3)`: numpy computes `flip(transpose(m), 1)`. -/
def rot270 (g : Grid α) : Grid α := g.transpose.flipY
/-- Elementwise function. -/
def map (f : α → β) (g : Grid α) : Grid β := ⟨g.nx, g.ny, fun i j => f (g.get i j)⟩
/-- Elementwise function of two arrays of the same shape. -/
def map2 (f : α → β → γ) (a : Grid α) (b : Grid β) : Grid γ :=
  ⟨a.nx, a.ny, fun i j => f (a.get i j) (b.get i j)⟩
/-- `m[x0:x1, y0:y1]` with numpy's truncation of the stops to the shape. -/
def sub (g : Grid α) (x0 x1 y0 y1 : Nat) : Grid α :=
  ⟨min x1 g.nx - x0, min y1 g.ny - y0, fun i j => g.get (x0 + i) (y0 + j)⟩
/-- Constant array. -/
def const (nx ny : Nat) (a : α) : Grid α := ⟨nx, ny, fun _ _ => a⟩
/-- All cells satisfy `p` (`np.all`). -/
def all (g : Grid α) (p : α → Bool) : Bool :=
  (List.range g.nx).all fun i => (List.range g.ny).all fun j => p (g.get i j)
/-- Some cell satisfies `p` (`np.any`). -/
def any (g : Grid α) (p : α → Bool) : Bool :=
  (List.range g.nx).any fun i => (List.range g.ny).any fun j => p (g.get i j)
end Grid

/-- A `ScalarField` object: its two axes, the raw array `__values` (NaN is `none`), the raw `__mask` and
the three units (core/scalarfield.py:46-51, core/field.py `__init__`).  Integer dtypes and `xy_scale` are not
modelled. -/
structure SF where
  ax : List Rat
  ay : List Rat
  val : Grid (Option Rat)
  mask : Grid Bool
  ux : Sym
  uy : Sym
  uv : Sym

namespace SF

/-- What the `values` property shows of a cell: NaN at masked cells (core/scalarfield.py:318-325). -/
def cell (f : SF) (i j : Nat) : Option Rat := if f.mask.get i j then none else f.val.get i j

/-- The `values` property, core/scalarfield.py:318-325. -/
def values (f : SF) : Grid (Option Rat) := ⟨f.val.nx, f.val.ny, f.cell⟩

/-- `f.values = g` for an array of the right shape, core/scalarfield.py:327-336: the mask becomes the NaN
positions. -/
def setValues (f : SF) (g : Grid (Option Rat)) : SF :=
  { f with val := g, mask := g.map (·.isNone) }

/-- `f.mask = m`, core/scalarfield.py:350-371: stores the mask, touches no value. -/
def setMask (f : SF) (m : Grid Bool) : SF := { f with mask := m }

/-- A consistent field: increasing non-empty axes, arrays of the shape given by the axes, every NaN masked. -/
structure WF (f : SF) : Prop where
  incx : Inc f.ax
  incy : Inc f.ay
  nex : f.ax ≠ []
  ney : f.ay ≠ []
  vx : f.val.nx = f.ax.length
  vy : f.val.ny = f.ay.length
  mx : f.mask.nx = f.ax.length
  my : f.mask.ny = f.ay.length
  nan : ∀ i j, i < f.ax.length → j < f.ay.length → f.val.get i j = none → f.mask.get i j = true

/-- How a mask can be given to `import_from_arrays` (core/scalarfield.py:460-467). -/
inductive MaskArg where
  | none
  | bool (b : Bool)
  | array (m : Grid Bool)

/-- The test `axe[0] > axe[-1]`, core/scalarfield.py:503, 506. -/
def isRev (l : List Rat) : Bool :=
  match l.head?, l.getLast? with
  | some a, some b => decide (a > b)
  | _, _ => false

/-- `ScalarField.import_from_arrays`, core/scalarfield.py:422-520, for one dimensional axes
(473-482 not modelled) and `dontchecknans=False`.
* 460-471: the mask array, then NaNs are added to it;
* 484-489: `delta[0]` raises IndexError for an axis with fewer than two points (modelled for both axes;
  the code skips the test of x when the y axis is already known to be uneven);
* 494-501: transposition when the shape is the transposed one;
* 503-508: decreasing axes are reversed together with the values; **the mask is not reversed**;
* 510-520: storage (units are stored as given). -/
def importArrays (ax ay : List Rat) (v : Grid (Option Rat)) (m : MaskArg) (ux uy uv : Sym) : Res SF :=
  let mask := match m with
    | .none => Grid.const v.nx v.ny false
    | .bool b => Grid.const v.nx v.ny b
    | .array m => m
  let mask := mask.map2 (fun b x => b || x.isNone) v
  if ay.length < 2 ∨ ax.length < 2 then .error .indexError
  else
    let swap : Bool := decide (ax.length = v.ny ∧ ay.length = v.nx ∧ ax.length ≠ ay.length)
    let v := if swap then v.transpose else v
    let mask := if swap then mask.transpose else mask
    let revx := isRev ax
    let revy := isRev ay
    let ax := if revx then ax.reverse else ax
    let v := if revx then v.flipX else v
    let ay := if revy then ay.reverse else ay
    let v := if revy then v.flipY else v
    .ok { ax := ax, ay := ay, val := v, mask := mask, ux := ux, uy := uy, uv := uv }

/-- "correction non-crescent axis" of `Field.rotate`, core/field.py:418-422. -/
def fixAxis (l : List Rat) : List Rat :=
  match l.head?, l.getLast? with
  | some a, some b => if b < a then l.map (fun c => -c) else l
  | _, _ => l

/-- `ScalarField.rotate`, core/scalarfield.py:1300-1341 with its parent `Field.rotate`,
core/field.py:367-425, for an integer angle.  (With empty axes the code raises IndexError at
core/field.py:419; the model leaves them alone.) -/
def rotate (f : SF) (angle : Int) : Res SF :=
  if angle % 90 ≠ 0 then .error .valueError
  else
    let a := angle % 360
    if a = 0 then .ok { f with ax := fixAxis f.ax, ay := fixAxis f.ay, val := f.values }
    else if a = 90 then
      .ok { ax := fixAxis f.ay.reverse, ay := fixAxis f.ax, ux := f.uy, uy := f.ux, uv := f.uv,
            val := f.values.rot90, mask := f.mask.rot90 }
    else if a = 180 then
      .ok { f with ax := fixAxis f.ax.reverse, ay := fixAxis f.ay.reverse,
                   val := f.values.rot180, mask := f.mask.rot180 }
    else
      .ok { ax := fixAxis f.ay, ay := fixAxis f.ax.reverse, ux := f.uy, uy := f.ux, uv := f.uv,
            val := f.values.rot270, mask := f.mask.rot270 }

/-- One axis of `Field.scale`, core/field.py:315-334 (x) and 335-354 (y): `none` is "no scaling"; a plain
number is a Unum with the dimensionless symbol.  Returns the new axis, the new unit, the reversal flag. -/
def scaleAxis (l : List Rat) (u : Sym) : Option Unum → List Rat × Sym × Bool
  | none => (l, u, false)
  | some s =>
    let l := l.map (· * s.num)
    let u := u.mul s.sym
    if s.num < 0 then (l.reverse, u, true) else (l, u, false)

/-- The values part of `ScalarField.scale`, core/scalarfield.py:1277-1288. -/
def scaleVals (f : SF) : Option Unum → SF
  | none => f
  | some s => { f.setValues (f.values.map (Option.map (· * s.num))) with uv := f.uv.mul s.sym }

/-- `ScalarField.scale`, core/scalarfield.py:1258-1298 (1289-1294: reversal of the values). -/
def scale (f : SF) (sx sy sv : Option Unum) : SF :=
  let (ax, ux, rx) := scaleAxis f.ax f.ux sx
  let (ay, uy, ry) := scaleAxis f.ay f.uy sy
  let f := scaleVals { f with ax := ax, ay := ay, ux := ux, uy := uy } sv
  if rx && ry then f.setValues f.values.flipX.flipY
  else if rx then f.setValues f.values.flipX
  else if ry then f.setValues f.values.flipY
  else f

/-- `Field.set_origin`, core/field.py:460-476. -/
def setOrigin (f : SF) (x y : Option Rat) : SF :=
  { f with ax := match x with | none => f.ax | some x => f.ax.map (· - x)
           ay := match y with | none => f.ay | some y => f.ay.map (· - y) }

/-- Which quantity `change_unit` acts on. -/
inductive Which where
  | x | y | values
  deriving DecidableEq

/-- `ScalarField.change_unit`, core/scalarfield.py:1351-1381 (values) and `Field.change_unit`,
core/field.py:427-458 (axes), for a unit object. -/
def changeUnit (f : SF) (w : Which) (new : Sym) : Res SF :=
  match w with
  | .x => (Unum.asUnit ⟨1, f.ux⟩ ⟨1, new⟩).map fun u =>
      { f with ux := u.sym, ax := f.ax.map (· * u.num) }
  | .y => (Unum.asUnit ⟨1, f.uy⟩ ⟨1, new⟩).map fun u =>
      { f with uy := u.sym, ay := f.ay.map (· * u.num) }
  | .values => (Unum.asUnit ⟨1, f.uv⟩ ⟨1, new⟩).map fun u =>
      { f.setValues (f.values.map (Option.map (· * u.num))) with uv := u.sym }

/-- The common end of both crops: slices of axes, values and mask with the same indices
(core/field.py:563-566/571-572, core/scalarfield.py:1406-1409/1414-1417). -/
def cut (f : SF) (x0 x1 y0 y1 : Nat) : SF :=
  { f with ax := slice f.ax x0 (x1 + 1), ay := slice f.ay y0 (y1 + 1),
           val := f.values.sub x0 (x1 + 1) y0 (y1 + 1), mask := f.mask.sub x0 (x1 + 1) y0 (y1 + 1) }

/-- `ScalarField.crop(intervx, intervy)` by values, core/scalarfield.py:1383-1418.  A missing interval
becomes the whole axis (core/field.py:499-508). -/
def crop (f : SF) (ix iy : Option (Rat × Rat)) : Res SF :=
  let dflt (l : List Rat) (i : Option (Rat × Rat)) : Option (Rat × Rat) := match i with
    | some p => some p
    | none => match l.head?, l.getLast? with
      | some a, some b => some (a, b)
      | _, _ => none
  match dflt f.ax ix, dflt f.ay iy with
  | some (a, b), some (c, d) =>
    match Axis.cropInds f.ax a b, Axis.cropInds f.ay c d with
    | .ok (x0, x1), .ok (y0, y1) => .ok (f.cut x0 x1 y0 y1)
    | .error e, _ => .error e
    | _, .error e => .error e
  | _, _ => .error .indexError

/-- `ScalarField.crop(intervx, intervy, ind=True)`, core/scalarfield.py:1383-1418; a missing interval becomes
`[0, len]` (core/field.py:500-507). -/
def cropInd (f : SF) (ix iy : Option (Int × Int)) : Res SF :=
  let (a, b) := ix.getD (0, f.ax.length)
  let (c, d) := iy.getD (0, f.ay.length)
  match Axis.cropIndsInd a b, Axis.cropIndsInd c d with
  | .ok (x0, x1), .ok (y0, y1) => .ok (f.cut x0 x1 y0 y1)
  | .error e, _ => .error e
  | _, .error e => .error e

/-- The array part of `ScalarField.extend`, core/scalarfield.py:1469-1484: an array filled with `fill`, with
the old one copied at offset `(nl, nd)`. -/
def padGrid {α : Type} (g : Grid α) (nl nr nd nu : Nat) (fill : α) : Grid α :=
  ⟨nl + g.nx + nr, nd + g.ny + nu, fun i j =>
    if nl ≤ i ∧ i < nl + g.nx ∧ nd ≤ j ∧ j < nd + g.ny then g.get (i - nl) (j - nd) else fill⟩

/-- `ScalarField.extend(..., inplace=True)`, core/scalarfield.py:1420-1491, integer counts.  The result goes
through `import_from_arrays`. -/
def extendInplace (f : SF) (nl nr nu nd : Nat) (value : Option Rat) : Res SF :=
  match Axis.extend f.ax nl nr, Axis.extend f.ay nd nu with
  | .ok ax, .ok ay =>
    let (v, m) := match value with
      | none => (padGrid f.values nl nr nd nu (some 0), padGrid f.mask nl nr nd nu true)
      | some q => (padGrid f.values nl nr nd nu (some q), padGrid f.mask nl nr nd nu false)
    importArrays ax ay v (.array m) f.ux f.uy f.uv
  | .error e, _ => .error e
  | _, .error e => .error e

/-- `ScalarField.extend(..., inplace=False)`, core/scalarfield.py:1493: the name `new_field` is never bound, so
every such call raises NameError (unless an earlier line already raised). -/
def extendCopy (f : SF) (nl nr nu nd : Nat) (_value : Option Rat) : Res SF :=
  match Axis.extend f.ax nl nr, Axis.extend f.ay nd nu with
  | .ok _, .ok _ => .error .nameError
  | .error e, _ => .error e
  | _, .error e => .error e

/-- `Field.__iter__`, core/field.py:40-43: index pairs in x-major order. -/
def indexPairs (f : SF) : List (Nat × Nat) :=
  (List.range f.ax.length).flatMap fun i => (List.range f.ay.length).map fun j => (i, j)

/-- `ScalarField.__iter__`, core/scalarfield.py:309-316: ((i, j), (x, y), value) for unmasked cells. -/
def iter (f : SF) : List ((Nat × Nat) × (Rat × Rat) × Option Rat) :=
  f.indexPairs.filterMap fun (i, j) =>
    match f.ax[i]?, f.ay[j]? with
    | some x, some y => if f.mask.get i j then none else some ((i, j), (x, y), f.cell i j)
    | _, _ => none

end SF
end IMT
