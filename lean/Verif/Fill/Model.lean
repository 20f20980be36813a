import Verif.Scalar.BorderModel
import Verif.Turb.Model

/-!
Model of the filling of masked points by interpolation: `ScalarField.fill` (`/repo/IMTreatment/core/scalarfield.py`, "sf.py") and
`VectorField.fill` (`/repo/IMTreatment/core/vectorfield.py`, "vf.py").

The interpolators of `scipy` are parameters (`Scipy`); what is assumed about them is `Scipy.Ok`.  `scipy` raises an error for sets of points it
cannot triangulate or search; its class is not represented.  Rounding is not modelled.
-/

namespace IMT.Fill

open Mirror (compX compY)

/-- A visible point of the field: its coordinates and value. -/
structure Node where
  x : Rat
  y : Rat
  v : Rat
  deriving DecidableEq

/-- `NearestNDInterpolator` (the number of the point chosen), `LinearNDInterpolator` and `CloughTocher2DInterpolator` of `scipy.interpolate`, the
last two giving NaN out of the triangulation. -/
structure Scipy where
  near : List (Rat × Rat) → Rat → Rat → Nat
  lin : List Node → Rat → Rat → Option Rat
  cub : List Node → Rat → Rat → Option Rat

/-- All points are on one line: the triangulation of them fails. -/
def Flat (ns : List Node) : Prop := ∃ a b c : Rat, (a ≠ 0 ∨ b ≠ 0) ∧ ∀ n ∈ ns, a * n.x + b * n.y = c

/-- The argument `kind`; `other` is any other string. -/
inductive Kind where
  | value (v : Rat)
  | nearest
  | linear
  | cubic
  | other

/-- `(a, b)` is reached from `(i, j)` by the structure `np.arange(9).reshape((3, 3))` of sf.py:1831-1832, whose first element is zero: it is
`(i, j)` or one of seven of its eight neighbours. -/
def touches (i j a b : Nat) : Bool :=
  decide (a ≤ i + 1) && decide (i ≤ a + 1) && decide (b ≤ j + 1) && decide (j ≤ b + 1) && !(decide (a = i + 1) && decide (b = j + 1))

/-- `dilated[i, j]`, sf.py:1831-1832. -/
def dilated (f : SF) (i j : Nat) : Bool := f.indexPairs.any fun q => f.mask.get q.1 q.2 && touches i j q.1 q.2

/-- The cells of `filt_good` (with `reduce_tri`) or `filt`, sf.py:1826-1837. -/
def good (f : SF) (red : Bool) : List (Nat × Nat) := f.indexPairs.filter fun q => !f.mask.get q.1 q.2 && (!red || dilated f q.1 q.2)

/-- A point of the grid with its value. -/
def node (f : SF) (q : Nat × Nat) : Node := ⟨(f.ax[q.1]?).getD 0, (f.ay[q.2]?).getD 0, (f.cell q.1 q.2).getD 0⟩

/-- `xy_good`, `values_good`, sf.py:1833-1837. -/
def nodes (f : SF) (red : Bool) : List Node := (good f red).map (node f)

/-- `NearestNDInterpolator(xy_good, values_good)` at a point. -/
def nearest (s : Scipy) (ns : List Node) (x y : Rat) : Rat := ((ns[s.near (ns.map fun n => (n.x, n.y)) x y]?).map Node.v).getD 0

/-- The value given to a masked point, sf.py:1844-1863. -/
noncomputable def interp (s : Scipy) (ns : List Node) (k : Kind) : Res (Rat → Rat → Rat) :=
  open Classical in
  match k with
  | .value v => .ok fun _ _ => v
  | .nearest => if ns = [] then .error .exception else .ok (nearest s ns)
  | .linear => if Flat ns then .error .exception else .ok fun x y => (s.lin ns x y).getD (nearest s ns x y)
  | .cubic => if Flat ns then .error .exception else .ok fun x y => (s.cub ns x y).getD (nearest s ns x y)
  | .other => .error .valueError

/-- The array `values` after the assignments, sf.py:1844-1863. -/
def put (f : SF) (w : Rat → Rat → Rat) : Grid (Option Rat) :=
  ⟨f.val.nx, f.val.ny, fun i j => if f.mask.get i j then some (w ((f.ax[i]?).getD 0) ((f.ay[j]?).getD 0)) else f.cell i j⟩

/-- `values` when it is returned: nothing is done, and `kind` is not looked at, when nothing is masked, sf.py:1841-1842. -/
noncomputable def values (s : Scipy) (k : Kind) (red : Bool) (f : SF) : Res (Grid (Option Rat)) :=
  if f.anyMasked = false then .ok f.values
  else match interp s (nodes f red) k with
    | .error e => .error e
    | .ok w => .ok (put f w)

/-- `fill(kind, value, inplace=True, reduce_tri, crop=False)`, sf.py:1789-1880. -/
noncomputable def fill (s : Scipy) (k : Kind) (red : Bool) (f : SF) : Res SF :=
  match values s k red f with
  | .error e => .error e
  | .ok v => .ok { f with val := v, mask := Grid.const f.val.nx f.val.ny false }

/-- `fill(kind, value, inplace=False, reduce_tri, crop=False)`, sf.py:1789-1880: the field afterwards, whose array has been written
(`fillValueCopy`), and the result. -/
noncomputable def fillCopy (s : Scipy) (k : Kind) (red : Bool) (f : SF) : Res (SF × SF) :=
  match values s k red f with
  | .error e => .error e
  | .ok v => match SF.importArrays f.ax f.ay v (.bool false) f.ux f.uy f.uv with
    | .error e => .error e
    | .ok g => .ok ({ f with val := v }, g)

/-- `VectorField.fill(kind, value=[u, v], inplace=True)`, vf.py:910-958. -/
noncomputable def vfill (s : Scipy) (kx ky : Kind) (red : Bool) (f : VF) : Res VF :=
  match compX f, compY f with
  | .ok sx, .ok sy => match fillCopy s kx red sx, fillCopy s ky red sy with
    | .ok gx, .ok gy =>
      if gx.2.val.nx ≠ f.ax.length ∨ gx.2.val.ny ≠ f.ay.length ∨ gy.2.val.nx ≠ f.ax.length ∨ gy.2.val.ny ≠ f.ay.length then
        .error .valueError
      else .ok { f with cx := gx.2.values, cy := gy.2.values, mask := Grid.const f.ax.length f.ay.length false }
    | .error e, _ => .error e
    | _, .error e => .error e
  | .error e, _ => .error e
  | _, .error e => .error e

/-! ### smoothing -/

/-- The continuation of an array out of its bounds in the mode `reflect` of `scipy.ndimage`, `(d c b a | a b c d | d c b a)`: the place in the
array of the place `k`. -/
def reflect (n : Nat) (k : Int) : Nat :=
  if (k % (2 * n : Int)).toNat < n then (k % (2 * n : Int)).toNat else 2 * n - 1 - (k % (2 * n : Int)).toNat

/-- `ndimage.uniform_filter1d(_, size)` with the default `origin`, the array being given by its length and its values. -/
def uniform1 (n size : Nat) (a : Nat → Rat) (i : Nat) : Rat :=
  ((List.range size).map fun k : Nat => a (reflect n ((i : Int) + (k : Int) - ((size / 2 : Nat) : Int)))).sum / size

/-- `ndimage.uniform_filter(values, size)` on an array without NaN, sf.py:1921-1922: along the first axis, then along the second, if the size is
more than 1. -/
def uniform (nx ny size : Nat) (a : Nat → Nat → Rat) : Nat → Nat → Rat :=
  if size ≤ 1 then a else fun i j => uniform1 ny size (fun j => uniform1 nx size (fun i => a i j) i) j

/-- `smooth('uniform', size, inplace=True)`, sf.py:1882-1929. -/
noncomputable def smooth (s : Scipy) (size : Nat) (f : SF) : Res SF :=
  match fill s .linear true f with
  | .error e => .error e
  | .ok g => .ok { g with val := ⟨g.val.nx, g.val.ny, fun i j => some (uniform g.val.nx g.val.ny size (fun i j => (g.cell i j).getD 0) i j)⟩ }

/-- `VectorField.smooth('uniform', size, inplace=True)`, vf.py:837-882. -/
noncomputable def vsmooth (s : Scipy) (size : Nat) (f : VF) : Res VF :=
  match vfill s .linear .linear true f with
  | .error e => .error e
  | .ok g =>
    .ok { g with
      cx := ⟨g.cx.nx, g.cx.ny, fun i j => some (uniform g.cx.nx g.cx.ny size (fun i j => (g.cx.get i j).getD 0) i j)⟩
      cy := ⟨g.cy.nx, g.cy.ny, fun i j => some (uniform g.cy.nx g.cy.ny size (fun i j => (g.cy.get i j).getD 0) i j)⟩ }

end IMT.Fill
