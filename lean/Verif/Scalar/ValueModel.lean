import Verif.Scalar.Model

/-! Model of `ScalarField.get_value` and `ScalarField.reduce_spatial_resolution`
(core/scalarfield.py:540-615, 1964-2065). -/

namespace IMT.SF

/-- Linear interpolation between two grid points, core/scalarfield.py:583-587, 595-599 (NaN propagates). -/
def branch (p1 p2 y : Rat) (v1 v2 : Option Rat) : Option Rat :=
  match v1, v2 with
  | some a, some b => some ((b * |p1 - y| + a * |p2 - y|) / |p1 - p2|)
  | _, _ => none

/-- Value of the plane through three vertices of the unit square, NaN when one of them is. -/
def plane (v0 v1 v2 : Option Rat) (f : Rat → Rat → Rat → Rat) : Option Rat :=
  match v0, v1, v2 with
  | some a, some b, some c => some (f a b c)
  | _, _, _ => none

/-- `LinearNDInterpolator` on the four corners of a cell, core/scalarfield.py:601-614: Qhull splits the
rectangle in two triangles, along the diagonal (0,0)-(1,1) when `main` is true and along the other one
otherwise, and the value is that of the plane of the triangle holding the point.  `u`, `w` are the relative
coordinates in the cell.  Which diagonal Qhull takes is not modelled: it is a parameter. -/
def cellInterp (main : Bool) (u w : Rat) (v00 v10 v01 v11 : Option Rat) : Option Rat :=
  if main then
    if w ≤ u then plane v00 v10 v11 fun a b c => a + u * (b - a) + w * (c - b)
    else plane v00 v01 v11 fun a b c => a + w * (b - a) + u * (c - b)
  else
    if u + w ≤ 1 then plane v00 v10 v01 fun a b c => a + u * (b - a) + w * (c - a)
    else plane v11 v01 v10 fun a b c => a + (1 - u) * (b - a) + (1 - w) * (c - a)

/-- The interpolation part of `get_value`, once the bounding indices are known, core/scalarfield.py:571-615.
The mask is tested at the two corners `(i0, j0)` and `(i1, j1)` only (572). -/
def interpAt (main : Bool) (f : SF) (x y : Rat) (i0 i1 j0 j1 : Nat) : Option Rat :=
  if f.mask.get i0 j0 || f.mask.get i1 j1 then none
  else if i0 = i1 ∧ j0 = j1 then f.cell i0 j0
  else if i0 = i1 then branch (f.ay.getD j0 0) (f.ay.getD j1 0) y (f.cell i0 j0) (f.cell i0 j1)
  else if j0 = j1 then branch (f.ax.getD i0 0) (f.ax.getD i1 0) x (f.cell i0 j0) (f.cell i1 j0)
  else cellInterp main ((x - f.ax.getD i0 0) / (f.ax.getD (i0 + 1) 0 - f.ax.getD i0 0))
      ((y - f.ay.getD j0 0) / (f.ay.getD (j0 + 1) 0 - f.ay.getD j0 0))
      (f.cell i0 j0) (f.cell (i0 + 1) j0) (f.cell i0 (j0 + 1)) (f.cell (i0 + 1) (j0 + 1))

/-- `ScalarField.get_value(x, y)`, core/scalarfield.py:540-615, `ind=False`, `unit=False`; NaN is `none`.  The
range test (557-560) is the one repeated by `get_indice_on_axe`. -/
def getValue (main : Bool) (f : SF) (x y : Rat) : Res (Option Rat) :=
  match Axis.bounds f.ax x, Axis.bounds f.ay y with
  | .ok (i0, i1), .ok (j0, j1) => .ok (f.interpAt main x y i0 i1 j0 j1)
  | .error e, _ => .error e
  | _, .error e => .error e

/-! ### reduce_spatial_resolution -/

/-- `new_axe` for an even factor, core/scalarfield.py:1991-1999: the two indices are `h-1 + k*fact` and
`h + k*fact` with `h = fact/2`, for `len/fact` values of `k`. -/
def reducedAxis (l : List Rat) (fact : Nat) : List Rat :=
  (List.range (l.length / fact)).map fun k : Nat =>
    (l.getD (fact / 2 - 1 + k * fact) 0 + l.getD (fact / 2 + k * fact) 0) / 2

/-- The unmasked values of a block, in row order, core/scalarfield.py:2025-2031. -/
def blockVals (f : SF) (fact k l : Nat) : List Rat :=
  (List.range fact).flatMap fun i => (List.range fact).filterMap fun j => f.cell (k * fact + i) (l * fact + j)

/-- The block is masked entirely, core/scalarfield.py:2025. -/
def blockMasked (f : SF) (fact k l : Nat) : Bool :=
  (List.range fact).all fun i => (List.range fact).all fun j => f.mask.get (k * fact + i) (l * fact + j)

/-- `new_values`, core/scalarfield.py:2018-2031 (0 in masked blocks). -/
def reducedVals (f : SF) (fact : Nat) : Grid (Option Rat) :=
  ⟨f.ax.length / fact, f.ay.length / fact, fun k l =>
    if f.blockMasked fact k l then some 0
    else some ((f.blockVals fact k l).sum / (f.blockVals fact k l).length)⟩

/-- `new_mask`, core/scalarfield.py:2019, 2026. -/
def reducedMask (f : SF) (fact : Nat) : Grid Bool :=
  ⟨f.ax.length / fact, f.ay.length / fact, fun k l => f.blockMasked fact k l⟩

/-- `ScalarField.reduce_spatial_resolution(fact, inplace)`, core/scalarfield.py:1964-2065.  For an odd factor the
slices have float bounds (2037-2042): indexing with them raises TypeError as soon as there is one block.  With
`inplace`, `self.__init__()` (2052) has reset the units before they are read again. -/
def reduce (f : SF) (fact : Nat) (inplace : Bool) : Res SF :=
  if fact < 1 then .error .valueError
  else if fact = 1 ∧ inplace = false then .ok f
  else if fact % 2 = 0 then
    importArrays (reducedAxis f.ax fact) (reducedAxis f.ay fact) (f.reducedVals fact) (.array (f.reducedMask fact))
      (if inplace then Sym.one else f.ux) (if inplace then Sym.one else f.uy) (if inplace then Sym.one else f.uv)
  else if f.ax.length / fact = 0 ∨ f.ay.length / fact = 0 then .error .indexError
  else .error .typeError

end IMT.SF
