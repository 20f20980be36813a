import Verif.Scalar.Model
import Verif.Vector.Model
import Verif.Points.Model
import Verif.Profile.Model

/-!
Model of the equality tests `==` of `ScalarField`, `VectorField`, `Points` and `Profile`.

What numpy and unum do outside the ordinary cases depends on their version; two parameters stand for it: `mis` is the outcome of
`a == b` for arrays that cannot be broadcast together (False or ValueError), `inc` the outcome of `u == v` for units of different
dimensions (False or an exception).
-/

namespace IMT.Same

/-- Two successive tests `if not …: return False` (core/vectorfield.py:270-293 and the other `__eq__`). -/
def both (a b : Res Bool) : Res Bool :=
  match a with
  | .error e => .error e
  | .ok false => .ok false
  | .ok true => b

/-- The broadcast size of two axes of numpy arrays, `none` when there is none; for `self.mask == another.mask`, core/scalarfield.py:59. -/
def bcast (n m : Nat) : Option Nat := if n = m then some n else if n = 1 then some m else if m = 1 then some n else none

/-- `np.all(op(a, b))` for one-dimensional arrays, with broadcasting; `mis` is the outcome when it is impossible
(core/scalarfield.py:53-71, core/vectorfield.py:270-293, core/points.py:147-160, core/profile.py:227-240). -/
def all1 {α : Type} (op : α → α → Bool) (mis : Res Bool) (a b : List α) : Res Bool :=
  if a.length = b.length then .ok ((a.zip b).all fun q => op q.1 q.2)
  else match a, b with
    | [x], b => .ok (b.all fun y => op x y)
    | a, [y] => .ok (a.all fun x => op x y)
    | _, _ => mis

/-- The index numpy uses along a broadcast axis; for `self.mask == another.mask`, core/scalarfield.py:59. -/
def bidx (n i : Nat) : Nat := if n = 1 then 0 else i

/-- `np.all(a == b)` for two-dimensional arrays, with broadcasting (core/scalarfield.py:53-71, core/vectorfield.py:270-293). -/
def all2 (mis : Res Bool) (a b : Grid Bool) : Res Bool :=
  match bcast a.nx b.nx, bcast a.ny b.ny with
  | some n, some m => .ok ((List.range n).all fun i => (List.range m).all fun j =>
      a.get (bidx a.nx i) (bidx a.ny j) == b.get (bidx b.nx i) (bidx b.ny j))
  | _, _ => mis

/-- `==` of floats, NaN being different from itself (core/vectorfield.py:270-293). -/
def feq (a b : Option Rat) : Bool :=
  match a, b with
  | some x, some y => decide (x = y)
  | _, _ => false

/-- `np.isclose(a, b)` with the default tolerances (core/scalarfield.py:53-71). -/
def close (a b : Rat) : Bool := decide (|a - b| ≤ 1 / 100000000 + 1 / 100000 * |b|)

/-- `np.isclose(a, b)`, False for NaN (core/scalarfield.py:53-71). -/
def fclose (a b : Option Rat) : Bool :=
  match a, b with
  | some x, some y => close x y
  | _, _ => false

/-- `u == v` for pure units: unum converts compatible units and compares the numbers (core/scalarfield.py:53-71 and the other `__eq__`). -/
def unitEq (inc : Res Bool) (u v : Sym) : Res Bool := if u.Compat v then .ok (decide (u.size = v.size)) else inc

/-- `values[~mask]`, in the order of the array (core/scalarfield.py:53-71). -/
def visible (f : SF) : List (Option Rat) := (f.indexPairs.filter fun q => !f.mask.get q.1 q.2).map fun q => f.cell q.1 q.2

/-- `ScalarField.__eq__`, core/scalarfield.py:53-71; `np.allclose` raises ValueError when the arrays cannot be broadcast. -/
def eqS (mis inc : Res Bool) (f g : SF) : Res Bool :=
  both (all1 close (.error .valueError) f.ax g.ax)
  (both (all1 close (.error .valueError) f.ay g.ay)
  (both (all2 mis f.mask g.mask)
  (both (all1 fclose (.error .valueError) (visible f) (visible g))
  (both (unitEq inc f.ux g.ux) (both (unitEq inc f.uy g.uy) (unitEq inc f.uv g.uv))))))

/-- `comp[~mask]`, in the order of the array (core/vectorfield.py:270-293). -/
def visibleC (f : VF) (m : Grid Bool) (c : Grid (Option Rat)) : List (Option Rat) :=
  (((List.range f.ax.length).flatMap fun i => (List.range f.ay.length).map fun j => (i, j)).filter fun q => !m.get q.1 q.2).map
    fun q => c.get q.1 q.2

/-- `VectorField.__eq__`, core/vectorfield.py:270-293. -/
def eqV (mis inc : Res Bool) (f g : VF) : Res Bool :=
  if f.ax.length ≠ g.ax.length ∨ f.ay.length ≠ g.ay.length then .ok false
  else both (all1 (fun a b => decide (a = b)) mis f.ax g.ax)
  (both (all1 (fun a b => decide (a = b)) mis f.ay g.ay)
  (both (all2 mis f.mask g.mask)
  (both (all1 feq mis (visibleC f f.mask f.cx) (visibleC g f.mask g.cx))
  (both (all1 feq mis (visibleC f f.mask f.cy) (visibleC g f.mask g.cy))
  (both (unitEq inc f.ux g.ux) (both (unitEq inc f.uy g.uy) (unitEq inc f.uv g.uv)))))))

/-- Equality of positions, coordinate by coordinate (core/points.py:147-160). -/
def peq (a b : Option Rat × Option Rat) : Bool := feq a.1 b.1 && feq a.2 b.2

/-- `Points.__eq__`, core/points.py:147-160. -/
def eqP (mis inc : Res Bool) (p q : Points.P) : Res Bool :=
  both (all1 peq mis p.xy q.xy)
  (both (all1 feq mis p.v q.v)
  (both (unitEq inc p.ux q.ux) (both (unitEq inc p.uy q.uy) (unitEq inc p.uv q.uv))))

/-- `array[~mask]` (core/profile.py:227-240). -/
def unmasked {α : Type} (l : List α) (m : List Bool) : List α := ((l.zip m).filter fun q => !q.2).map Prod.fst

/-- `Profile.__eq__`, core/profile.py:227-240 (`self.y` shows NaN under the mask). -/
def eqF (mis inc : Res Bool) (p q : Profile.Prof) : Res Bool :=
  both (all1 (fun a b => a == b) mis p.m q.m)
  (both (all1 (fun a b => decide (a = b)) mis (unmasked p.x p.m) (unmasked q.x q.m))
  (both (all1 feq mis (unmasked (Profile.getY p) p.m) (unmasked (Profile.getY q) q.m))
  (both (unitEq inc p.ux q.ux) (unitEq inc p.uy q.uy))))

end IMT.Same
