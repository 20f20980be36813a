import Verif.Fill.Model
import Verif.Scalar.Border

/-! What is assumed of `scipy`, and the words of the properties on filling. -/

namespace IMT.Fill

/-- Square of the distance. -/
def dist2 (x y x' y' : Rat) : Rat := (x' - x) * (x' - x) + (y' - y) * (y' - y)

/-- The point `(x, y)` is the barycentre of the nodes with the weights `w`, which are not negative. -/
structure Bary (w : Node → Rat) (ns : List Node) (x y : Rat) : Prop where
  pos : ∀ n ∈ ns, 0 ≤ w n
  one : (ns.map w).sum = 1
  x : (ns.map fun n => w n * n.x).sum = x
  y : (ns.map fun n => w n * n.y).sum = y

/-- What is assumed of the interpolators: the nearest one chooses one of the nearest points; the linear one gives at each point of the convex hull of
the nodes the barycentre of some values with weights of which the point is the barycentre, and NaN elsewhere. -/
structure Scipy.Ok (s : Scipy) : Prop where
  near_lt : ∀ ps : List (Rat × Rat), ps ≠ [] → ∀ x y, s.near ps x y < ps.length
  near_min : ∀ (ps : List (Rat × Rat)) (x y : Rat) p, ps[s.near ps x y]? = some p → ∀ q ∈ ps, dist2 x y p.1 p.2 ≤ dist2 x y q.1 q.2
  lin_some : ∀ ns x y v, ¬ Flat ns → s.lin ns x y = some v → ∃ w, Bary w ns x y ∧ v = (ns.map fun n => w n * n.v).sum
  lin_none : ∀ ns x y, ¬ Flat ns → s.lin ns x y = none → ¬ ∃ w, Bary w ns x y

/-- The field `g` shows what `f` shows where it shows something, and something everywhere. -/
structure Fills (f g : SF) : Prop where
  wf : g.WF
  ax : g.ax = f.ax
  ay : g.ay = f.ay
  keep : ∀ x y v, f.Reads x y (some v) → g.Reads x y (some v)
  all : ∀ x y, ¬ g.Reads x y none
  ux : g.ux = f.ux
  uy : g.uy = f.uy
  uv : g.uv = f.uv

/-- `(x', y')` is a visible point of `f` at the smallest distance of `(x, y)`, with the value `v`. -/
def Nearest (f : SF) (x y x' y' v : Rat) : Prop :=
  f.Reads x' y' (some v) ∧ ∀ x'' y'' v', f.Reads x'' y'' (some v') → dist2 x y x' y' ≤ dist2 x y x'' y''

/-- `(x, y)` is between two visible points of its line or of its column. -/
def Between (f : SF) (x y : Rat) : Prop :=
  (∃ a b u v, a < x ∧ x < b ∧ f.Reads a y (some u) ∧ f.Reads b y (some v)) ∨
    ∃ a b u v, a < y ∧ y < b ∧ f.Reads x a (some u) ∧ f.Reads x b (some v)

/-- The visible points next to masked points, used by the interpolation with `reduce_tri`, are not all on one line. -/
def Enough (f : SF) (red : Bool) : Prop := ¬ Flat (nodes f red)

end IMT.Fill
