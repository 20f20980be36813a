import Verif.Same.Model
import Verif.Cps.Model

/-!
Model of the equality test `==` of `CritPoints` (`/repo/IMTreatment/vortex_detection/vortex_detection.py`, "vd.py") and of oriented points.
The parameters `mis` and `inc` are those of `Verif/Same/Model.lean`.  The compared objects are distinct.
-/

namespace IMT.Same

open Cp (Kind kinds)
open Cps (CP Trajs)
open Points (P)

/-- `np.all` of the outcomes of element by element comparisons, all of them being made first, vd.py:505-510. -/
def allR : List (Res Bool) → Res Bool
  | [] => .ok true
  | a :: l => match a with
    | .error e => .error e
    | .ok b => match allR l with
      | .error e => .error e
      | .ok c => .ok (b && c)

/-- `np.all(a == b)` for arrays of objects, with broadcasting, vd.py:505-510. -/
def all1R {α : Type} (op : α → α → Res Bool) (mis : Res Bool) (a b : List α) : Res Bool :=
  if a.length = b.length then allR ((a.zip b).map fun q => op q.1 q.2)
  else match a, b with
    | [x], b => allR (b.map fun y => op x y)
    | a, [y] => allR (a.map fun x => op x y)
    | _, _ => mis

/-- Comparison of python lists: the lengths, then the elements up to the first difference, vd.py:508-510. -/
def listR {α : Type} (op : α → α → Res Bool) : List α → List α → Res Bool
  | [], [] => .ok true
  | a :: l, b :: k => if l.length = k.length then both (op a b) (listR op l k) else .ok false
  | _, _ => .ok false

/-- `np.all(obj.foc_traj == self.foc_traj)`, vd.py:508-510: each is `None`, a list or an array.  No trajectory is equal to `None`. -/
def trajR (op : P → P → Res Bool) (mis : Res Bool) : Option Trajs → Option Trajs → Res Bool
  | none, none => .ok true
  | none, some t => .ok (t.nd && decide (t.sets = []))
  | some t, none => .ok (t.nd && decide (t.sets = []))
  | some s, some t => if s.nd || t.nd then all1R op mis s.sets t.sets else listR op s.sets t.sets

/-- The tests on one kind of points, vd.py:504-511. -/
def kindR (mis inc : Res Bool) (a b : CP) (k : Kind) : Res Bool :=
  both (all1R (eqP mis inc) mis (b.pts k) (a.pts k)) (trajR (eqP mis inc) mis (b.traj k) (a.traj k))

/-- The loop on the kinds, vd.py:504-511. -/
def kindsR (mis inc : Res Bool) (a b : CP) : List Kind → Res Bool
  | [] => .ok true
  | k :: ks => both (kindR mis inc a b k) (kindsR mis inc a b ks)

/-- `a == b`, vd.py:501-519.  The colors and the names of the kinds are those of the class. -/
def eqC (mis inc : Res Bool) (a b : CP) : Res Bool :=
  both (kindsR mis inc a b kinds) <| both (unitEq inc b.ut a.ut) <| both (unitEq inc b.ux a.ux) <| both (unitEq inc b.uy a.uy) <|
    all1 (fun x y => decide (x = y)) mis b.times a.times

/-- `==` of oriented points: the class inherits the test of `Points`, core/points.py:147-160, core/orientedpoints.py:30. -/
def eqO {O : Type} (mis inc : Res Bool) (p q : Points.OP O) : Res Bool := eqP mis inc p.pts q.pts

/-! ### Specification -/

/-- Two arrays of sizes that numpy does not stretch: of the same length, or none of them with a single element. -/
def Plain {α : Type} (a b : List α) : Prop := a.length = b.length ∨ (a.length ≠ 1 ∧ b.length ≠ 1)

/-- Two sets of points that numpy does not stretch, the first one without NaN. -/
def PlainSets (p q : P) : Prop := Plain p.xy q.xy ∧ Plain p.v q.v ∧ (∀ a ∈ p.xy, a.1 ≠ none ∧ a.2 ≠ none) ∧ none ∉ p.v

/-- The trajectories, those not computed being distinguished from none. -/
def trajSets (t : Option Trajs) : Option (List P) := t.map Trajs.sets

end IMT.Same
