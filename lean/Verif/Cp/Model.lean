import Verif.Units
import Mathlib.Data.List.Sort
import Mathlib.Data.List.InsertIdx

/-!
Model of the class `CritPoints` of `/repo/IMTreatment/vortex_detection/vortex_detection.py` ("vd.py"): construction,
`add_point`, `remove_point`, `crop`, addition.

Simplifications: a set of points (`Points`) is its units and its list of coordinates; units are compared as symbolic
units; type errors of the arguments are not represented; trajectories are opaque values of a type `Tr`.
-/

namespace IMT.Cp

/-- The five kinds of critical points, vd.py:464. -/
inductive Kind where
  | foc
  | focC
  | nodeI
  | nodeO
  | sadd
  deriving DecidableEq, Repr

/-- `cp_types`, and the order of `iter`, vd.py:464 and 573-580. -/
def kinds : List Kind := [.foc, .focC, .nodeI, .nodeO, .sadd]

/-- A `Points` object. -/
structure Pts where
  ux : Sym
  uy : Sym
  xy : List (Rat × Rat)
  deriving DecidableEq, Repr

/-- A `CritPoints` object, vd.py:448-465: per kind an array of point sets, one per time, and the trajectories. -/
structure CP (Tr : Type) where
  pts : Kind → List Pts
  times : List Rat
  ut : Sym
  ux : Sym
  uy : Sym
  traj : Kind → Option (List Tr)
  eps : Option Rat

variable {Tr : Type}

/-- `CritPoints(unit_time)`, vd.py:448-465. -/
def new (ut : Sym) : CP Tr := ⟨fun _ => [], [], ut, .one, .one, fun _ => none, none⟩

/-- `np.argsort(self.times)`, vd.py:1576.  numpy sorts without guarantee on ties; ties are kept in order here. -/
def argsort (t : List Rat) : List Nat :=
  (List.range t.length).insertionSort fun i j => (t[i]?).getD 0 ≤ (t[j]?).getD 0

/-- `arr[ind]`, fancy indexing. -/
def take {α : Type} (l : List α) (ind : List Nat) : List α := ind.filterMap fun i => l[i]?

/-- `_sort_by_time`, vd.py:1572-1579. -/
def sortByTime (c : CP Tr) : CP Tr :=
  { c with pts := fun k => take (c.pts k) (argsort c.times), times := take c.times (argsort c.times) }

/-- `_remove_trajectories`, vd.py:1553-1560: `iter_traj` builds a new list at each access, so the assignments in the
loop have no effect on the object. -/
def removeTrajectories (c : CP Tr) : CP Tr := { c with eps := none }

/-- vd.py:1139-1144: on an empty collection the units are those of the first given point set. -/
def firstUnits (c : CP Tr) (given : Kind → Option Pts) : CP Tr :=
  if c.times = [] then
    match (kinds.filterMap given).head? with
    | some p => { c with ux := p.ux, uy := p.uy }
    | none => c
  else c

/-- vd.py:1146-1149: the point sets that are not given are empty. -/
def complete (c : CP Tr) (given : Kind → Option Pts) (k : Kind) : Pts := (given k).getD ⟨c.ux, c.uy, []⟩

/-- The append of vd.py:1157-1162. -/
def append (c : CP Tr) (p : Kind → Pts) (t : Rat) : CP Tr :=
  { c with pts := fun k => c.pts k ++ [p k], times := c.times ++ [t] }

/-- `add_point`, vd.py:1118-1167.  The object is changed in place: the new state is returned also in case of error. -/
def addPoint (c : CP Tr) (given : Kind → Option Pts) (t : Rat) : CP Tr × Res PUnit :=
  if t ∈ c.times then (c, .error .valueError)
  else if ∃ k ∈ kinds, (complete (firstUnits c given) given k).ux ≠ (firstUnits c given).ux ∨
      (complete (firstUnits c given) given k).uy ≠ (firstUnits c given).uy then
    (firstUnits c given, .error .valueError)
  else
    (removeTrajectories (sortByTime (append (firstUnits c given) (complete (firstUnits c given) given) t)), .ok ⟨⟩)

/-- `np.delete(arr, i)` for `i ≥ 0`; the caller handles indices that are too large. -/
def delete {α : Type} (l : List α) (i : Nat) : List α := l.eraseIdx i

/-- `remove_point(indice=i)`, vd.py:1190-1198, for `i ≥ 0`. -/
def removeIdx (c : CP Tr) (i : Nat) : CP Tr × Res PUnit :=
  if i < c.times.length then
    (removeTrajectories { c with pts := fun k => delete (c.pts k) i, times := delete c.times i }, .ok ⟨⟩)
  else (c, .error .indexError)

/-- `remove_point(time=t)`, vd.py:1187-1189 and `_get_indice_from_time`, vd.py:1581-1593. -/
def removeTime (c : CP Tr) (t : Rat) : CP Tr × Res PUnit :=
  match c.times.findIdx? (· = t) with
  | none => (c, .error .valueError)
  | some i => removeIdx c i

/-- Keeps the point sets in the boxes, `Points.crop`, points.py:985-1035 (closed intervals). -/
def cropPts (ix iy : Rat × Rat) (p : Pts) : Pts :=
  { p with xy := p.xy.filter fun q => ix.1 ≤ q.1 ∧ q.1 ≤ ix.2 ∧ iy.1 ≤ q.2 ∧ q.2 ≤ iy.2 }

/-- `crop(intervx, intervy)` (in place, or the copy that is returned), vd.py:1341-1348. -/
def cropSpace (c : CP Tr) (ix iy : Rat × Rat) : CP Tr :=
  removeTrajectories { c with pts := fun k => (c.pts k).map (cropPts ix iy) }

/-- The concatenation of vd.py:479-490. -/
def concat (a b : CP Tr) : CP Tr :=
  { pts := fun k => a.pts k ++ b.pts k, times := a.times ++ b.times, ut := a.ut, ux := a.ux, uy := a.uy,
    traj := fun _ => none, eps := none }

/-- vd.py:493-495: two equal neighbours. -/
def hasDouble (t : List Rat) : Bool := (t.zip t.tail).any fun p => p.1 = p.2

/-- `__add__`, vd.py:469-499. -/
def add (a b : CP Tr) : Res (CP Tr) :=
  if b.times = [] then .ok a
  else if a.times = [] then .ok b
  else if a.ut ≠ b.ut then .error .valueError
  else if a.ux ≠ b.ux then .error .valueError
  else if a.uy ≠ b.uy then .error .valueError
  else if hasDouble (sortByTime (concat a b)).times then .error .valueError
  else .ok (sortByTime (concat a b))

/-- The accumulation of the per-field results, vd.py:2783-2784 (one thread) and 2794-2795 (`np.sum`). -/
def sumAll (a : CP Tr) : List (CP Tr) → Res (CP Tr)
  | [] => .ok a
  | b :: l =>
    match add a b with
    | .ok c => sumAll c l
    | .error e => .error e

/-- `compute_traj`, vd.py:596-671, for one kind: recomputed from the point sets whatever was there; `f` is the linking
of the points (`Verif.Traj`). -/
def computeTraj (f : Rat → List Rat → List Pts → List Tr) (c : CP Tr) (eps : Rat) : CP Tr :=
  { c with traj := fun k => some (f eps c.times (c.pts k)), eps := some eps }

/-! ### Specification -/

/-- The collection stores the point set `p` of kind `k` for the time `t`. -/
def At (c : CP Tr) (t : Rat) (k : Kind) (p : Pts) : Prop := ∃ i : Nat, c.times[i]? = some t ∧ (c.pts k)[i]? = some p

/-- One entry of each kind per time, times strictly increasing. -/
def Valid (c : CP Tr) : Prop := (∀ k, (c.pts k).length = c.times.length) ∧ c.times.Pairwise (· < ·)

/-- The operations of a history. -/
inductive Op where
  | addPoint (given : Kind → Option Pts) (t : Rat)
  | removeTime (t : Rat)
  | removeIdx (i : Nat)
  | cropSpace (ix iy : Rat × Rat)

def Op.run : Op → CP Tr → CP Tr × Res PUnit
  | .addPoint g t, c => Cp.addPoint c g t
  | .removeTime t, c => Cp.removeTime c t
  | .removeIdx i, c => Cp.removeIdx c i
  | .cropSpace ix iy, c => (Cp.cropSpace c ix iy, .ok ⟨⟩)

/-- The state after a history, errors being caught by the caller. -/
def after (c : CP Tr) (h : List Op) : CP Tr := h.foldl (fun s o => (o.run s).1) c

end IMT.Cp
