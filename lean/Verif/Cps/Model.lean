import Verif.Cp.Model
import Verif.Points.Model

/-!
Model of the operations of `CritPoints` on the points and trajectories it holds
(`/repo/IMTreatment/vortex_detection/vortex_detection.py`, "vd.py"): `crop` in time, `clean_traj`, `set_origin`, `change_unit`, `scale`,
`topo_simplify` and `break_trajectories`.

The sets of points and the trajectories are `Points` objects (`Verif/Points/Model.lean`).  What an exception leaves behind is represented for
`set_origin` and `change_unit` only.
-/

namespace IMT.Cps

open Cp (Kind kinds)
open Points (P F)

/-- The trajectories of one kind, vd.py:1775-1793: a numpy array (`nd`) when there are at least two of them, a python list otherwise. -/
structure Trajs where
  nd : Bool
  sets : List P
  deriving DecidableEq

/-- A `CritPoints` object, vd.py:448-467. -/
structure CP where
  pts : Kind → List P
  times : List Rat
  ut : Sym
  ux : Sym
  uy : Sym
  traj : Kind → Option Trajs
  eps : Option Rat

/-! ### cropping in time -/

/-- The arguments `intervt` and `ind` of `crop`, vd.py:1313; indices are not negative. -/
inductive Win where
  | times (a b : Rat)
  | inds (i j : Nat)

/-- `filt`, vd.py:1325-1330. -/
def filt (w : Win) (ts : List Rat) : List Bool :=
  match w with
  | .times a b => ts.map fun t => decide (a ≤ t) && decide (t ≤ b)
  | .inds i j => (List.range ts.length).map fun k => decide (i ≤ k) && decide (k < j)

/-- `l[filt]`. -/
def pick {α : Type} (l : List α) (m : List Bool) : List α := ((l.zip m).filter fun q => q.2).map Prod.fst

/-- `traj.crop(intervv=intervt, ind=ind, inplace=True)`, vd.py:1337-1339. -/
def cropOne (w : Win) (p : P) : P :=
  match w with
  | .times a b => (Points.crop p none none (some (a, b))).1
  | .inds i j => (Points.cropInd p i j).1

/-- The entries of the object, vd.py:1331-1336. -/
def cropEntries (w : Win) (c : CP) : CP :=
  { c with times := pick c.times (filt w c.times), pts := fun k => pick (c.pts k) (filt w c.times) }

/-- The loop on the trajectories of the object, vd.py:1337-1339: `None` is not iterable. -/
def cropTraj (w : Win) (c : CP) : Res CP :=
  if ∃ k ∈ kinds, c.traj k = none then .error .typeError
  else .ok { c with traj := fun k => (c.traj k).map fun t => { t with sets := t.sets.map (cropOne w) } }

/-- `_remove_void_trajectories`, vd.py:1562-1570: a python list cannot be indexed by an array. -/
def removeVoid (c : CP) : Res CP :=
  if ∃ k ∈ kinds, ∀ t ∈ c.traj k, t.nd = false then .error .typeError
  else .ok { c with traj := fun k => (c.traj k).map fun t => { t with sets := t.sets.filter fun p => decide (p.xy.length ≠ 0) } }

/-- `crop(intervt=..., inplace=True)`, vd.py:1313-1351. -/
def cropTime (w : Win) (c : CP) : Res CP :=
  match cropTraj w (cropEntries w c) with
  | .error e => .error e
  | .ok c => removeVoid c

/-- `crop(intervt=..., inplace=False)`, vd.py:1313-1351: the object afterwards, and the result.  The loop on the trajectories and the removal of
the empty ones run on `self`. -/
def cropTimeCopy (w : Win) (c : CP) : Res (CP × CP) :=
  match cropTraj w c with
  | .error e => .error e
  | .ok d => match removeVoid d with
    | .error e => .error e
    | .ok d => .ok (d, cropEntries w c)

/-! ### removing short trajectories -/

/-- The trajectories kept, vd.py:1396-1403: `np.delete` gives an array. -/
def keepLong (n : Nat) (t : Trajs) : Trajs :=
  { nd := t.nd || t.sets.any fun p => decide (p.xy.length < n), sets := t.sets.filter fun p => !decide (p.xy.length < n) }

/-- The sum of the trajectories, vd.py:1601-1604.  The conversion of the second operand in place (`C27_operand_violated`) is not represented: it
changes nothing when the units are the same. -/
def total (p : P) : List P → Res P
  | [] => .ok p
  | q :: qs => match (Points.plus p q).2 with
    | .error e => .error e
    | .ok r => total r qs

/-- The points of the sum at a time, vd.py:1608-1612. -/
def atTime (tot : P) (t : Rat) : P :=
  { tot with xy := ((tot.xy.zip tot.v).filter fun q => decide (q.2 = some t)).map Prod.fst, v := tot.v.filter fun w => decide (w = some t) }

/-- The new points of one kind, vd.py:1600-1612: the assignment to `self.iter[i]` is lost, those to `self.iter[i][j]` are not. -/
def ptsOf (c : CP) (t : Trajs) : Res (List P) :=
  match total ⟨[], [], c.ux, c.uy, c.ut⟩ t.sets with
  | .error e => .error e
  | .ok tot => .ok (c.times.map (atTime tot))

/-- `_traj_to_pts` for the kinds given, vd.py:1595-1612. -/
def trajToPts (c : CP) : List Kind → Res CP
  | [] => .ok c
  | k :: ks => match c.traj k with
    | none => .error .typeError
    | some t => match ptsOf c t with
      | .error e => .error e
      | .ok l => trajToPts { c with pts := fun k' => if k' = k then l else c.pts k' } ks

/-- `clean_traj(min_nmb_in_traj)`, vd.py:1381-1405. -/
def cleanTraj (n : Nat) (c : CP) : Res CP :=
  if c.eps = none then .error .exception
  else if ∃ k ∈ kinds, c.traj k = none then .error .typeError
  else trajToPts { c with traj := fun k => (c.traj k).map (keepLong n) } kinds

/-! ### origin -/

/-- The kinds whose trajectories are reached by a loop on all of them: it stops at the first kind without trajectories. -/
def reached (c : CP) : List Kind := kinds.takeWhile fun k => (c.traj k).isSome

/-- `set_origin(x, y)`, vd.py:1200-1208: the object afterwards, and the outcome. -/
def setOrigin (c : CP) (x y : Option Rat) : CP × Res PUnit :=
  if x = none ∧ y = none then (c, .ok ⟨⟩)
  else ({ c with pts := fun k => (c.pts k).map fun p => Points.setOrigin p x y
                 traj := fun k => if k ∈ reached c then (c.traj k).map fun t => { t with sets := t.sets.map fun p => Points.setOrigin p x y }
                   else c.traj k },
    if ∃ k ∈ kinds, c.traj k = none then .error .typeError else .ok ⟨⟩)

/-! ### units -/

/-- The argument `axe` of `change_unit`, vd.py:1210-1254. -/
inductive Axe where
  | x | y | time | other
  deriving DecidableEq

/-- The factor `old_unit.asUnit(new_unit).asNumber()`, for units of the same dimension. -/
def fact (old new : Sym) : Rat := old.size / new.size

/-- `Points.change_unit`, points.py:924-962, for a unit of the right dimension. -/
def toUnit (a : Axe) (new : Sym) (p : P) : P :=
  match a with
  | .x => { p with xy := p.xy.map fun c => (c.1.map (· * fact p.ux new), c.2), ux := new }
  | .y => { p with xy := p.xy.map fun c => (c.1, c.2.map (· * fact p.uy new)), uy := new }
  | .time => { p with v := p.v.map (Option.map (· * fact p.uv new)), uv := new }
  | .other => p

/-- The unit of a set of points that the change is about. -/
def unitOf (a : Axe) (p : P) : Sym :=
  match a with
  | .x => p.ux
  | .y => p.uy
  | .time => p.uv
  | .other => .one

/-- `change_unit(axe, new_unit)`, vd.py:1210-1254: the object afterwards, and the outcome.  For `'time'` the trajectories must be there
(1244-1246).  A new unit of another dimension than that of a set of points is refused, the object being given as it was. -/
def changeUnit (c : CP) (a : Axe) (new : Sym) : CP × Res PUnit :=
  if a = .other then (c, .error .valueError)
  else if (∃ k ∈ kinds, ∃ p ∈ c.pts k, ¬ (unitOf a p).Compat new) ∨ ∃ k ∈ kinds, ∃ t ∈ c.traj k, ∃ p ∈ t.sets, ¬ (unitOf a p).Compat new then
    (c, .error .valueError)
  else match a with
  | .x => ({ c with pts := fun k => (c.pts k).map (toUnit .x new), ux := new
                    traj := fun k => (c.traj k).map fun t => { t with sets := t.sets.map (toUnit .x new) } }, .ok ⟨⟩)
  | .y => ({ c with pts := fun k => (c.pts k).map (toUnit .y new), uy := new
                    traj := fun k => (c.traj k).map fun t => { t with sets := t.sets.map (toUnit .y new) } }, .ok ⟨⟩)
  | _ =>
    if ∃ k ∈ kinds, c.traj k = none then
      ({ c with pts := fun k => (c.pts k).map (toUnit .time new)
                traj := fun k => if k ∈ reached c then (c.traj k).map fun t => { t with sets := t.sets.map (toUnit .time new) }
                  else c.traj k }, .error .typeError)
    else if ¬ c.ut.Compat new then (c, .error .valueError)
    else ({ c with pts := fun k => (c.pts k).map (toUnit .time new)
                   traj := fun k => (c.traj k).map fun t => { t with sets := t.sets.map (toUnit .time new) }
                   times := c.times.map (· * fact c.ut new), ut := new }, .ok ⟨⟩)

/-! ### scaling -/

/-- `Points.scale`, points.py:1068-1119; a number is a quantity without unit. -/
def scaleP (sx sy sv : Unum) (p : P) : P :=
  { xy := p.xy.map fun c => (c.1.map (· * sx.num), c.2.map (· * sy.num)), v := p.v.map (Option.map (· * sv.num)),
    ux := p.ux.mul sx.sym, uy := p.uy.mul sy.sym, uv := p.uv.mul sv.sym }

/-- `scale(scalex, scaley, scalev)`, vd.py:1256-1311. -/
def scale (c : CP) (sx sy sv : Unum) : CP :=
  { c with times := c.times.map (· * sv.num), ut := c.ut.mul sv.sym, ux := c.ux.mul sx.sym, uy := c.uy.mul sy.sym
           pts := fun k => (c.pts k).map (scaleP sx sy sv)
           traj := fun k => (c.traj k).map fun t => { t with sets := t.sets.map (scaleP sx sy sv) } }

/-! ### simplification -/

/-- The numbers that python 3 takes for an instance of `int`: those of numpy are not. -/
inductive Idx where
  | int (i : Nat)
  | int64 (i : Nat)

/-- `np.arange(n)`, vd.py:1448. -/
def arange (n : Nat) : List Idx := (List.range n).map .int64

/-- The check of `TopoPoints.import_from_CP`, vd.py:2188-2189. -/
def accepted : Idx → Bool
  | .int _ => true
  | .int64 _ => false

/-- `topo_simplify`, vd.py:1426-1471, up to the import of each instant (1448-1450); `f` is the rest of the loop. -/
def topoSimplify (f : Idx → CP → Res CP) (c : CP) : Res CP :=
  (arange c.times.length).foldl (fun r i => match r with
    | .error e => .error e
    | .ok d => if accepted i then f i d else .error .typeError) (.ok ⟨fun _ => [], [], c.ut, .one, .one, fun _ => none, none⟩)

/-! ### breaking trajectories -/

/-- `w < b` with `b` infinite when it is absent, and NaN. -/
def outside (lo hi : Option Rat) : F → Bool
  | none => false
  | some w => (lo.any fun a => decide (w < a)) || (hi.any fun b => decide (b < w))

/-- `traj.crop(intervv=[lo, hi], inplace=False)`, vd.py:889-891, points.py:985-1035, for bounds that may be infinite. -/
def piece (p : P) (lo hi : Option Rat) : P :=
  { p with xy := Points.sel p.xy (p.v.map (outside lo hi)), v := Points.sel p.v (p.v.map (outside lo hi)) }

/-- The bounds of the pieces, vd.py:886-890. -/
def bounds (dv : Rat) : Option Rat → List Rat → List (Option Rat × Option Rat)
  | lo, [] => [(lo, none)]
  | lo, b :: bs => (lo, some (b + dv)) :: bounds dv (some b) bs

/-- `x_prof.x[1] - x_prof.x[0]`, vd.py:868: the two smallest times of the trajectory. -/
def step (p : P) : Rat :=
  match (p.v.filterMap id).mergeSort (fun a b => decide (a ≤ b)) with
  | a :: b :: _ => b - a
  | _ => 0

/-- `break_trajectories`, vd.py:841-897, for one trajectory; `brk` gives the times at which it is broken (869-880), by `get_value_position` or
`get_extrema_position`. -/
def breakOne (brk : P → List Rat) (p : P) : List P :=
  if p.xy.length ≤ 2 then [p]
  else (bounds (step p) none (brk p)).map fun i => piece p i.1 i.2

/-- `break_trajectories` for all of them, vd.py:857-895. -/
def breakAll (brk : P → List Rat) (c : CP) : Res CP :=
  if ∃ k ∈ kinds, c.traj k = none then .error .typeError
  else .ok { c with traj := fun k => (c.traj k).map fun t => ⟨false, t.sets.flatMap (breakOne brk)⟩ }

end IMT.Cps
