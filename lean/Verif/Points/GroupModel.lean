import Verif.Points.Model

/-!
Model of `Points.get_clusters`, of `Points.change_unit` and of the array shared by a set of points and its maker
(`/repo/IMTreatment/core/points.py`).
-/

namespace IMT.Points

/-! ### Clusters -/

/-- `l[labels == lab]`, points.py:560-563. -/
def withLabel {α : Type} (l : List α) (labels : List Int) (lab : Int) : List α :=
  ((l.zip labels).filter fun q => decide (q.2 = lab)).map Prod.fst

/-- The set made for one label, points.py:559-566. -/
def oneCluster (p : P) (labels : List Int) (lab : Int) : Res P :=
  new (withLabel p.xy labels lab) (if p.v.length = p.xy.length then withLabel p.v labels lab else p.v) p.ux p.uy p.uv

/-- `get_clusters(eps, min_samples)`, points.py:534-568.  `labels` is `db.labels_`, what scikit-learn's DBSCAN found
(described by `IsDbscan`); `uniq` is `list(set(labels))`, the labels once each, in whatever order python lists a set.  The
label -1 (noise) is treated like the others: `nmb_cluster`, points.py:554-556, is not used. -/
def clusters (p : P) (labels uniq : List Int) : Res (List P) := uniq.mapM (oneCluster p labels)

/-! ### Units -/

/-- The argument `axe` of `change_unit`. -/
inductive Axe where
  | x | y | v
  deriving DecidableEq

/-- A set of points with the kind of its values: `np.array(values)` keeps integers, points.py:187-197. -/
structure Kinded where
  p : P
  vInt : Bool
  deriving DecidableEq

/-- `change_unit(axe, new_unit)`, points.py:924-962, for a unit of size different from zero: the state of the object and
the outcome.  `self.v *= fact` raises TypeError when the values are integers and the factor is not (the factor between units
of different sizes is a float).  A set without values has an array of floats. -/
def changeUnit (q : Kinded) (axe : Axe) (u : Sym) : Kinded × Res PUnit :=
  match axe with
  | .x =>
    if q.p.ux.Compat u then
      ({ q with p := { q.p with xy := q.p.xy.map fun c => (c.1.map (· * fact q.p.ux u), c.2), ux := u } }, .ok ⟨⟩)
    else (q, .error .valueError)
  | .y =>
    if q.p.uy.Compat u then
      ({ q with p := { q.p with xy := q.p.xy.map fun c => (c.1, c.2.map (· * fact q.p.uy u)), uy := u } }, .ok ⟨⟩)
    else (q, .error .valueError)
  | .v =>
    if q.p.uv.Compat u then
      if q.vInt = true ∧ q.p.v ≠ [] ∧ q.p.uv.size ≠ u.size then (q, .error .typeError)
      else ({ q with p := { q.p with v := q.p.v.map (Option.map (· * fact q.p.uv u)), uv := u } }, .ok ⟨⟩)
    else (q, .error .valueError)

/-! ### The array behind a set of points -/

/-- What is done to a set of points, with in-place operations and operations that make a new array. -/
inductive Act where
  /-- `set_origin(x, y)`, points.py:964-983: `self.xy[:, 0] -= x`. -/
  | origin (x y : Option Rat)
  /-- `scale(scalex, scaley, inplace=True)`, points.py:1068-1119: `tmp_pt.xy *= [scalex, scaley]`. -/
  | scale (sx sy : Rat)
  /-- `change_unit('x', u)`, points.py:945-950: `self.xy[:, 0] *= fact`. -/
  | unitX (u : Sym)
  /-- `add(pt)`, points.py:872-899: `np.append` makes a new array. -/
  | add (pt : F × F)
  /-- `crop(intervx, intervy)`, points.py:985-1035: indexing with a mask makes a new array. -/
  | crop (ix iy : Option (Rat × Rat))

/-- A set of points made from an array of floats of the caller, `Points(arr)`: `np.asarray` (points.py:167-177) does not
copy it.  `own` is the array of the set once it is no longer the caller's. -/
structure Shared where
  arr : List (F × F)
  own : Option (List (F × F))
  ux : Sym

/-- `Points(arr, unit_x=u)`, points.py:37-66. -/
def made (arr : List (F × F)) (u : Sym) : Shared := ⟨arr, none, u⟩

/-- The positions of the set. -/
def Shared.xy (s : Shared) : List (F × F) :=
  match s.own with
  | none => s.arr
  | some l => l

/-- Writing in the array of the set. -/
def Shared.write (s : Shared) (f : F × F → F × F) : Shared :=
  match s.own with
  | none => { s with arr := s.arr.map f }
  | some l => { s with own := some (l.map f) }

/-- One operation on the set. -/
def Act.run (a : Act) (s : Shared) : Shared :=
  match a with
  | .origin x y => s.write fun c => (c.1.map (· - x.getD 0), c.2.map (· - y.getD 0))
  | .scale sx sy => s.write fun c => (c.1.map (· * sx), c.2.map (· * sy))
  | .unitX u => if s.ux.Compat u then { s.write (fun c => (c.1.map (· * fact s.ux u), c.2)) with ux := u } else s
  | .add pt => { s with own := some (s.xy ++ [pt]) }
  | .crop ix iy => { s with own := some (sel s.xy (s.xy.map fun c => out ix c.1 || out iy c.2)) }

/-! ### Specification -/

/-- The square of the distance between two positions. -/
def dist2 (a b : Rat × Rat) : Rat := (a.1 - b.1) ^ 2 + (a.2 - b.2) ^ 2

/-- Point `j` is in the neighbourhood of point `i`. -/
def Close (l : List (Rat × Rat)) (eps : Rat) (i j : Nat) : Prop :=
  ∃ a b, l[i]? = some a ∧ l[j]? = some b ∧ dist2 a b ≤ eps ^ 2

open Classical in
/-- Point `i` has at least `m` points in its neighbourhood (itself included): a core point of DBSCAN. -/
def Core (l : List (Rat × Rat)) (eps : Rat) (m : Nat) (i : Nat) : Prop :=
  m ≤ ((List.range l.length).filter fun j => decide (Close l eps i j)).length ∧ i < l.length

/-- What DBSCAN finds: one label per point; `-1` for the points with no core point close to them; any other point has the
label of a core point close to it; core points close to each other have the same label. -/
structure IsDbscan (l : List (Rat × Rat)) (eps : Rat) (m : Nat) (labels : List Int) : Prop where
  length : labels.length = l.length
  noise : ∀ i < l.length, labels[i]? = some (-1) ↔ ∀ j, Core l eps m j → ¬ Close l eps j i
  border : ∀ i < l.length, labels[i]? ≠ some (-1) → ∃ j, Core l eps m j ∧ Close l eps j i ∧ labels[j]? = labels[i]?
  core : ∀ i j, Core l eps m i → Core l eps m j → Close l eps i j → labels[i]? = labels[j]?

/-- The distinct labels, in some order. -/
def Listing (labels uniq : List Int) : Prop := uniq.Nodup ∧ ∀ k, k ∈ uniq ↔ k ∈ labels

end IMT.Points
