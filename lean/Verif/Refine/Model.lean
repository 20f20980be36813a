import Verif.Prelude
import Mathlib.Data.List.Sort

/-!
Model of three functions on critical points (`/repo/IMTreatment/vortex_detection/vortex_detection.py`, "vd.py"): the classes of
the detected points (`_get_cp_pbi_on_VF`), `CritPoints.refine_cp_position` and `MeanTrajectory.reconstruct_fields`.
-/

namespace IMT.Refine

/-- A position. -/
abbrev Pos := Rat × Rat

/-! ### The classes of the detected points -/

/-- The five classes of critical points. -/
inductive Cls where
  | sadd | focC | foc | nodeO | nodeI
  deriving DecidableEq

/-- The class of a number given by `get_cp_cell_position`, vd.py:2967-2982: any other number raises Exception. -/
def clsOf (t : Nat) : Res Cls :=
  if t = 0 then .ok .sadd else if t = 1 then .ok .focC else if t = 2 then .ok .foc else if t = 3 then .ok .nodeO
  else if t = 4 then .ok .nodeI else .error .exception

/-- The sets of points of each class, with their instants. -/
structure Sets where
  sadd : List (Pos × Rat)
  focC : List (Pos × Rat)
  foc : List (Pos × Rat)
  nodeO : List (Pos × Rat)
  nodeI : List (Pos × Rat)

/-- The set of a class. -/
def Sets.get (s : Sets) : Cls → List (Pos × Rat)
  | .sadd => s.sadd
  | .focC => s.focC
  | .foc => s.foc
  | .nodeO => s.nodeO
  | .nodeI => s.nodeI

/-- `x.add(pos[i], v=time)`, vd.py:2969-2980. -/
def Sets.add (s : Sets) (c : Cls) (q : Pos × Rat) : Sets :=
  match c with
  | .sadd => { s with sadd := s.sadd ++ [q] }
  | .focC => { s with focC := s.focC ++ [q] }
  | .foc => { s with foc := s.foc ++ [q] }
  | .nodeO => { s with nodeO := s.nodeO ++ [q] }
  | .nodeI => { s with nodeI := s.nodeI ++ [q] }

/-- The loop on the points, vd.py:2967-2982. -/
def sortAll (time : Rat) (s : Sets) : List (Pos × Nat) → Res Sets
  | [] => .ok s
  | q :: l =>
    match clsOf q.2 with
    | .ok c => sortAll time (s.add c (q.1, time)) l
    | .error e => .error e

/-- `_get_cp_pbi_on_VF`, vd.py:2910-2987, from the positions and types of `get_cp_position`; the directions of the saddles are
left out. -/
def classify (time : Rat) (l : List (Pos × Nat)) : Res Sets := sortAll time ⟨[], [], [], [], []⟩ l

/-! ### Putting the points on the extrema of a field -/

/-- A scalar field, as far as `get_nearest_extrema` is concerned: whether a position is within the axes, and where the
streamline of the gradient from a position ends. -/
structure Fld where
  inside : Pos → Bool
  climb : Pos → Pos

/-- `get_nearest_extrema(pts)`, core/scalarfield.py:740-792 with `get_streamlines`,
field_treatment/field_treatment.py:893-945: a starting point out of the axes has no streamline and is skipped, and a streamline
holds its start at least. -/
def nearestExtrema (f : Fld) (pts : List Pos) : List Pos := (pts.filter f.inside).map f.climb

/-- The critical points of one class at one instant: positions and values. -/
structure Frame where
  xy : List Pos
  v : List Rat
  deriving DecidableEq

/-- `new_pt.xy = ...`, vd.py:1524-1526, with the setter of core/points.py:166-177: the values are dropped when the number of
points changes. -/
def setXY (p : Frame) (l : List Pos) : Frame := ⟨l, if l.length ≠ p.v.length then [] else p.v⟩

/-- `fields[fields.times == t][0]`, vd.py:1523. -/
def fieldAt (fields : List (Rat × Fld)) (t : Rat) : Option Fld := (fields.find? fun q => decide (q.1 = t)).map Prod.snd

/-- One turn of the loop, vd.py:1515-1527. -/
def refineFrame (fields : List (Rat × Fld)) (t : Rat) (p : Frame) : Res Frame :=
  if p.xy.length = 0 then .ok p
  else match fieldAt fields t with
    | some f => .ok (setXY p (nearestExtrema f p.xy))
    | none => .error .indexError

/-- The loop on the instants, vd.py:1515-1527. -/
def refineAll (fields : List (Rat × Fld)) : List (Rat × Frame) → Res (List Frame)
  | [] => .ok []
  | q :: l =>
    match refineFrame fields q.1 q.2, refineAll fields l with
    | .ok p, .ok r => .ok (p :: r)
    | .error e, _ => .error e
    | _, .error e => .error e

/-- A `CritPoints` object: the instants, the frames of each class and whether it has trajectories. -/
structure Cp where
  times : List Rat
  get : Cls → List Frame
  traj : Bool

/-- The end of `refine_cp_position`, vd.py:1529-1548. -/
def store (c : Cp) (k : Cls) (r : List Frame) : Cp := ⟨c.times, fun k' => if k' = k then r else c.get k', false⟩

/-- `refine_cp_position(cp_type, fields, inplace)`, vd.py:1473-1551: the object afterwards, and the copy that is returned when
`inplace` is false.  The comparison of the instants is that of two arrays of the same length. -/
def refine (c : Cp) (k : Cls) (fields : List (Rat × Fld)) (inplace : Bool) : Res (Cp × Option Cp) :=
  if c.times ≠ fields.map Prod.fst then .error .valueError
  else match refineAll fields (c.times.zip (c.get k)) with
    | .ok r => if inplace then .ok (store c k r, none) else .ok (c, some (store c k r))
    | .error e => .error e

/-! ### Averaging the fields along a mean trajectory -/

/-- A field: `none` for a masked value. -/
abbrev Vals := Nat → Nat → Option Rat

/-- `tmp_field += field`, core/scalarfield.py:99-150: masked where one of the two is. -/
def addV (a b : Vals) : Vals := fun i j =>
  match a i j, b i j with
  | some x, some y => some (x + y)
  | _, _ => none

/-- `tmp_field /= n`. -/
def divV (a : Vals) (n : Nat) : Vals := fun i j => (a i j).map (· / (n : Rat))

/-- `np.where(TF.times == real_t)[0][0]` and the field at that index, vd.py:2603-2605. -/
def pick (rec : List (Rat × Vals)) (t : Rat) : Res Vals :=
  match rec.find? fun q => decide (q.1 = t) with
  | some q => .ok q.2
  | none => .error .indexError

/-- The fields of several instants. -/
def pickAll (rec : List (Rat × Vals)) : List Rat → Res (List Vals)
  | [] => .ok []
  | t :: ts =>
    match pick rec t, pickAll rec ts with
    | .ok f, .ok l => .ok (f :: l)
    | .error e, _ => .error e
    | _, .error e => .error e

/-- The conditional average of one instant of the mean trajectory, vd.py:2601-2609. -/
def averageOf (l : List Vals) : Res Vals :=
  match l with
  | [] => .error .indexError
  | f :: l => .ok (divV (l.foldl addV f) (l.length + 1))

/-- One turn of the loop, vd.py:2600-2611. -/
def turn (rec : List (Rat × Vals)) (q : Rat × List Rat) : Res (Rat × Vals) :=
  match pickAll rec q.2 with
  | .ok l => match averageOf l with
    | .ok f => .ok (q.1, f)
    | .error e => .error e
  | .error e => .error e

/-- The loop of `reconstruct_fields`, vd.py:2599-2611. -/
def turns (rec : List (Rat × Vals)) : List (Rat × List Rat) → Res (List (Rat × Vals))
  | [] => .ok []
  | q :: l =>
    match turn rec q, turns rec l with
    | .ok p, .ok r => .ok (p :: r)
    | .error e, _ => .error e
    | _, .error e => .error e

/-- `reconstruct_fields(TF)`, vd.py:2590-2613: the mean instants with their associated real instants, and the record.
`add_field` keeps the result in the order of the instants (core/temporalfields.py:1142).  The fields of the record have the same
axes. -/
def reconstruct (rec : List (Rat × Vals)) (l : List (Rat × List Rat)) : Res (List (Rat × Vals)) :=
  match turns rec l with
  | .ok r => .ok (r.insertionSort fun a b => a.1 ≤ b.1)
  | .error e => .error e

end IMT.Refine
