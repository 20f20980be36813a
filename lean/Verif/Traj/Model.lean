import Verif.Prelude

/-!
Model of the trajectory computation, `CritPoints.compute_traj` and `CritPoints._get_cp_time_evolution`
(`/repo/IMTreatment/vortex_detection/vortex_detection.py`, below "vd.py").
-/

namespace IMT.Traj

/-- The local class `Point` (vd.py:1833-1846): a position and a time. -/
structure Pt where
  x : Rat
  y : Rat
  t : Rat
  deriving DecidableEq, Repr

/-- `Point.dist2`, vd.py:1845-1846. -/
def Pt.dist2 (p q : Pt) : Rat := (p.x - q.x) ^ 2 + (p.y - q.y) ^ 2

/-- The local class `Line` (vd.py:1805-1831): the points in the order they were added. -/
abbrev Line := List Pt

/-- A distance matrix; `none` is `np.inf`. -/
abbrev Mat := Nat → Nat → Option Rat

/-- `dist2_mat`, vd.py:1717-1724: squared distance between new point `i` and the last point of line `j`. -/
def distMat (new : List Pt) (lines : List Line) : Mat := fun i j =>
  match new[i]?, (lines[j]?).bind List.getLast? with
  | some p, some q => some (p.dist2 q)
  | _, _ => none

/-- Comparison of two entries of the matrix. -/
def ltInf : Option Rat → Option Rat → Bool
  | some a, some b => decide (a < b)
  | some _, none => true
  | none, _ => false

/-- The cells of a `np × nl` matrix in row-major order. -/
def cells (np nl : Nat) : List (Nat × Nat) :=
  (List.range np).flatMap fun i => (List.range nl).map fun j => (i, j)

/-- `np.unravel_index(np.argmin(dist2_mat), dist2_mat.shape)`, vd.py:1735-1737: the first minimum in row-major
order. -/
def argmin (d : Mat) (np nl : Nat) : Nat × Nat :=
  (cells np nl).foldl (fun b p => if ltInf (d p.1 p.2) (d b.1 b.2) then p else b) (0, 0)

/-- The variables of the linking loop of `make_one_step`: the matrix, the open lines, the two arrays of flags
(vd.py:1717-1727). -/
structure LinkSt where
  d : Mat
  lines : List Line
  usedL : Nat → Bool
  usedP : Nat → Bool

/-- `dist2 > epsilon`, vd.py:1739; `none` is `epsilon = np.inf`.  (The code compares the *squared* distance with
`epsilon`, not with `epsilon2`.) -/
def tooFar (eps : Option Rat) (v : Rat) : Bool :=
  match eps with
  | none => false
  | some e => decide (v > e)

/-- The end of one turn of the loop, vd.py:1743-1748: the point is appended to the line, its row and column are
set to infinity, the flags are raised. -/
def link (new : List Pt) (s : LinkSt) (i j : Nat) : LinkSt :=
  { d := fun a b => if a = i ∨ b = j then none else s.d a b
    lines := s.lines.modify j fun l => l ++ (new[i]?).toList
    usedL := fun b => if b = j then true else s.usedL b
    usedP := fun a => if a = i then true else s.usedP a }

/-- One turn of the loop, vd.py:1734-1748; `none` is `break`. -/
def linkStep (eps : Option Rat) (new : List Pt) (nl : Nat) (s : LinkSt) : Option LinkSt :=
  match s.d (argmin s.d new.length nl).1 (argmin s.d new.length nl).2 with
  | none => none
  | some v =>
    if tooFar eps v then none
    else some (link new s (argmin s.d new.length nl).1 (argmin s.d new.length nl).2)

/-- The loop `while usable_mat`, vd.py:1734-1748, run for at most `fuel` turns; `none`: still running. -/
def linkLoop (eps : Option Rat) (new : List Pt) (nl : Nat) : Nat → LinkSt → Option LinkSt
  | 0, _ => none
  | n + 1, s =>
    match linkStep eps new nl s with
    | none => some s
    | some s' => linkLoop eps new nl n s'

/-- vd.py:1714-1748: the state before the loop, and the loop, skipped when the matrix is empty (1729-1732). -/
def linkAll (eps : Option Rat) (fuel : Nat) (new : List Pt) (lines : List Line) : Option LinkSt :=
  if new.length ≠ 0 ∧ lines.length ≠ 0 then
    linkLoop eps new lines.length fuel ⟨distMat new lines, lines, fun _ => false, fun _ => false⟩
  else some ⟨distMat new lines, lines, fun _ => false, fun _ => false⟩

/-- vd.py:1750-1753: going down the indices, lines without a new point are moved from the open to the closed
ones. -/
def closeLoop (used : Nat → Bool) : List Nat → List Line × List Line → List Line × List Line
  | [], s => s
  | i :: is, (closed, op) =>
    if used i then closeLoop used is (closed, op)
    else closeLoop used is (closed ++ (op[i]?).toList, op.eraseIdx i)

/-- The elements of `l` at the indices `I`. -/
def pick {α : Type} (l : List α) (I : List Nat) : List α := I.filterMap fun i : Nat => l[i]?

/-- `self.closed_lines` and `self.open_lines`. -/
structure St where
  closed : List Line
  op : List Line

/-- The end of `make_one_step`, vd.py:1749-1757. -/
def finishStep (new : List Pt) (closed : List Line) (s : LinkSt) : St :=
  { closed := (closeLoop s.usedL (List.range s.lines.length).reverse (closed, s.lines)).1
    op := (closeLoop s.usedL (List.range s.lines.length).reverse (closed, s.lines)).2 ++
      (pick new ((List.range new.length).filter fun i => !s.usedP i)).map fun p => [p] }

/-- `PointField.make_one_step`, vd.py:1711-1759. -/
def oneStep (eps : Option Rat) (fuel : Nat) (new : List Pt) (s : St) : Option St :=
  (linkAll eps fuel new s.op).map (finishStep new s.closed)

/-- The loop of `make_all_steps` over the remaining times, vd.py:1768-1769. -/
def steps (eps : Option Rat) (fuel : Nat) : List (List Pt) → St → Option St
  | [], s => some s
  | new :: rest, s => (oneStep eps fuel new s).bind (steps eps fuel rest)

/-- `PointField.__init__`, vd.py:1677-1683: the points of each stored time. -/
def group (pts : List Pt) (times : List Rat) : List (List Pt) :=
  times.map fun t => pts.filter fun p => p.t = t

/-- `make_all_steps` (vd.py:1761-1773) on grouped points: the first lines, the steps, the closing of what is
still open.  (`self.points[0]` on an empty list of times raises IndexError; the empty case here is only reached
when there is no time at all.) -/
def allSteps (eps : Option Rat) (fuel : Nat) : List (List Pt) → Option (Res (List Line))
  | [] => some (.error .indexError)
  | first :: rest =>
    (steps eps fuel rest ⟨[], first.map fun p => [p]⟩).map fun s => .ok (s.closed ++ s.op)

/-- `np.argsort(lengths)[::-1]`, vd.py:1788-1792: a sort by length, reversed.  (numpy's sort leaves the order of
trajectories of equal length unspecified; here it is stable before the reversal.) -/
def byLength (ls : List Line) : List Line :=
  (ls.insertionSort fun a b => a.length ≤ b.length).reverse

/-- `CritPoints._get_cp_time_evolution`, vd.py:1616-1850, on points given with their times. -/
def timeEvolution (eps : Option Rat) (fuel : Nat) (pts : List Pt) (times : List Rat) : Option (Res (List Line)) :=
  if pts.isEmpty then some (.ok [])
  else (allSteps eps fuel (group pts times)).map fun r => r.map byLength

/-- `CritPoints.compute_traj` for one kind of points, vd.py:630-636 and 661-663: each position of the point set
stored for `times[i]` becomes a point with that time. -/
def computeTraj (eps : Option Rat) (fuel : Nat) (times : List Rat) (clouds : List (List (Rat × Rat))) :
    Option (Res (List Line)) :=
  timeEvolution eps fuel
    ((times.zip clouds).flatMap fun tc => tc.2.map fun xy => ⟨xy.1, xy.2, tc.1⟩) times

end IMT.Traj
