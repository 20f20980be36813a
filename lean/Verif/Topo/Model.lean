import Verif.Traj.Model

/-!
Model of the topological simplification, class `TopoPoints`
(`/repo/IMTreatment/vortex_detection/vortex_detection.py`, below "vd.py").
-/

namespace IMT.Topo

open IMT.Traj (Mat argmin)

/-- One point of a `TopoPoints`: a row of `xy` and the entry of `types` (vd.py:2145-2150).  Type codes are
1: focus, 2: clockwise focus, 3: saddle, 4: inward node, 5: outward node (vd.py:2142). -/
structure TPt where
  x : Rat
  y : Rat
  typ : Int
  deriving DecidableEq, Repr

/-- The index stored for a type, `import_from_arrays`, vd.py:2170-2175. -/
def pbiOf (t : Int) : Int :=
  if t = 1 ∨ t = 2 ∨ t = 4 ∨ t = 5 then 1 else if t = 3 then -1 else 0

/-- The variables of the simplification loop, vd.py:2238-2245.  The two columns of `weight` are always equal and
are represented by one number. -/
structure SS where
  d : Mat
  xs : Nat → Rat
  ys : Nat → Rat
  w : Nat → Nat
  filt : Nat → Bool
  types : Nat → List Int
  pbis : Nat → Int

/-- Accessors of the arrays `xy[:, 0]`, `xy[:, 1]`, `types`. -/
def px (pts : List TPt) (i : Nat) : Rat := ((pts[i]?).map (·.x)).getD 0
def py (pts : List TPt) (i : Nat) : Rat := ((pts[i]?).map (·.y)).getD 0
def pt (pts : List TPt) (i : Nat) : Int := ((pts[i]?).map (·.typ)).getD 0

/-- `_get_dist2`, vd.py:2202-2210: squared distances above the diagonal, infinity elsewhere. -/
def dist2 (pts : List TPt) : Mat := fun i j =>
  if i < j ∧ j < pts.length then some ((px pts i - px pts j) ^ 2 + (py pts i - py pts j) ^ 2) else none

/-- The state before the loop, vd.py:2238-2245. -/
def init (pts : List TPt) : SS :=
  { d := dist2 pts, xs := px pts, ys := py pts, w := fun _ => 1, filt := fun _ => true,
    types := fun i => [pt pts i], pbis := fun i => pbiOf (pt pts i) }

/-- vd.py:2259-2262 and 2275-2278: rows and columns `i` and `j` set to infinity. -/
def wipe (d : Mat) (i j : Nat) : Mat := fun a b => if a = i ∨ b = i ∨ a = j ∨ b = j then none else d a b

/-- One turn of the 'only_delete' algorithm on the pair `(i, j)`, vd.py:2256-2267. -/
def deleteStep (s : SS) (i j : Nat) : SS :=
  if s.pbis i + s.pbis j = 0 then
    { s with filt := fun a => if a = i ∨ a = j then false else s.filt a, d := wipe s.d i j }
  else { s with d := fun a b => if (a = i ∧ b = j) ∨ (a = j ∧ b = i) then none else s.d a b }

/-- The weighted mean of vd.py:2269-2271 (one coordinate). -/
def bary (s : SS) (c : Nat → Rat) (i j : Nat) : Rat := (c i * s.w i + c j * s.w j) / (s.w i + s.w j)

/-- `new_dists`, vd.py:2280-2284: squared distance of the new point to the other points still present. -/
def newDist (n : Nat) (s : SS) (i j a : Nat) : Option Rat :=
  if a < n ∧ a ≠ i ∧ a ≠ j ∧ s.filt a = true then
    some ((s.xs a - bary s s.xs i j) ^ 2 + (s.ys a - bary s s.ys i j) ^ 2)
  else none

/-- One turn of the 'replacement' algorithm on the pair `(i, j)`, vd.py:2268-2292: the new point takes the place
of `i`, `j` is removed. -/
def mergeStep (n : Nat) (s : SS) (i j : Nat) : SS :=
  { d := fun a b => if b = i then newDist n s i j a else if a = i then newDist n s i j b else wipe s.d i j a b
    xs := fun a => if a = i then bary s s.xs i j else s.xs a
    ys := fun a => if a = i then bary s s.ys i j else s.ys a
    w := fun a => if a = i then s.w i + s.w j else s.w a
    filt := fun a => if a = i then true else if a = j then false else s.filt a
    types := fun a => if a = i then s.types i ++ s.types j else s.types a
    pbis := fun a => if a = i then s.pbis i + s.pbis j else s.pbis a }

/-- The argument `kind`, vd.py:2235-2236. -/
inductive Kind where
  | replacement | onlyDelete
  deriving DecidableEq

/-- `dist2[ind_1, ind_2] > dist_min2`, vd.py:2253, with infinities. -/
def stops (r2 : Option Rat) (v : Option Rat) : Bool :=
  match r2, v with
  | none, _ => false
  | some _, none => true
  | some r, some v => decide (v > r)

/-- One turn of the loop, vd.py:2247-2292; `none` is `break`. -/
def step (k : Kind) (n : Nat) (r2 : Option Rat) (s : SS) : Option SS :=
  if stops r2 (s.d (argmin s.d n n).1 (argmin s.d n n).2) then none
  else match k with
    | .onlyDelete => some (deleteStep s (argmin s.d n n).1 (argmin s.d n n).2)
    | .replacement => some (mergeStep n s (argmin s.d n n).1 (argmin s.d n n).2)

/-- The loop, run for at most `fuel` turns; `none`: still running. -/
def loop (k : Kind) (n : Nat) (r2 : Option Rat) : Nat → SS → Option SS
  | 0, _ => none
  | m + 1, s =>
    match step k n r2 s with
    | none => some s
    | some s' => loop k n r2 m s'

/-- `np.argmax`: index of the first maximum. -/
def argmax (l : List Nat) : Nat :=
  (List.range l.length).foldl (fun b i => if (l[b]?).getD 0 < (l[i]?).getD 0 then i else b) 0

/-- `np.sum(np.array(typ) == t)`. -/
def countT (typ : List Int) (t : Int) : Nat := (typ.filter fun u => u = t).length

/-- The type given to a point standing for the types `typ`, with index `p`, vd.py:2305-2320. -/
def newType (typ : List Int) (p : Int) : Int :=
  match typ with
  | [t] => t
  | _ =>
    if p ≠ -1 ∧ p ≠ 1 then 0
    else if p = -1 then 3
    else (argmax [countT typ 1, countT typ 2, 0, countT typ 4, countT typ 5] : Int) + 1

/-- The end of `simplify`, vd.py:2293-2325: points still present and of non-zero index. -/
def finish (n : Nat) (s : SS) : List TPt :=
  (((List.range n).filter s.filt).filter fun i => s.pbis i ≠ 0).map fun i =>
    ⟨s.xs i, s.ys i, newType (s.types i) (s.pbis i)⟩

/-- `TopoPoints.simplify(dist_min, kind)`, vd.py:2212-2325; `radius = none` is `np.inf`.  `np.argmin` raises
ValueError on an empty array (2249). -/
def simplify (k : Kind) (fuel : Nat) (radius : Option Rat) (pts : List TPt) : Option (Res (List TPt)) :=
  if pts.isEmpty then some (.error .valueError)
  else (loop k pts.length (radius.map (· ^ 2)) fuel (init pts)).map fun s => .ok (finish pts.length s)

end IMT.Topo
