import Verif.Points.Model

/-!
Model of the sum, the decomposition and the streamlines of `OrientedPoints` (`/repo/IMTreatment/core/orientedpoints.py`,
"op.py").

The orientations of a point are the list of its directions.  `len(orientations[0])`, the number of directions, is the same
for all the points of an object, numpy arrays being rectangular: see `Even`.
-/

namespace IMT.Points

/-- The directions of one point. -/
abbrev Dirs := List (Rat × Rat)

/-- The orientations are an array `(n, d, 2)`. -/
def Even (l : List Dirs) : Prop := ∀ a ∈ l, ∀ b ∈ l, a.length = b.length

/-- `new_ori.shape[1]`, the number of directions; a list of no orientation has none (op.py:188 raises IndexError). -/
def nDirs (l : List Dirs) : Option Nat := l.head?.map List.length

/-- The setter of `orientations`, op.py:107-118, as called by `import_from_Points`, op.py:225-235: the check on the shape is
skipped for an object without points. -/
def setOri (s : P) (ori : List Dirs) : Res (OP Dirs) :=
  if s.xy.length ≠ 0 ∧ ori.length ≠ s.xy.length then .error .valueError else .ok ⟨s, ori⟩

/-- `np.append(self.orientations, obj.orientations, axis=0)`, op.py:96: the numbers of directions must agree. -/
def appendOri (a b : List Dirs) : Res (List Dirs) :=
  if nDirs a = nDirs b then .ok (a ++ b) else .error .valueError

/-- The orientations of a sum, op.py:91-97. -/
def sumOri (p q : OP Dirs) : Res (List Dirs) :=
  if p.pts.xy = [] then .ok q.ori else if q.pts.xy = [] then .ok p.ori else appendOri p.ori q.ori

/-- The end of the sum, op.py:91-100. -/
def finish (s : P) (o : Res (List Dirs)) : Res (OP Dirs) :=
  match o with
  | .ok o => setOri s o
  | .error e => .error e

/-- `self + obj` for two sets of oriented points, op.py:88-100: the points of `obj` afterwards, and the result. -/
def OP.plus (p q : OP Dirs) : P × Res (OP Dirs) :=
  match Points.plus p.pts q.pts with
  | (q', .ok s) => (q', finish s (sumOri p q))
  | (q', .error e) => (q', .error e)

/-- `self + obj` for points `obj` without orientations, op.py:88-100: `obj.orientations` raises AttributeError unless it
has no point. -/
def OP.plusPlain (p : OP Dirs) (q : P) : P × Res (OP Dirs) :=
  match Points.plus p.pts q with
  | (q', .ok s) =>
    if p.pts.xy = [] then (q', .error .attributeError)
    else if q.xy = [] then (q', setOri s p.ori) else (q', .error .attributeError)
  | (q', .error e) => (q', .error e)

/-- One turn of the loop of `decompose`, op.py:330-335. -/
def piece (p : OP Dirs) (r : ((F × F) × F) × Dirs) : OP Dirs :=
  ⟨⟨[r.1.1], [r.1.2], p.pts.ux, p.pts.uy, p.pts.uv⟩, [r.2]⟩

/-- `decompose()`, op.py:320-336: a set of one point is returned as it is. -/
def OP.decompose (p : OP Dirs) : Res (List (OP Dirs)) :=
  if p.pts.xy.length = 1 then .ok [p]
  else if p.pts.xy.length ≠ p.pts.v.length then .error .exception
  else .ok (((p.pts.xy.zip p.pts.v).zip p.ori).map (piece p))

/-! ### Streamlines -/

/-- The argument `reverse_direction`, op.py:193-198. -/
inductive Rev where
  | one (b : Bool)
  | each (l : List Bool)
  | other

/-- One boolean per direction, op.py:193-201. -/
def reverses (r : Rev) (d : Nat) : Res (List Bool) :=
  match r with
  | .one b => .ok (List.replicate d b)
  | .each l => if l.length = d then .ok l else .error .valueError
  | .other => .error .typeError

/-- The two starting points of a direction, op.py:212-214, with the coefficient of op.py:203-204 (the same for both axes:
line 204 reads the x axis). -/
def seeds (c : Rat) (pt ev : Rat × Rat) : List (Rat × Rat) :=
  [(pt.1 - ev.1 * c, pt.2 - ev.2 * c), (pt.1 + ev.1 * c, pt.2 + ev.2 * c)]

/-- The turn of the loop for one direction, op.py:208-227.  `S` is `get_streamlines(vf, starts, reverse=...)`, giving the list
of streamlines (none when all the starts are out of the field). -/
def fromDir (S : List (Rat × Rat) → Bool → List (List (Rat × Rat))) (c : Rat) (pt : Rat × Rat) (n : (Rat × Rat) × Bool) :
    List (List (Rat × Rat)) :=
  if n.1 = (0, 0) then [] else (S (seeds c pt n.1) n.2).map fun st => pt :: st

/-- The loops of op.py:208-227. -/
def fromAll (S : List (Rat × Rat) → Bool → List (List (Rat × Rat))) (c : Rat) (rv : List Bool)
    (l : List ((Rat × Rat) × Dirs)) : List (List (Rat × Rat)) :=
  l.flatMap fun q => (q.2.zip rv).flatMap (fromDir S c q.1)

/-- The streamlines once the parameters are checked, op.py:203-229. -/
def fromChecked (S : List (Rat × Rat) → Bool → List (List (Rat × Rat))) (ax : List Rat) (rv : Res (List Bool))
    (l : List ((Rat × Rat) × Dirs)) : Res (List (List (Rat × Rat))) :=
  match rv, ax with
  | .error e, _ => .error e
  | .ok rv, x₀ :: x₁ :: _ => .ok (fromAll S ((x₁ - x₀) * (1 / 4)) rv l)
  | .ok _, _ => .error .indexError

/-- `get_streamlines_from_orientations(vf, delta, interp, reverse_direction)`, op.py:154-223: the points with their
directions, the x axis of the field.  `delta` and `interp` are not used. -/
def streamsFrom {I : Type} (S : List (Rat × Rat) → Bool → List (List (Rat × Rat))) (ax : List Rat)
    (l : List ((Rat × Rat) × Dirs)) (_delta : Rat) (_interp : I) (r : Rev) : Res (List (List (Rat × Rat))) :=
  match nDirs (l.map Prod.snd) with
  | none => .error .indexError
  | some d => fromChecked S ax (reverses r d) l

end IMT.Points
