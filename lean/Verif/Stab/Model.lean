import Verif.Prelude
import Mathlib.Analysis.SpecialFunctions.Complex.Arg

/-!
Model of `stabilize/stabilize.py` (`Stabilizer`).  Feature detection, optical flow, rigid transform estimation, borders, interpolation
(opencv) and the gaussian filter are parameters.
-/

namespace IMT.Stab

/-- A picture: its number of rows and columns and its pixels.  `px i j` matters for `0 ≤ i < nx` and `0 ≤ j < ny` only.  The rows
of the array are the x axis of the field. -/
structure Im (V : Type) where
  nx : Nat
  ny : Nat
  px : Int → Int → V

/-- A pixel of a picture. -/
def Im.Has {V : Type} (im : Im V) (i j : Int) : Prop := 0 ≤ i ∧ i < im.nx ∧ 0 ≤ j ∧ j < im.ny

/-- A `TemporalScalarFields` with its axes, its units and its (time, picture) pairs. -/
structure Film (V U : Type) where
  axeX : List Rat
  axeY : List Rat
  units : U
  frames : List (Rat × Im V)

/-- What `cv2.estimateRigidTransform(..., False)` returns: the matrix `[[c, -s, tx], [s, c, ty]]`. -/
structure Mat where
  c : ℝ
  s : ℝ
  tx : ℝ
  ty : ℝ

/-- A stored transform `[dx, dy, da]`, stabilize.py:152. -/
@[ext] structure Tr where
  dx : ℝ
  dy : ℝ
  da : ℝ

/-- Array arithmetic on transforms. -/
def Tr.add (a b : Tr) : Tr := ⟨a.dx + b.dx, a.dy + b.dy, a.da + b.da⟩
/-- Array arithmetic on transforms. -/
def Tr.sub (a b : Tr) : Tr := ⟨a.dx - b.dx, a.dy - b.dy, a.da - b.da⟩
/-- `[0, 0, 0]`. -/
def Tr.zero : Tr := ⟨0, 0, 0⟩

/-- The border types, stabilize.py:221-225 (another one raises). -/
inductive Border where
  | black | reflect | replicate

/-- The outside world: opencv and scipy.  `features`: whether `detect` finds a feature; `estimate`: optical flow of the features then
`estimateRigidTransform`; `pad`: `copyMakeBorder`; `sample`: the interpolation of `warpAffine` at a point given as (column, row);
`smooth`: `gaussian_filter`. -/
structure World (V : Type) where
  features : Im V → Bool
  estimate : Im V → Im V → Option Mat
  pad : Border → Im V → Nat → Im V
  sample : Border → Im V → ℝ × ℝ → V
  smooth : ℝ → List ℝ → List ℝ

/-- The modes, stabilize.py:52 (`other`: any other string). -/
inductive Mode where
  | continuous | fromFirst | other
  deriving DecidableEq

variable {V U : Type}

/-- The transform kept from an estimate, stabilize.py:144-149: the scale is not kept. -/
noncomputable def trOf : Option Mat → Tr
  | some m => ⟨m.tx, m.ty, Complex.arg ⟨m.c, m.s⟩⟩
  | none => Tr.zero

/-- The loop on the frames, stabilize.py:91-158, without `dense`. -/
noncomputable def moves (w : World V) (mode : Mode) : Im V → List (Im V) → Res (List Tr)
  | _, [] => .ok []
  | prev, cur :: l =>
    if w.features prev = false then .error .exception
    else match moves w mode (if mode = .continuous then cur else prev) l with
      | .error e => .error e
      | .ok r => .ok (trOf (w.estimate prev cur) :: r)

/-- `np.cumsum(l, axis=0)` started from `a`. -/
noncomputable def cumsum (a : Tr) : List Tr → List Tr
  | [] => []
  | t :: l => a.add t :: cumsum (a.add t) l

/-- The state of a `Stabilizer`, stabilize.py:57-66 (the features kept for display are left out). -/
structure State (V U : Type) where
  raw : Option (List Tr)
  traj : List Tr
  smoothTraj : List Tr
  smooth : Option (List Tr)
  result : Option (Film V U)

/-- A new stabilizer, stabilize.py:62-66. -/
def fresh : State V U := ⟨none, [], [], none, none⟩

/-- The raw transforms and the trajectory, stabilize.py:159-170. -/
noncomputable def rawOf : Mode → List Tr → Res (List Tr × List Tr)
  | .continuous, l => .ok (l, cumsum Tr.zero l)
  | .fromFirst, [] => .error .indexError
  | .fromFirst, t :: l => .ok (t :: List.zipWith Tr.sub l ((t :: l).take l.length), t :: l)
  | .other, _ => .error .valueError

/-- What `_compute_transform(dense)` finds on the frames, stabilize.py:89-170. -/
noncomputable def computed (w : World V) (mode : Mode) (dense : Bool) : List (Im V) → Res (List Tr × List Tr)
  | [] => .error .indexError
  | f :: l =>
    if dense = true ∧ l ≠ [] then .error .exception
    else match moves w mode f l with
      | .error e => .error e
      | .ok r => rawOf mode r

/-- `_compute_transform(dense)`, stabilize.py:68-170. -/
noncomputable def compute (w : World V) (mode : Mode) (film : Film V U) (dense : Bool) (s : State V U) : State V U × Res Unit :=
  match computed w mode dense (film.frames.map Prod.snd) with
  | .error e => (s, .error e)
  | .ok r => ({ s with raw := some r.1, traj := r.2 }, .ok ())

/-- The smoothed trajectory, stabilize.py:188-193: each column is smoothed on its own.  (The times are increasing: the profile keeps the
order.) -/
noncomputable def smoothed (w : World V) (size : ℝ) (l : List Tr) : List Tr :=
  List.zipWith (fun (x : ℝ) (q : ℝ × ℝ) => (⟨x, q.1, q.2⟩ : Tr)) (w.smooth size (l.map Tr.dx))
    ((w.smooth size (l.map Tr.dy)).zip (w.smooth size (l.map Tr.da)))

/-- `_smooth_transform(smooth_size)`, stabilize.py:172-196.  With one frame only the trajectory has no column: `[:, i]` raises. -/
noncomputable def smoothStep (w : World V) (size : ℝ) (s : State V U) : State V U × Res Unit :=
  match s.raw with
  | none => (s, .error .exception)
  | some r =>
    if s.traj = [] then ({ s with smoothTraj := s.traj }, .error .indexError)
    else ({ s with
              smoothTraj := smoothed w size s.traj
              smooth := some (List.zipWith Tr.add r (List.zipWith Tr.sub (smoothed w size s.traj) s.traj)) }, .ok ())

/-- `np.arange(start, stop, h)` for `0 < h`, in exact arithmetic. -/
def arange (start stop h : Rat) : List Rat := (List.range ⌈(stop - start) / h⌉.toNat).map fun k : ℕ => start + k * h

/-- The step of an axis, `obj.dx`, field.py:64-65. -/
def step (l : List Rat) : Rat := l.getD 1 0 - l.headD 0

/-- The new x axis, stabilize.py:233-237. -/
def newX (film : Film V U) (b : Nat) : List Rat :=
  arange (film.axeX.headD 0 - b * step film.axeX) (film.axeX.getLastD 0 + b * step film.axeX + step film.axeX) (step film.axeX)

/-- The new y axis, stabilize.py:235-238: one step of the **x** axis is added to the end. -/
def newY (film : Film V U) (b : Nat) : List Rat :=
  arange (film.axeY.headD 0 - b * step film.axeY) (film.axeY.getLastD 0 + b * step film.axeY + step film.axeX) (step film.axeY)

/-- `cv2.warpAffine(im, M, (cols, rows))` with the rotation and the translation of `t`, stabilize.py:243-249 and 259-263: a pixel
shows the picture at the point the transform brings there. -/
noncomputable def warp (w : World V) (bt : Border) (im : Im V) (t : Tr) (rows cols : Nat) : Im V where
  nx := rows
  ny := cols
  px i j := w.sample bt im
    (Real.cos t.da * ((j : ℝ) - t.dx) + Real.sin t.da * ((i : ℝ) - t.dy),
      -Real.sin t.da * ((j : ℝ) - t.dx) + Real.cos t.da * ((i : ℝ) - t.dy))

/-- `im[b:rows - b, b:cols - b]`, stabilize.py:264-267. -/
def cropIm (im : Im V) (b : Nat) : Im V where
  nx := im.nx - b - b
  ny := im.ny - b - b
  px i j := im.px (i + b) (j + b)

/-- The new picture of a frame, stabilize.py:228-230 and 250-267. -/
noncomputable def moved (w : World V) (bt : Border) (b : Nat) (film : Film V U) (t : Tr) (im : Im V) : Im V :=
  cropIm (warp w bt (w.pad bt im (b * 2)) t (film.axeX.length + 2 * b + b * 2) (film.axeY.length + 2 * b + b * 2)) b

/-- The stabilised film, stabilize.py:227-283.  `import_from_arrays` checks no shape (scalarfield.py:453-517), so the axes are taken as
they are; it does not transpose when the axes are those of an evenly spaced field (not modelled otherwise).  The conversion of the
values to bytes is not modelled. -/
noncomputable def applied (w : World V) (bt : Border) (b : Nat) (film : Film V U) (trs : List Tr) : Film V U where
  axeX := newX film b
  axeY := newY film b
  units := film.units
  frames := List.zipWith (fun t f => (f.1, moved w bt b film t f.2)) (Tr.zero :: trs) film.frames

/-- `_apply_transform(border_type, border_size)`, stabilize.py:198-283. -/
noncomputable def apply (w : World V) (film : Film V U) (bt : Border) (b : Nat) (s : State V U) : State V U × Res Unit :=
  match s.smooth with
  | none => (s, .error .exception)
  | some trs => ({ s with result := some (applied w bt b film trs) }, .ok ())

/-- `get_stabilized_obj(dense, smooth_size, border_type, border_size)`, stabilize.py:342-365. -/
noncomputable def get (w : World V) (mode : Mode) (film : Film V U) (dense : Bool) (size : ℝ) (bt : Border) (b : Nat) (s : State V U) :
    State V U × Res (Option (Film V U)) :=
  match compute w mode film dense s with
  | (s1, .error e) => (s1, .error e)
  | (s1, .ok _) =>
    match smoothStep w size s1 with
    | (s2, .error e) => (s2, .error e)
    | (s2, .ok _) =>
      match apply w film bt b s2 with
      | (s3, .error e) => (s3, .error e)
      | (s3, .ok _) => (s3, .ok s3.result)

/-- One step of a tracked point, stabilize.py:316-332: the point is turned round into (column, row) and back. -/
noncomputable def trackStep (t : Tr) (p : ℝ × ℝ) : ℝ × ℝ :=
  (Real.sin t.da * p.2 + Real.cos t.da * p.1 + t.dy, Real.cos t.da * p.2 - Real.sin t.da * p.1 + t.dx)

/-- The successive places of a point, stabilize.py:314-337. -/
noncomputable def trackFrom (p : ℝ × ℝ) : List Tr → List (ℝ × ℝ)
  | [] => [p]
  | t :: l => p :: trackFrom (trackStep t p) l

/-- `_apply_transform_to_point(pts, from_frame)`, stabilize.py:285-340. -/
noncomputable def track (s : State V U) (pts : List (ℝ × ℝ)) (fromFrame : Int) : Res (List (List (ℝ × ℝ))) :=
  match s.smooth, s.raw with
  | some _, some r => if fromFrame ≠ 0 then .error .exception else .ok (pts.map fun p => trackFrom p r)
  | _, _ => .error .exception

end IMT.Stab
