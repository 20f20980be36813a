import Verif.Pbi.Border

/-!
Model of the classification of critical points: `_get_jacobian_matrix`, the types given by `VF.get_cp_cell_position`, their distribution by
`_get_cp_cell_pbi_on_VF`, and the orientations of saddle points (`/repo/IMTreatment/vortex_detection/vortex_detection.py`, below "vd.py").
`np.linalg.eig` is a parameter: a function giving the two eigenvalues (in any order) and eigenvectors of a matrix.
-/

namespace IMT.Linear

open Pbi Real

/-- A 2 x 2 matrix `[[a, b], [c, d]]`. -/
structure Mat where
  a : ℝ
  b : ℝ
  c : ℝ
  d : ℝ

/-- `_get_jacobian_matrix(Vx, Vy)` of a cell with the default steps 1, vd.py:3396-3424 as called at vd.py:160: the means of the differences between the two
columns and between the two rows (`np.gradient` of two points is their difference). -/
noncomputable def jacobian (c : Cell ℝ) : Mat where
  a := ((c.x2 - c.x1) + (c.x4 - c.x3)) / 2
  b := ((c.x3 - c.x1) + (c.x4 - c.x2)) / 2
  c := ((c.y2 - c.y1) + (c.y4 - c.y3)) / 2
  d := ((c.y3 - c.y1) + (c.y4 - c.y2)) / 2

/-- `mu`, vd.py:163: the sum of the absolute values of the imaginary parts of the eigenvalues. -/
noncomputable def mu (e : ℂ × ℂ) : ℝ := |e.1.im| + |e.2.im|

open Classical in
/-- The type given to a reported cell, vd.py:155-174 (`eig` stands for the eigenvalues of `np.linalg.eig`): 0 is a saddle point, 1 and 2 are foci, 3 and 4
nodes. -/
noncomputable def typeOf (eig : Mat → ℂ × ℂ) (vx vy : Nat → Nat → ℝ) (p : Nat × Nat) : Nat :=
  if cellIndex vx vy p.1 p.2 = -1 then 0
  else if mu (eig (jacobian (cellOf vx vy p.1 p.2))) ≠ 0 then
    if (jacobian (cellOf vx vy p.1 p.2)).c < 0 then 1 else 2
  else if 0 ≤ (eig (jacobian (cellOf vx vy p.1 p.2))).1.re then 3
  else 4

/-- The centre given to a reported cell (row, column), vd.py:103-104, 152-153: the first steps of the axes are used everywhere. -/
noncomputable def centreAt (X Y : Nat → ℝ) (p : Nat × Nat) : ℝ × ℝ := (X p.2 + (X 1 - X 0) / 2, Y p.1 + (Y 1 - Y 0) / 2)

/-- The five sets of points of a `CritPoints`, positions only. -/
structure Sets where
  sadd : List (ℝ × ℝ)
  focC : List (ℝ × ℝ)
  foc : List (ℝ × ℝ)
  nodeO : List (ℝ × ℝ)
  nodeI : List (ℝ × ℝ)

/-- One round of the loop over the points, vd.py:3047-3067. -/
def Sets.put (s : Sets) (t : Nat) (p : ℝ × ℝ) : Option Sets :=
  match t with
  | 0 => some { s with sadd := s.sadd ++ [p] }
  | 1 => some { s with focC := s.focC ++ [p] }
  | 2 => some { s with foc := s.foc ++ [p] }
  | 3 => some { s with nodeO := s.nodeO ++ [p] }
  | 4 => some { s with nodeI := s.nodeI ++ [p] }
  | _ => none

/-- The loop over the points, vd.py:3047-3067; `none` is the exception of an unknown type. -/
def Sets.fill (s : Sets) : List (Nat × (ℝ × ℝ)) → Option Sets
  | [] => some s
  | (t, p) :: l => match s.put t p with
    | none => none
    | some s => s.fill l

/-- `_get_cp_cell_pbi_on_VF`, vd.py:2993-3071, on a field of `n` rows and `m` columns with the axes `X` and `Y`: what `get_critical_points(kind='pbi_cell')`
reports.  Units, times and orientations of the saddle points are left out. -/
noncomputable def critCell (eig : Mat → ℂ × ℂ) (X Y : Nat → ℝ) (vx vy : Nat → Nat → ℝ) (mask : Nat → Nat → Bool) (n m : Nat) : Option Sets :=
  Sets.fill ⟨[], [], [], [], []⟩ ((detected vx vy mask n m).map fun p => (typeOf eig vx vy p, centreAt X Y p))

/-! ### orientations of saddle points -/

/-- `np.gradient` of four values with the step `h`, vd.py:3411-3412. -/
noncomputable def grad4 (v : Nat → ℝ) (h : ℝ) (k : Nat) : ℝ :=
  if k = 0 then (v 1 - v 0) / h else if k = 3 then (v 3 - v 2) / h else (v (k + 1) - v (k - 1)) / (2 * h)

/-- `np.mean` of a 4 x 4 array. -/
noncomputable def mean16 (f : Nat → Nat → ℝ) : ℝ := ((List.range 4).map fun r => ((List.range 4).map fun c => f r c).sum).sum / 16

/-- `_get_jacobian_matrix` of the 4 x 4 points around a saddle point, vd.py:3396-3443 as called at vd.py:3385: `u r c` and `v r c` are the components at the row `r` and
column `c` of the local arrays. -/
noncomputable def jacobian4 (u v : Nat → Nat → ℝ) (dx dy : ℝ) : Mat where
  a := mean16 fun r c => grad4 (fun k => u r k) dx c
  b := mean16 fun r c => grad4 (fun k => u k c) dy r
  c := mean16 fun r c => grad4 (fun k => v r k) dx c
  d := mean16 fun r c => grad4 (fun k => v k c) dy r

open Classical in
/-- The two directions, the one of the largest eigenvalue first, vd.py:3387-3393. -/
noncomputable def pickOri (e : (ℂ × ℂ) × ((ℝ × ℝ) × (ℝ × ℝ))) : (ℝ × ℝ) × (ℝ × ℝ) :=
  if e.1.2.re < e.1.1.re then (e.2.1, e.2.2) else (e.2.2, e.2.1)

/-- `_get_saddle_orientations`, vd.py:3359-3393, for a field without mask, of `n` rows and `m` columns, and a point whose cell starts at the row `i` and column `j`
(`kind='bounds'`): the directions of the largest and smallest eigenvalue, null vectors when the 4 x 4 points around are not all in the field.  `eig` gives the
eigenvalues and eigenvectors; they are compared by their real parts here (numpy compares the real numbers it returns, a saddle point has real eigenvalues). -/
noncomputable def orientations (eig : Mat → (ℂ × ℂ) × ((ℝ × ℝ) × (ℝ × ℝ))) (X Y : Nat → ℝ) (vx vy : Nat → Nat → ℝ) (n m i j : Nat) : (ℝ × ℝ) × (ℝ × ℝ) :=
  if i = 0 ∨ j = 0 ∨ n ≤ i + 2 ∨ m ≤ j + 2 then ((0, 0), (0, 0))
  else
    pickOri (eig (jacobian4 (fun r c => vx (i - 1 + r) (j - 1 + c)) (fun r c => vy (i - 1 + r) (j - 1 + c)) (X 1 - X 0) (Y 1 - Y 0)))

end IMT.Linear
