import Verif.Prelude

/-!
Model of the fields cut around points and of the refined positions of critical points, `kind='pbi_crit'`
(`/repo/IMTreatment/vortex_detection/vortex_detection.py`, "vd.py": `VF.get_field_around_pt`, `_get_cp_crit_on_VF`).
-/

namespace IMT.Around

/-- The internal field `VF`, vd.py:60-71 (without the angles and the time): the arrays are indexed by row (along y), then by column. -/
structure IVF where
  vx : Grid Rat
  vy : Grid Rat
  ax : List Rat
  ay : List Rat
  mask : Grid Bool

/-- `np.ceil(nmb_lc/2.)`, vd.py:367. -/
def half (nmb : Nat) : Nat := (nmb + 1) / 2

/-- `np.logical_and(axe > min, axe < max)` at one position, vd.py:369-375. -/
def inWin (c d : Rat) (n : Nat) (x : Rat) : Bool := decide (c - n * d < x) && decide (x < c + n * d)

/-- The indices kept along an axis. -/
def kept (ax : List Rat) (p : Rat → Bool) : List Nat := (List.range ax.length).filter fun k : Nat => p (ax.getD k 0)

/-- `a[mask_y, :][:, mask_x]`, vd.py:377-386. -/
def cutGrid {α : Type} (g : Grid α) (ky kx : List Nat) : Grid α :=
  ⟨ky.length, kx.length, fun i j => g.get (ky.getD i 0) (kx.getD j 0)⟩

/-- The two steps of the grid, vd.py:365-366: IndexError when an axis has less than two positions. -/
def steps (f : IVF) : Res (Rat × Rat) :=
  match f.ax, f.ay with
  | a :: b :: _, c :: d :: _ => .ok (b - a, d - c)
  | _, _ => .error .indexError

/-- `get_field_around_pt(xy, nmb_lc)`, vd.py:359-390. -/
def around (f : IVF) (xy : Rat × Rat) (nmb : Nat) : Res IVF :=
  match steps f with
  | .error e => .error e
  | .ok (dx, dy) =>
    let px := inWin xy.1 dx (half nmb)
    let py := inWin xy.2 dy (half nmb)
    if f.ax.filter px = [] ∨ f.ay.filter py = [] then .error .valueError
    else .ok ⟨cutGrid f.vx (kept f.ay py) (kept f.ax px), cutGrid f.vy (kept f.ay py) (kept f.ax px), f.ax.filter px, f.ay.filter py,
      cutGrid f.mask (kept f.ay py) (kept f.ax px)⟩

/-- `np.any(mask)`. -/
def anyMask (g : IVF) : Bool := (List.range g.mask.nx).any fun i => (List.range g.mask.ny).any fun j => g.mask.get i j

/-- The small and the masked windows are left, vd.py:3124-3131. -/
def useful (w : Nat) (g : IVF) : Bool := !(decide (g.ax.length ≤ w + 1) || decide (g.ay.length ≤ w + 1) || anyMask g)

/-- What the refinement calls: the criterions `gamma1` and `kappa1` with the radius `window_size/4` (vd.py:3140-3141), the extreme values of
a criterion, and `_min_detection` of the criterion and of its opposite (vd.py:3285-3304: the least value of a spline on a hundred by a hundred
positions between the ends of the axes). -/
structure Tools (S : Type) where
  gamma : IVF → S
  kappa : IVF → S
  lo : S → Rat
  hi : S → Rat
  locMin : S → Res (Rat × Rat)
  locMax : S → Res (Rat × Rat)

/-- A critical point: its position and its type (0 saddle, 1 and 2 focuses, 3 and 4 nodes), vd.py:94-106. -/
abbrev Cell := (Rat × Rat) × Nat

/-- A located extremum with its type. -/
def typed (r : Res (Rat × Rat)) (t : Nat) : Res Cell :=
  match r with
  | .error e => .error e
  | .ok p => .ok (p, t)

variable {S : Type}

/-- `VF.PBI == 1`, vd.py:3128, 3137-3187: the kind of point by the strongest criterion, then its position. -/
def locate (T : Tools S) (g : IVF) : Res Cell :=
  if max |T.hi (T.gamma g)| |T.lo (T.gamma g)| > max |T.hi (T.kappa g)| |T.lo (T.kappa g)| then
    if |T.hi (T.gamma g)| > |T.lo (T.gamma g)| then typed (T.locMax (T.gamma g)) 2 else typed (T.locMin (T.gamma g)) 1
  else if |T.hi (T.kappa g)| > |T.lo (T.kappa g)| then typed (T.locMax (T.kappa g)) 3 else typed (T.locMin (T.kappa g)) 4

/-- One critical point of the cells, vd.py:3119-3200.  `VF.PBI = int(cp_types[i] != 0)` is 0 for a saddle, so that the branch
`VF.PBI == -1` (the saddles) is never taken. -/
def refineOne (T : Tools S) (w : Nat) (f : IVF) (c : Cell) : Res Cell :=
  match around f c.1 (w + 1) with
  | .error e => .error e
  | .ok g => if useful w g = true ∧ c.2 ≠ 0 then locate T g else .ok c

/-- `_get_cp_crit_on_VF`, vd.py:3074-3240, from the cells found by `get_cp_cell_position`: the points with their types, in order.  (The code
computes the windows first, then the criterions, then the positions: with several failures, the exception could be another one.  The orientations
of the saddles are not represented.) -/
def crit (T : Tools S) (w : Nat) (f : IVF) (cells : List Cell) : Res (List Cell) := cells.mapM (refineOne T w f)

/-- The points of one type, vd.py:3219-3238. -/
def ofType (l : List Cell) (t : Nat) : List (Rat × Rat) := (l.filter fun c => decide (c.2 = t)).map Prod.fst

/-! ### Specification -/

/-- The field shows these components and mask at the position `(x, y)`. -/
def Shows (f : IVF) (x y u v : Rat) (m : Bool) : Prop :=
  ∃ i j : Nat, f.ax[j]? = some x ∧ f.ay[i]? = some y ∧ f.vx.get i j = u ∧ f.vy.get i j = v ∧ f.mask.get i j = m

/-- `n` positions from `a` with the step `d`. -/
def evenAxis (a d : Rat) (n : Nat) : List Rat := (List.range n).map fun k : Nat => a + k * d

/-- The center of the cell of column `i` and row `j`, vd.py:152-153. -/
def center (a b dx dy : Rat) (i j : Nat) : Rat × Rat := (a + i * dx + dx / 2, b + j * dy + dy / 2)

end IMT.Around
