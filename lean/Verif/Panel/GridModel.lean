import Verif.Panel.Model

/-!
Model of `compute_velocity_on_grid`, of `remove_solid` and of `compute_pressure_from_velocity` on fields and profiles
(`/repo/IMTreatment/potential_flow/potential_flow.py`).  `solids` are the tests `path.contains_point` of matplotlib, one per solid
path (`get_solid_paths`, potential_flow.py:104-112); `junk` is what `np.empty` holds.
-/

namespace IMT.Panel

/-- A vector field over the reals: the axes, the components, the mask. -/
structure RVF where
  ax : List ℝ
  ay : List ℝ
  cx : Grid ℝ
  cy : Grid ℝ
  mask : Grid Bool

/-- `np.any([path.contains_point((x, y)) for path in paths])`, potential_flow.py:204-206. -/
def inSolid (solids : List (ℝ → ℝ → Bool)) (x y : ℝ) : Bool := solids.any fun f => f x y

/-- `np.meshgrid(grid_x, grid_y)` and the test on solids, potential_flow.py:194-209: `f` at the point of row `i` and column `j`, the
rows being along y. -/
def mesh {α : Type} (gx gy : List ℝ) (d : α) (f : ℝ → ℝ → α) : Grid α :=
  ⟨gy.length, gx.length, fun i j => match gx[j]?, gy[i]? with
    | some x, some y => f x y
    | _, _ => d⟩

/-- A component on the grid, potential_flow.py:196-212: the points in a solid are skipped. -/
def comp (vel : ℝ → ℝ → ℝ × ℝ) (pick : ℝ × ℝ → ℝ) (solids : List (ℝ → ℝ → Bool)) (remove : Bool) (junk : ℝ) (gx gy : List ℝ) : Grid ℝ :=
  mesh gx gy junk fun x y => if remove && inSolid solids x y then junk else pick (vel x y)

/-- The mask on the grid, potential_flow.py:199-209. -/
def solidMask (solids : List (ℝ → ℝ → Bool)) (remove : Bool) (gx gy : List ℝ) : Grid Bool :=
  mesh gx gy false fun x y => remove && inSolid solids x y

/-- `np.transpose`. -/
def transp {α : Type} (g : Grid α) : Grid α := ⟨g.ny, g.nx, fun i j => g.get j i⟩

/-- The system once its sources are up to date, potential_flow.py:191-192. -/
noncomputable def Sys.fresh (lin : Solver) (s : Sys) : Res Sys := if s.toRefresh then s.solve lin else .ok s

/-- `compute_velocity_on_grid(grid_x, grid_y, raw=True, remove_solid)`, potential_flow.py:185-216. -/
noncomputable def Sys.gridRaw (lin : Solver) (s : Sys) (solids : List (ℝ → ℝ → Bool)) (remove : Bool) (junk : ℝ) (gx gy : List ℝ) :
    Res (Sys × Grid ℝ × Grid ℝ) :=
  match s.fresh lin with
  | .error e => .error e
  | .ok t => .ok (t, comp (velocity t.uinf t.alpha t.panels) Prod.fst solids remove junk gx gy,
      comp (velocity t.uinf t.alpha t.panels) Prod.snd solids remove junk gx gy)

/-- `compute_velocity_on_grid(grid_x, grid_y, remove_solid=remove)`, potential_flow.py:185-225, for increasing axes (see
`VF.importArrays` for the others). -/
noncomputable def Sys.grid (lin : Solver) (s : Sys) (solids : List (ℝ → ℝ → Bool)) (remove : Bool) (junk : ℝ) (gx gy : List ℝ) :
    Res (Sys × RVF) :=
  match s.gridRaw lin solids remove junk gx gy with
  | .error e => .error e
  | .ok (t, u, v) => .ok (t, ⟨gx, gy, transp u, transp v, transp (solidMask solids remove gx gy)⟩)

/-- `compute_velocity_on_line(a, b, res, remove_solid=True)`, potential_flow.py:227-267, for `res ≥ 1`: abscissae, velocities and mask. -/
noncomputable def onLineSolid (vel : ℝ → ℝ → ℝ × ℝ) (solids : List (ℝ → ℝ → Bool)) (junk : ℝ) (a b : ℝ × ℝ) (res : Nat) :
    List (ℝ × (ℝ × ℝ) × Bool) :=
  ((linspace a.1 b.1 res).zip (linspace a.2 b.2 res)).map fun q =>
    (absc a (min a.1 b.1) (min a.2 b.2) q, if inSolid solids q.1 q.2 then (junk, junk) else vel q.1 q.2, inSolid solids q.1 q.2)

/-- A scalar field over the reals. -/
structure RSF where
  ax : List ℝ
  ay : List ℝ
  val : Grid ℝ
  mask : Grid Bool

/-- `compute_pressure_from_velocity(field)`, potential_flow.py:273-287, for a free stream that is not null: no value is NaN. -/
noncomputable def pressureField (u : ℝ) (f : RVF) : RSF :=
  ⟨f.ax, f.ay, ⟨f.cx.nx, f.cx.ny, fun i j => cp u (f.cx.get i j, f.cy.get i j)⟩, f.mask⟩

/-- `compute_pressure_from_velocity((vx, vy))` for two profiles given by abscissae, values and masks, potential_flow.py:288-301. -/
noncomputable def pressureProf (u : ℝ) (px py : List (ℝ × ℝ × Bool)) : List (ℝ × ℝ × Bool) :=
  List.zipWith (fun a b => (a.1, cp u (a.2.1, b.2.1), a.2.2 || b.2.2)) px py

end IMT.Panel
