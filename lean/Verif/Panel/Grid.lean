import Verif.Panel.GridModel
import Verif.Panel.History

namespace IMT.Panel

theorem ask_eq (lin : Solver) (s : Sys) (x y : ℝ) :
    s.ask lin x y = match s.fresh lin with
      | .error e => .error e
      | .ok t => .ok (t, velocity t.uinf t.alpha t.panels x y) := by
  unfold Sys.ask Sys.fresh
  split
  · cases s.solve lin <;> rfl
  · rfl

theorem mesh_get {α : Type} {gx gy : List ℝ} (d : α) (f : ℝ → ℝ → α) {i j : Nat} {x y : ℝ} (hx : gx[j]? = some x) (hy : gy[i]? = some y) :
    (mesh gx gy d f).get i j = f x y := by
  simp [mesh, hx, hy]

theorem gridRaw_ok {lin : Solver} {s t : Sys} {solids : List (ℝ → ℝ → Bool)} {remove : Bool} {junk : ℝ} {gx gy : List ℝ}
    {u v : Grid ℝ} (h : s.gridRaw lin solids remove junk gx gy = .ok (t, u, v)) :
    s.fresh lin = .ok t ∧ u = comp (velocity t.uinf t.alpha t.panels) Prod.fst solids remove junk gx gy ∧
      v = comp (velocity t.uinf t.alpha t.panels) Prod.snd solids remove junk gx gy := by
  unfold Sys.gridRaw at h
  split at h
  · cases h
  · rename_i t' ht
    simp only [Except.ok.injEq, Prod.mk.injEq] at h
    obtain ⟨rfl, rfl, rfl⟩ := h
    exact ⟨ht, rfl, rfl⟩

/-- C285: the velocity field on a grid shows, at each position `(x, y)` of the grid, the velocity one gets by asking the system at that
position; it is masked exactly at the positions inside a solid, when asked to. -/
theorem C285_grid (lin : Solver) (s t : Sys) (solids : List (ℝ → ℝ → Bool)) (remove : Bool) (junk : ℝ) (gx gy : List ℝ) (f : RVF)
    (h : s.grid lin solids remove junk gx gy = .ok (t, f)) :
    f.ax = gx ∧ f.ay = gy ∧ f.cx.nx = gx.length ∧ f.cx.ny = gy.length ∧ f.cy.nx = gx.length ∧ f.cy.ny = gy.length ∧
    f.mask.nx = gx.length ∧ f.mask.ny = gy.length ∧
    ∀ (i j : Nat) (x y : ℝ), gx[i]? = some x → gy[j]? = some y →
      (f.mask.get i j = true ↔ remove = true ∧ ∃ inside ∈ solids, inside x y = true) ∧
      (f.mask.get i j = false → s.ask lin x y = .ok (t, (f.cx.get i j, f.cy.get i j))) := by
  unfold Sys.grid at h
  split at h
  · cases h
  · rename_i t' u v hraw
    simp only [Except.ok.injEq, Prod.mk.injEq] at h
    obtain ⟨rfl, rfl⟩ := h
    obtain ⟨ht, rfl, rfl⟩ := gridRaw_ok hraw
    refine ⟨rfl, rfl, rfl, rfl, rfl, rfl, rfl, rfl, fun i j x y hx hy => ?_⟩
    have hm : (transp (solidMask solids remove gx gy)).get i j = (remove && inSolid solids x y) := by
      simp only [transp, solidMask]
      rw [mesh_get _ _ hx hy]
    refine ⟨?_, fun h0 => ?_⟩
    · rw [hm, Bool.and_eq_true, inSolid, List.any_eq_true]
    · rw [hm] at h0
      rw [ask_eq, ht]
      simp only [transp, comp]
      rw [mesh_get _ _ hx hy, mesh_get _ _ hx hy, h0]
      rfl

/-- C285 (failure): the field is refused exactly when the sources cannot be computed, as any velocity would be. -/
theorem C285_refused (lin : Solver) (s : Sys) (solids : List (ℝ → ℝ → Bool)) (remove : Bool) (junk : ℝ) (gx gy : List ℝ) (e : Err) :
    s.grid lin solids remove junk gx gy = .error e ↔ ∀ x y, s.ask lin x y = .error e := by
  unfold Sys.grid Sys.gridRaw
  constructor
  · intro h x y
    rw [ask_eq]
    cases hf : s.fresh lin with
    | error e' => rw [hf] at h; simpa using h
    | ok t => rw [hf] at h; simp at h
  · intro h
    have := h 0 0
    rw [ask_eq] at this
    cases hf : s.fresh lin with
    | error e' => rw [hf] at this; simpa using this
    | ok t => rw [hf] at this; simp at this

/-- C285 is violated by `raw=True`: the arrays have one row per ordinate and one column per abscissa, unlike the components of every
field; reading them like a field gives the velocity of the position mirrored across the diagonal. -/
theorem C285_raw_violated (lin : Solver) (s t : Sys) (solids : List (ℝ → ℝ → Bool)) (junk : ℝ) (gx gy : List ℝ) (u v : Grid ℝ)
    (h : s.gridRaw lin solids false junk gx gy = .ok (t, u, v)) :
    u.nx = gy.length ∧ u.ny = gx.length ∧ ∀ (i j : Nat) (x y : ℝ), gx[j]? = some x → gy[i]? = some y →
      s.ask lin x y = .ok (t, (u.get i j, v.get i j)) := by
  obtain ⟨ht, rfl, rfl⟩ := gridRaw_ok h
  refine ⟨rfl, rfl, fun i j x y hx hy => ?_⟩
  rw [ask_eq, ht]
  simp only [comp]
  rw [mesh_get _ _ hx hy, mesh_get _ _ hx hy]
  rfl

/-- C285 is violated by `raw=True, remove_solid=True`: nothing tells the positions inside a solid, where the arrays hold whatever
was in memory. -/
theorem C285_junk_violated (lin : Solver) (s t : Sys) (solids : List (ℝ → ℝ → Bool)) (junk : ℝ) (gx gy : List ℝ) (u v : Grid ℝ)
    (h : s.gridRaw lin solids true junk gx gy = .ok (t, u, v)) (i j : Nat) (x y : ℝ) (hx : gx[j]? = some x) (hy : gy[i]? = some y)
    (inside : ℝ → ℝ → Bool) (hm : inside ∈ solids) (hin : inside x y = true) : u.get i j = junk ∧ v.get i j = junk := by
  obtain ⟨ht, rfl, rfl⟩ := gridRaw_ok h
  have : inSolid solids x y = true := List.any_eq_true.mpr ⟨inside, hm, hin⟩
  simp only [comp]
  rw [mesh_get _ _ hx hy, mesh_get _ _ hx hy, this]
  exact ⟨rfl, rfl⟩

/-- C285 (lines): removing the solids from a line masks exactly the points inside a solid; the other points keep their abscissa and
velocity. -/
theorem C285_line (u alpha : ℝ) (l : List Src) (solids : List (ℝ → ℝ → Bool)) (junk : ℝ) (a b : ℝ × ℝ) (res k : Nat) :
    ((onLineSolid (velocity u alpha l) solids junk a b res)[k]?).map Prod.fst = ((onLine u alpha l a b res)[k]?).map Prod.fst ∧
    ∀ (x y : ℝ), (linspace a.1 b.1 res)[k]? = some x → (linspace a.2 b.2 res)[k]? = some y →
      ∃ d w m, (onLineSolid (velocity u alpha l) solids junk a b res)[k]? = some (d, w, m) ∧
        (m = true ↔ ∃ inside ∈ solids, inside x y = true) ∧
        (m = false → (onLine u alpha l a b res)[k]? = some (d, w)) := by
  unfold onLineSolid onLine
  constructor
  · rw [List.getElem?_map, List.getElem?_map, Option.map_map, Option.map_map]; rfl
  · intro x y hx hy
    have hz : ((linspace a.1 b.1 res).zip (linspace a.2 b.2 res))[k]? = some (x, y) := by
      rw [List.getElem?_zip_eq_some]; exact ⟨hx, hy⟩
    refine ⟨_, _, _, by rw [List.getElem?_map, hz]; rfl, ?_, fun h0 => ?_⟩
    · simp only [inSolid, List.any_eq_true]
    · simp only at h0
      rw [List.getElem?_map, hz]
      simp only [Option.map_some, h0]
      rfl

/-- C285 (pressure): the pressure field has the axes and the mask of the velocity field and, at each cell, one minus the square of the
speed over the square of the free stream; for two profiles, the same at each point, masked where one of them is. -/
theorem C285_pressure (u : ℝ) (hu : u ≠ 0) (f : RVF) (px py : List (ℝ × ℝ × Bool)) :
    (pressureField u f).ax = f.ax ∧ (pressureField u f).ay = f.ay ∧ (pressureField u f).mask = f.mask ∧
    (∀ i j, u ^ 2 * (1 - (pressureField u f).val.get i j) = f.cx.get i j ^ 2 + f.cy.get i j ^ 2) ∧
    (px.length = py.length → (pressureProf u px py).length = px.length) ∧
    ∀ (k : Nat) (x vx vy y : ℝ) (m n : Bool), px[k]? = some (x, vx, m) → py[k]? = some (y, vy, n) →
      ∃ c o, (pressureProf u px py)[k]? = some (x, c, o) ∧ u ^ 2 * (1 - c) = vx ^ 2 + vy ^ 2 ∧
        (o = true ↔ m = true ∨ n = true) := by
  refine ⟨rfl, rfl, rfl, fun i j => ?_, fun h => by simp [pressureProf, h], fun k x vx vy y m n h1 h2 => ?_⟩
  · simp only [pressureField, cp]; field_simp; ring
  · refine ⟨cp u (vx, vy), m || n, by simp [pressureProf, List.getElem?_zipWith, h1, h2], ?_, by simp⟩
    simp only [cp]; field_simp; ring

/-- A free stream without objects on a grid of three by two: the hypotheses of the theorems are met. -/
example (lin : Solver) : ∃ t f, (Sys.new 2 0).grid lin [fun x _ => decide (x = 1)] true 0 [0, 1, 2] [5, 7] = .ok (t, f) ∧
    f.mask.get 1 0 = true ∧ f.mask.get 2 1 = false := by
  refine ⟨_, _, rfl, ?_, ?_⟩
  · simp [transp, solidMask, mesh, inSolid]
  · simp [transp, solidMask, mesh, inSolid]

end IMT.Panel
