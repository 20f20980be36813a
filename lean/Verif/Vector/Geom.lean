import Verif.Vector.Lemmas

/-! Properties C11, C106, C107, C108: scaling, rotating, cropping, moving and converting vector fields. -/

namespace IMT.VF
open SF (AxMap turn factor usym)

variable {f : VF}

/-- A vector field with one masked point. -/
def sample : VF where
  ax := [0, 1, 3]
  ay := [-1, 1/2]
  cx := ⟨3, 2, fun i j => if i = 0 ∧ j = 1 then none else some (10 * i + j)⟩
  cy := ⟨3, 2, fun i j => if i = 0 ∧ j = 1 then none else some (2 - i)⟩
  mask := ⟨3, 2, fun i j => i == 0 && j == 1⟩
  ux := Sym.mm
  uy := Sym.m
  uv := Sym.m.div Sym.s

theorem sample_WF : sample.WF := by
  refine ⟨by decide +kernel, by decide +kernel, by decide, by decide, rfl, rfl, rfl, rfl, rfl, rfl, ?_, ?_⟩
  all_goals
    intro i j _ _ h
    by_cases hc : i = 0 ∧ j = 1
    · simp [sample, hc]
    · simp only [sample, if_neg hc] at h; cases h

/-! ### C11 -/

/-- The sign of a scaling factor. -/
def sgn (q : Rat) : Rat := if q < 0 then -1 else 1

theorem scaleAxis_rev (l : List Rat) (u : Sym) (s : Option Unum) :
    (SF.scaleAxis l u s).2.2 = decide (factor s < 0) := by
  cases s with
  | none => simp only [SF.scaleAxis, factor]; decide +kernel
  | some s =>
    unfold SF.scaleAxis factor
    by_cases h : s.num < 0 <;> simp [h]

theorem scaleAxis_unit (l : List Rat) (u : Sym) (s : Option Unum) : (SF.scaleAxis l u s).2.1 = u.mul (usym s) := by
  cases s with
  | none => simp [SF.scaleAxis, usym, Sym.mul, Sym.one]
  | some s =>
    unfold SF.scaleAxis usym
    by_cases h : s.num < 0 <;> simp [h]

/-- The arrays of a scaled field. -/
theorem scale_arrays (hf : f.WF) (sx sy sv : Option Unum) :
    (f.scale sx sy sv).ax = (SF.scaleAxis f.ax f.ux sx).1 ∧ (f.scale sx sy sv).ay = (SF.scaleAxis f.ay f.uy sy).1 ∧
    (f.scale sx sy sv).mask = f.mask ∧
    (f.scale sx sy sv).cx.nx = f.ax.length ∧ (f.scale sx sy sv).cx.ny = f.ay.length ∧
    (f.scale sx sy sv).cy.nx = f.ax.length ∧ (f.scale sx sy sv).cy.ny = f.ay.length ∧
    (∀ i j, (f.scale sx sy sv).cx.get i j =
      (f.cx.get (SF.flipIdx (decide (factor sx < 0)) f.ax.length i) (SF.flipIdx (decide (factor sy < 0)) f.ay.length j)).map
        (fun v => sgn (factor sx) * (v * factor sv))) ∧
    (∀ i j, (f.scale sx sy sv).cy.get i j =
      (f.cy.get (SF.flipIdx (decide (factor sx < 0)) f.ax.length i) (SF.flipIdx (decide (factor sy < 0)) f.ay.length j)).map
        (fun v => sgn (factor sy) * (v * factor sv))) := by
  have key : ∀ k : VF, ∀ q : Rat, k.cx.nx = f.ax.length → k.cx.ny = f.ay.length → k.cy.nx = f.ax.length → k.cy.ny = f.ay.length →
      (∀ i j, k.cx.get i j = (f.cx.get i j).map (· * q)) → (∀ i j, k.cy.get i j = (f.cy.get i j).map (· * q)) →
      ∀ bx by' : Bool, ∀ tx ty : Rat, tx = (if bx then -1 else 1) → ty = (if by' then -1 else 1) →
      (k.reverse bx by').ax = k.ax ∧ (k.reverse bx by').ay = k.ay ∧ (k.reverse bx by').mask = k.mask ∧
      (k.reverse bx by').cx.nx = f.ax.length ∧ (k.reverse bx by').cx.ny = f.ay.length ∧
      (k.reverse bx by').cy.nx = f.ax.length ∧ (k.reverse bx by').cy.ny = f.ay.length ∧
      (∀ i j, (k.reverse bx by').cx.get i j =
        (f.cx.get (SF.flipIdx bx f.ax.length i) (SF.flipIdx by' f.ay.length j)).map (fun v => tx * (v * q))) ∧
      (∀ i j, (k.reverse bx by').cy.get i j =
        (f.cy.get (SF.flipIdx bx f.ax.length i) (SF.flipIdx by' f.ay.length j)).map (fun v => ty * (v * q))) := by
    intro k q h1 h2 h3 h4 h5 h6 bx by' tx ty e1 e2
    subst e1; subst e2
    cases bx <;> cases by' <;>
      simp [reverse, opp, Grid.map, Grid.flipX, Grid.flipY, SF.flipIdx, h1, h2, h3, h4, h5, h6, Option.map_map, Function.comp_def]
  have hs : ∀ q : Rat, sgn q = if decide (q < 0) = true then -1 else 1 := by intro q; simp [sgn]
  unfold scale
  rw [scaleAxis_rev, scaleAxis_rev]
  cases sv with
  | none =>
    refine key _ _ ?_ ?_ ?_ ?_ ?_ ?_ _ _ _ _ (hs _) (hs _)
    · exact hf.xx
    · exact hf.xy
    · exact hf.yx
    · exact hf.yy
    · intro i j; simp [scaleVals, factor]
    · intro i j; simp [scaleVals, factor]
  | some s =>
    refine key _ _ ?_ ?_ ?_ ?_ ?_ ?_ _ _ _ _ (hs _) (hs _)
    · exact hf.xx
    · exact hf.xy
    · exact hf.yx
    · exact hf.yy
    · intro i j; simp [scaleVals, factor, Grid.map]
    · intro i j; simp [scaleVals, factor, Grid.map]

/-- What scaling does to a vector: the value factor, and a change of sign of the component of a reversed axis. -/
def scaled (qx qy qv : Rat) (r : Option (Rat × Rat)) : Option (Rat × Rat) :=
  r.map fun w => (sgn qx * (w.1 * qv), sgn qy * (w.2 * qv))

/-- C11: scaling by positive factors, or of a field without masked point by any non-zero factors, shows the scaled vectors
at the scaled points (a negative factor on an axis mirrors the field: the component along this axis changes sign), in the
scaled units.  Missing: masked points under a negative factor (`C11_mask_violated`). -/
theorem C11_scale_partial (hf : f.WF) (sx sy sv : Option Unum) (hx : factor sx ≠ 0) (hy : factor sy ≠ 0)
    (h : (0 < factor sx ∧ 0 < factor sy) ∨ ∀ x y, ¬ f.Reads x y none) :
    (f.scale sx sy sv).WF ∧
    (∀ x' y' r', (f.scale sx sy sv).Reads x' y' r' ↔ ∃ x y r, f.Reads x y r ∧ x' = x * factor sx ∧ y' = y * factor sy ∧
      r' = scaled (factor sx) (factor sy) (factor sv) r) ∧
    (f.scale sx sy sv).ux = f.ux.mul (usym sx) ∧ (f.scale sx sy sv).uy = f.uy.mul (usym sy) ∧
    (f.scale sx sy sv).uv = f.uv.mul (usym sv) := by
  obtain ⟨e1, e2, e3, s1, s2, s3, s4, e4, e5⟩ := scale_arrays hf sx sy sv
  obtain ⟨ix, ax, -⟩ := SF.scaleAxis_spec hf.incx f.ux sx hx
  obtain ⟨iy, ay, -⟩ := SF.scaleAxis_spec hf.incy f.uy sy hy
  rw [scaleAxis_rev] at ax ay
  rw [← e1] at ix ax
  rw [← e2] at iy ay
  have hm : ∀ i j, i < f.ax.length → j < f.ay.length →
      f.mask.get i j = f.mask.get (SF.flipIdx (decide (factor sx < 0)) f.ax.length i) (SF.flipIdx (decide (factor sy < 0)) f.ay.length j) := by
    intro i j hi hj
    rcases h with h | h
    · simp [SF.flipIdx, not_lt.mpr h.1.le, not_lt.mpr h.2.le]
    · have hno : ∀ i j, i < f.ax.length → j < f.ay.length → f.mask.get i j = false := by
        intro i j hi hj
        by_contra hc
        have hc : f.mask.get i j = true := by simpa using hc
        exact h _ _ ⟨i, j, List.getElem?_eq_getElem hi, List.getElem?_eq_getElem hj, cell_masked hc⟩
      rw [hno i j hi hj, hno _ _ (ax.lt i hi) (ay.lt j hj)]
  have hc : ∀ i j, i < f.ax.length → j < f.ay.length → (f.scale sx sy sv).cell i j =
      scaled (factor sx) (factor sy) (factor sv)
        (f.cell (SF.flipIdx (decide (factor sx < 0)) f.ax.length i) (SF.flipIdx (decide (factor sy < 0)) f.ay.length j)) := by
    intro i j hi hj
    rcases hf.cell_cases (ax.lt i hi) (ay.lt j hj) with ⟨h1, h2⟩ | ⟨h1, u, v, h3, h4, h5⟩
    · rw [h2, cell_masked]
      · rfl
      · rw [e3, hm i j hi hj, h1]
    · rw [h5, cell_some (u := sgn (factor sx) * (u * factor sv)) (v := sgn (factor sy) * (v * factor sv))]
      · rfl
      · rw [e3, hm i j hi hj, h1]
      · rw [e4, h3]; rfl
      · rw [e5, h4]; rfl
  refine ⟨⟨ix, iy, ?_, ?_, ?_, ?_, ?_, ?_, ?_, ?_, ?_, ?_⟩, reads_axmap ax ay hc, ?_, ?_, ?_⟩
  · intro e; have := ax.len; rw [e] at this; exact hf.nex (List.length_eq_zero_iff.mp this.symm)
  · intro e; have := ay.len; rw [e] at this; exact hf.ney (List.length_eq_zero_iff.mp this.symm)
  · rw [s1, ax.len]
  · rw [s2, ay.len]
  · rw [s3, ax.len]
  · rw [s4, ay.len]
  · rw [e3, hf.mx, ax.len]
  · rw [e3, hf.my, ay.len]
  · intro i j hi hj hn
    rw [ax.len] at hi
    rw [ay.len] at hj
    rw [e4] at hn
    rw [e3, hm i j hi hj]
    exact hf.nanx _ _ (ax.lt i hi) (ay.lt j hj) (by simpa using hn)
  · intro i j hi hj hn
    rw [ax.len] at hi
    rw [ay.len] at hj
    rw [e5] at hn
    rw [e3, hm i j hi hj]
    exact hf.nany _ _ (ax.lt i hi) (ay.lt j hj) (by simpa using hn)
  · rw [← scaleAxis_unit f.ax]
    cases sv <;> simp only [scale, scaleVals, reverse] <;> split <;> (try rfl) <;> split <;> (try rfl) <;> split <;> rfl
  · rw [← scaleAxis_unit f.ay]
    cases sv <;> simp only [scale, scaleVals, reverse] <;> split <;> (try rfl) <;> split <;> (try rfl) <;> split <;> rfl
  · have h1 : f.uv.mul (usym none) = f.uv := by simp [usym, Sym.mul, Sym.one]
    cases sv with
    | none => rw [h1]; simp only [scale, scaleVals, reverse]; split <;> (try rfl) <;> split <;> (try rfl) <;> split <;> rfl
    | some s => simp only [scale, scaleVals, reverse, usym]; split <;> (try rfl) <;> split <;> (try rfl) <;> split <;> rfl

/-- C11 fails for every field with a valid point whose mirror image (same row, symmetric rank on the x axis) is masked:
after a negative scaling of x, the image of the valid point is masked, and the image of the masked point shows an unmasked
NaN. -/
theorem C11_mask_violated (hf : f.WF) {sx : Unum} (hx : sx.num < 0) {i j : Nat} (hi : i < f.ax.length) (hj : j < f.ay.length)
    {x y : Rat} {r : Rat × Rat} (ex : f.ax[i]? = some x) (ey : f.ay[j]? = some y) (hr : f.Reads x y (some r))
    (hmir : f.mask.get (f.ax.length - 1 - i) j = true ∧ f.cx.get (f.ax.length - 1 - i) j = none) :
    (f.scale (some sx) none none).Reads (x * sx.num) y none ∧ ¬ (f.scale (some sx) none none).WF := by
  obtain ⟨e1, e2, e3, s1, s2, s3, s4, e4, e5⟩ := scale_arrays hf (some sx) none none
  have hx' : factor (some sx) ≠ 0 := ne_of_lt hx
  obtain ⟨ix, ax, -⟩ := SF.scaleAxis_spec hf.incx f.ux (some sx) hx'
  rw [scaleAxis_rev, ← e1] at ax
  have hfl : ∀ k, SF.flipIdx (decide (factor (some sx) < 0)) f.ax.length k = f.ax.length - 1 - k := by
    intro k; simp [SF.flipIdx, factor, hx]
  have hfy : ∀ k, SF.flipIdx (decide (factor none < 0)) f.ay.length k = k := by
    intro k
    have : ¬ factor none < 0 := by decide +kernel
    simp [SF.flipIdx, this]
  have hay : (f.scale (some sx) none none).ay = f.ay := by rw [e2]; rfl
  constructor
  · refine ⟨f.ax.length - 1 - i, j, ?_, by rw [hay]; exact ey, ?_⟩
    · have := ax.from ex
      rw [hfl] at this
      exact this
    · apply cell_masked
      rw [e3]; exact hmir.1
  · intro w
    have := w.nanx i j (by rw [ax.len]; exact hi) (by rw [hay]; exact hj) (by rw [e4, hfl, hfy, hmir.2]; rfl)
    rw [e3] at this
    obtain ⟨i', j', hi', hj', hr'⟩ := hr
    obtain rfl := hf.incx.idx_inj' ex hi'
    obtain rfl := hf.incy.idx_inj' ey hj'
    rw [cell_masked this] at hr'
    cases hr'

example : ∃ r, sample.Reads 3 (1/2) (some r) := ⟨(21, 0), 2, 1, by decide +kernel, by decide +kernel, by decide +kernel⟩

example : (sample.scale (some ⟨-2, Sym.one⟩) none none).Reads (-6) (1/2) none ∧ ¬ (sample.scale (some ⟨-2, Sym.one⟩) none none).WF := by
  have := C11_mask_violated sample_WF (sx := ⟨-2, Sym.one⟩) (by decide +kernel) (i := 2) (j := 1) (x := 3) (y := 1/2)
    (r := (21, 0)) (by decide) (by decide) (by decide +kernel) (by decide +kernel)
    ⟨2, 1, by decide +kernel, by decide +kernel, by decide +kernel⟩ ⟨by decide +kernel, by decide +kernel⟩
  have e : (3 : Rat) * (-2) = -6 := by norm_num
  rw [← e]
  exact this

/-! ### C106 -/

/-- The field of the vectors turned by `k` quarter turns. -/
def turnVec (k : Int) (r : Option (Rat × Rat)) : Option (Rat × Rat) := r.map (turn k)

theorem lin_cell {ax ay : List Rat} {ux uy uv : Sym} {cx cy : Grid (Option Rat)} {m : Grid Bool} {c s : Rat}
    (i j i' j' : Nat) (h1 : cx.get i j = f.cx.get i' j')
    (h2 : cy.get i j = f.cy.get i' j') (h3 : m.get i j = f.mask.get i' j') :
    VF.cell ⟨ax, ay, lin c (-s) cx cy, lin c s cy cx, m, ux, uy, uv⟩ i j =
      (f.cell i' j').map fun w => (c * w.1 - s * w.2, c * w.2 + s * w.1) := by
  unfold cell
  simp only [lin, h1, h2, h3]
  by_cases h : f.mask.get i' j' = true
  · simp [h]
  · simp only [h, Bool.false_eq_true, if_false]
    cases f.cx.get i' j' <;> cases f.cy.get i' j' <;> simp [nanOp]
    ring

/-- C106: rotating by any multiple of 90 degrees moves every grid point and turns every vector by this angle, masked points
included, and exchanges the axis units for odd quarter turns. -/
theorem C106_rotate (hf : f.WF) (h2x : 2 ≤ f.ax.length) (h2y : 2 ≤ f.ay.length) (k : Int) :
    ∃ g, f.rotate (90 * k) = .ok g ∧ g.WF ∧
      (∀ x y r, f.Reads x y r ↔ g.Reads (turn k (x, y)).1 (turn k (x, y)).2 (turnVec k r)) ∧
      (∀ x' y' r', g.Reads x' y' r' → ∃ x y r, f.Reads x y r ∧ (x', y') = turn k (x, y) ∧ r' = turnVec k r) ∧
      g.uv = f.uv ∧ (g.ux, g.uy) = (if k % 2 = 0 then (f.ux, f.uy) else (f.uy, f.ux)) := by
  obtain ⟨e1, e2⟩ := SF.rot_cases k
  have hrot : f.rotate (90 * k) = .ok
      { ax := f.rotAx (90 * (k % 4)), ay := f.rotAy (90 * (k % 4))
        cx := lin (cosA (90 * (k % 4))) (-sinA (90 * (k % 4))) (rotGrid (90 * (k % 4)) f.cx) (rotGrid (90 * (k % 4)) f.cy)
        cy := lin (cosA (90 * (k % 4))) (sinA (90 * (k % 4))) (rotGrid (90 * (k % 4)) f.cy) (rotGrid (90 * (k % 4)) f.cx)
        mask := rotGrid (90 * (k % 4)) f.mask
        ux := if 90 * (k % 4) = 90 ∨ 90 * (k % 4) = 270 then f.uy else f.ux
        uy := if 90 * (k % 4) = 90 ∨ 90 * (k % 4) = 270 then f.ux else f.uy
        uv := f.uv } := by
    unfold rotate
    rw [e1, e2]
    rfl
  -- the two directions of the readings from an exact description
  have both : ∀ g : VF, (∀ x' y' r', g.Reads x' y' r' ↔ ∃ x y r, f.Reads x y r ∧ (x', y') = turn k (x, y) ∧ r' = turnVec k r) →
      (∀ x y r, f.Reads x y r ↔ g.Reads (turn k (x, y)).1 (turn k (x, y)).2 (turnVec k r)) ∧
      (∀ x' y' r', g.Reads x' y' r' → ∃ x y r, f.Reads x y r ∧ (x', y') = turn k (x, y) ∧ r' = turnVec k r) := by
    intro g hg
    refine ⟨fun x y r => ⟨fun h => (hg _ _ _).mpr ⟨x, y, r, h, rfl, rfl⟩, fun h => ?_⟩, fun x' y' r' h => (hg _ _ _).mp h⟩
    obtain ⟨x1, y1, r1, h1, h2, h3⟩ := (hg _ _ _).mp h
    have h2 := SF.turn_inj k h2
    simp only [Prod.mk.injEq] at h2
    obtain ⟨rfl, rfl⟩ := h2
    have : r = r1 := by
      cases r with
      | none => cases r1 with
        | none => rfl
        | some b => cases h3
      | some a => cases r1 with
        | none => cases h3
        | some b =>
          simp only [turnVec, Option.map_some, Option.some.injEq] at h3
          rw [SF.turn_inj k h3]
    rw [this]; exact h1
  have hk : k % 4 = 0 ∨ k % 4 = 1 ∨ k % 4 = 2 ∨ k % 4 = 3 := by omega
  rcases hk with hk | hk | hk | hk
  · have hk2 : k % 2 = 0 := by omega
    rw [hrot, hk]
    refine ⟨_, rfl, ?_, (and_assoc.mp ⟨both _ ?_, ?_⟩)⟩
    · refine ⟨?_, ?_, ?_, ?_, ?_, ?_, ?_, ?_, ?_, ?_, ?_, ?_⟩ <;>
        simp only [rotAx, rotAy, rotGrid, lin, mul_zero, if_true, SF.fixAxis_inc hf.incx, SF.fixAxis_inc hf.incy]
      · exact hf.incx
      · exact hf.incy
      · exact hf.nex
      · exact hf.ney
      · exact hf.xx
      · exact hf.xy
      · exact hf.yx
      · exact hf.yy
      · exact hf.mx
      · exact hf.my
      all_goals
        intro i j hi hj h
        cases hu : f.cx.get i j with
        | none => exact hf.nanx i j hi hj hu
        | some u => cases hv : f.cy.get i j with
          | none => exact hf.nany i j hi hj hv
          | some v => simp [hu, hv, nanOp] at h
    · intro x' y' r'
      refine (reads_axmap (f := f) (φx := fun c => c) (φy := fun c => c) (σx := fun i => i) (σy := fun j => j)
        (ψ := turnVec k) ?_ ?_ ?_ x' y' r').trans ?_
      · simp only [rotAx, mul_zero, if_true, SF.fixAxis_inc hf.incx]; exact AxMap.id _
      · simp only [rotAy, mul_zero, if_true, SF.fixAxis_inc hf.incy]; exact AxMap.id _
      · intro i j hi hj
        refine (lin_cell (f := f) (cx := rotGrid (90 * 0) f.cx) (cy := rotGrid (90 * 0) f.cy) (m := rotGrid (90 * 0) f.mask)
          i j i j rfl rfl rfl).trans ?_
        simp only [turnVec]
        congr 1; funext w; simp [turn, hk, cosA, sinA]
      · simp [turn, hk, Prod.ext_iff, and_assoc]
    · simp [hk2]
  · have hk2 : ¬ k % 2 = 0 := by omega
    rw [hrot, hk]
    refine ⟨_, rfl, ?_, (and_assoc.mp ⟨both _ ?_, ?_⟩)⟩
    · refine ⟨?_, ?_, ?_, ?_, ?_, ?_, ?_, ?_, ?_, ?_, ?_, ?_⟩ <;>
        simp [rotAx, rotAy, rotGrid, lin, SF.fixAxis_inc hf.incx, SF.fixAxis_rev hf.incy h2y, Grid.rot90, Grid.transpose, Grid.flipY]
      · have := hf.incy.reverse_neg; simpa using this
      · exact hf.incx
      · exact hf.ney
      · exact hf.nex
      · exact hf.xy
      · exact hf.xx
      · exact hf.yy
      · exact hf.yx
      · exact hf.my
      · exact hf.mx
      all_goals
        intro i j hi hj h
        rw [hf.xy, hf.yy] at h
        rw [hf.my]
        cases hu : f.cx.get j (f.ay.length - 1 - i) with
        | none => exact hf.nanx _ _ hj (by omega) hu
        | some u => cases hv : f.cy.get j (f.ay.length - 1 - i) with
          | none => exact hf.nany _ _ hj (by omega) hv
          | some v => simp [hu, hv, nanOp] at h
    · intro x' y' r'
      refine (reads_axswap (f := f) (φx := fun c => c) (φy := fun c => -c) (σx := fun i => i)
        (σy := fun j => f.ay.length - 1 - j) (ψ := turnVec k) ?_ ?_ ?_ x' y' r').trans ?_
      · simp only [rotAy]; norm_num; rw [SF.fixAxis_inc hf.incx]; exact AxMap.id _
      · simp only [rotAx]; norm_num; rw [SF.fixAxis_rev hf.incy h2y]; exact AxMap.mapRev _ _
      · intro i j hi hj
        rw [lin_cell (f := f) j i i (f.ay.length - 1 - j)]
        · simp only [turnVec]
          congr 1; funext w; simp [turn, hk, cosA, sinA]
        · simp [rotGrid, Grid.rot90, Grid.transpose, Grid.flipY, hf.xy]
        · simp [rotGrid, Grid.rot90, Grid.transpose, Grid.flipY, hf.yy]
        · simp [rotGrid, Grid.rot90, Grid.transpose, Grid.flipY, hf.my]
      · simp [turn, hk, Prod.ext_iff, and_assoc]
    · simp [hk2]
  · have hk2 : k % 2 = 0 := by omega
    rw [hrot, hk]
    refine ⟨_, rfl, ?_, (and_assoc.mp ⟨both _ ?_, ?_⟩)⟩
    · refine ⟨?_, ?_, ?_, ?_, ?_, ?_, ?_, ?_, ?_, ?_, ?_, ?_⟩ <;>
        simp [rotAx, rotAy, rotGrid, lin, SF.fixAxis_rev hf.incx h2x, SF.fixAxis_rev hf.incy h2y, Grid.rot180, Grid.flipX, Grid.flipY]
      · have := hf.incx.reverse_neg; simpa using this
      · have := hf.incy.reverse_neg; simpa using this
      · exact hf.nex
      · exact hf.ney
      · exact hf.xx
      · exact hf.xy
      · exact hf.yx
      · exact hf.yy
      · exact hf.mx
      · exact hf.my
      all_goals
        intro i j hi hj h
        rw [hf.xy, hf.yy, hf.xx, hf.yx] at h
        rw [hf.my, hf.mx]
        cases hu : f.cx.get (f.ax.length - 1 - i) (f.ay.length - 1 - j) with
        | none => exact hf.nanx _ _ (by omega) (by omega) hu
        | some u => cases hv : f.cy.get (f.ax.length - 1 - i) (f.ay.length - 1 - j) with
          | none => exact hf.nany _ _ (by omega) (by omega) hv
          | some v => simp [hu, hv, nanOp] at h
    · intro x' y' r'
      refine (reads_axmap (f := f) (φx := fun c => -c) (φy := fun c => -c) (σx := fun i => f.ax.length - 1 - i)
        (σy := fun j => f.ay.length - 1 - j) (ψ := turnVec k) ?_ ?_ ?_ x' y' r').trans ?_
      · simp only [rotAx]; norm_num; rw [SF.fixAxis_rev hf.incx h2x]; exact AxMap.mapRev _ _
      · simp only [rotAy]; norm_num; rw [SF.fixAxis_rev hf.incy h2y]; exact AxMap.mapRev _ _
      · intro i j hi hj
        rw [lin_cell (f := f) i j (f.ax.length - 1 - i) (f.ay.length - 1 - j)]
        · simp only [turnVec]
          congr 1; funext w; simp [turn, hk, cosA, sinA]
        · simp [rotGrid, Grid.rot180, Grid.flipX, Grid.flipY, hf.xx, hf.xy]
        · simp [rotGrid, Grid.rot180, Grid.flipX, Grid.flipY, hf.yx, hf.yy]
        · simp [rotGrid, Grid.rot180, Grid.flipX, Grid.flipY, hf.mx, hf.my]
      · simp [turn, hk, Prod.ext_iff, and_assoc]
    · simp [hk2]
  · have hk2 : ¬ k % 2 = 0 := by omega
    rw [hrot, hk]
    refine ⟨_, rfl, ?_, (and_assoc.mp ⟨both _ ?_, ?_⟩)⟩
    · refine ⟨?_, ?_, ?_, ?_, ?_, ?_, ?_, ?_, ?_, ?_, ?_, ?_⟩ <;>
        simp [rotAx, rotAy, rotGrid, lin, SF.fixAxis_rev hf.incx h2x, SF.fixAxis_inc hf.incy, Grid.rot270, Grid.transpose, Grid.flipY]
      · exact hf.incy
      · have := hf.incx.reverse_neg; simpa using this
      · exact hf.ney
      · exact hf.nex
      · exact hf.xy
      · exact hf.xx
      · exact hf.yy
      · exact hf.yx
      · exact hf.my
      · exact hf.mx
      all_goals
        intro i j hi hj h
        rw [hf.xx, hf.yx] at h
        rw [hf.mx]
        cases hu : f.cx.get (f.ax.length - 1 - j) i with
        | none => exact hf.nanx _ _ (by omega) hi hu
        | some u => cases hv : f.cy.get (f.ax.length - 1 - j) i with
          | none => exact hf.nany _ _ (by omega) hi hv
          | some v => simp [hu, hv, nanOp] at h
    · intro x' y' r'
      refine (reads_axswap (f := f) (φx := fun c => -c) (φy := fun c => c) (σx := fun i => f.ax.length - 1 - i)
        (σy := fun j => j) (ψ := turnVec k) ?_ ?_ ?_ x' y' r').trans ?_
      · simp only [rotAy]; norm_num; rw [SF.fixAxis_rev hf.incx h2x]; exact AxMap.mapRev _ _
      · simp only [rotAx]; norm_num; rw [SF.fixAxis_inc hf.incy]; exact AxMap.id _
      · intro i j hi hj
        rw [lin_cell (f := f) j i (f.ax.length - 1 - i) j]
        · simp only [turnVec]
          congr 1; funext w; simp [turn, hk, cosA, sinA]
        · simp [rotGrid, Grid.rot270, Grid.transpose, Grid.flipY, hf.xx]
        · simp [rotGrid, Grid.rot270, Grid.transpose, Grid.flipY, hf.yx]
        · simp [rotGrid, Grid.rot270, Grid.transpose, Grid.flipY, hf.mx]
      · simp [turn, hk, Prod.ext_iff, and_assoc]
    · simp [hk2]

/-- C106: other angles are refused. -/
theorem C106_refused (f : VF) {a : Int} (h : a % 90 ≠ 0) : f.rotate a = .error .valueError := by
  unfold rotate; rw [if_pos h]

example : (match sample.rotate (-90) with
    | .ok g => (g.ax, g.ay, g.cell 0 2, g.cell 1 2, g.cell 1 0)
    | .error _ => ([], [], none, none, none)) =
    (([-1, 1/2], [-3, -1, 0], some (2, -0), none, some (0, -21)) : List Rat × List Rat × Option (Rat × Rat) × Option (Rat × Rat) × Option (Rat × Rat)) := by
  decide +kernel

end IMT.VF
