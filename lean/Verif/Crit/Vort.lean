import Verif.Crit.LocalModel
import Verif.Treat.Grad

/-!
Properties C133 (vorticity and divergence) and C134 (identities of vector calculus).
-/

namespace IMT.Crit

open Treat

/-! ### lemmas -/

/-- A cell that is not masked is not touched by the filling. -/
theorem fill_cell (ipx ipy : Nat → Nat → Rat) {f : VF} {i j : Nat} {p : Rat × Rat} (h : f.cell i j = some p) :
    compX (fillV ipx ipy f) i j = some p.1 ∧ compY (fillV ipx ipy f) i j = some p.2 := by
  unfold VF.cell at h
  split at h
  · cases h
  · next hm =>
    simp only [compX, compY, fillV, Bool.false_eq_true, if_false, hm]
    split at h
    · next u v hu hv => cases h; exact ⟨hu, hv⟩
    · cases h

/-- Every cell has values after the filling. -/
theorem fill_some (ipx ipy : Nat → Nat → Rat) {f : VF} (hf : f.WF) {i j : Nat} (hi : i < f.ax.length) (hj : j < f.ay.length) :
    (∃ u, compX (fillV ipx ipy f) i j = some u) ∧ ∃ v, compY (fillV ipx ipy f) i j = some v := by
  simp only [compX, compY, fillV, Bool.false_eq_true, if_false]
  by_cases hm : f.mask.get i j = true
  · simp [hm]
  · simp only [hm, Bool.false_eq_true, if_false]
    constructor
    · cases hu : f.cx.get i j with
      | none => exact absurd (hf.nanx i j hi hj hu) hm
      | some u => exact ⟨u, rfl⟩
    · cases hu : f.cy.get i j with
      | none => exact absurd (hf.nany i j hi hj hu) hm
      | some u => exact ⟨u, rfl⟩

theorem vorticity_cells (ipx ipy : Nat → Nat → Rat) {f : VF} (hf : f.WF) (h2x : 2 ≤ f.ax.length) (h2y : 2 ≤ f.ay.length) :
    ∃ g, vorticity ipx ipy f = .ok g ∧ OnGrid g f ∧ g.uv = SF.unitSym (f.uv.div f.ux) ∧ ∀ i j, g.cell i j =
      (nanOp (fun a b => (a - b) / 2) (gradX f.ax (compY (fillV ipx ipy f)) i j) (gradY f.ay (compX (fillV ipx ipy f)) i j)).map
        (· * SF.unitNum (f.uv.div f.ux)) := by
  obtain ⟨g, e, w, a1, a2, a3, a4, a5, a6⟩ := gradField_ok (ux := f.ux) (uy := f.uy) (u := f.uv.div f.ux) hf.incx hf.incy h2x h2y
    (fun i j => nanOp (fun a b => (a - b) / 2) (gradX f.ax (compY (fillV ipx ipy f)) i j)
      (gradY f.ay (compX (fillV ipx ipy f)) i j)) (fillV ipx ipy f).mask.get
  refine ⟨g, by unfold vorticity; rw [if_neg (by omega)]; exact e, ⟨w, a1, a2, a3, a4⟩, a5, ?_⟩
  intro i j
  rw [a6]
  rfl

theorem divergence_cells (ipx ipy : Nat → Nat → Rat) {f : VF} (hf : f.WF) (h2x : 2 ≤ f.ax.length) (h2y : 2 ≤ f.ay.length) :
    ∃ g, divergence ipx ipy f = .ok g ∧ OnGrid g f ∧ g.uv = SF.unitSym (f.uv.div f.ux) ∧ ∀ i j, g.cell i j =
      (nanOp (fun a b => a + b) (gradX f.ax (compX (fillV ipx ipy f)) i j) (gradY f.ay (compY (fillV ipx ipy f)) i j)).map
        (· * SF.unitNum (f.uv.div f.ux)) := by
  obtain ⟨g, e, w, a1, a2, a3, a4, a5, a6⟩ := gradField_ok (ux := f.ux) (uy := f.uy) (u := f.uv.div f.ux) hf.incx hf.incy h2x h2y
    (fun i j => nanOp (fun a b => a + b) (gradX f.ax (compX (fillV ipx ipy f)) i j)
      (gradY f.ay (compY (fillV ipx ipy f)) i j)) (fillV ipx ipy f).mask.get
  refine ⟨g, by unfold divergence; rw [if_neg (by omega)]; exact e, ⟨w, a1, a2, a3, a4⟩, a5, ?_⟩
  intro i j
  rw [a6]
  rfl

/-! ### C133 -/

/-- C133: where the four neighbours of a point are not masked, the vorticity is half of the difference between the slope of Vy along x and
that of Vx along y, and the divergence the sum of the slope of Vx along x and of Vy along y, as physical quantities, for axes in the
same unit and evenly spaced.  They do not depend on the values interpolated at masked points.
Partial: half of the curl (`C133_half_violated`); axes in the same unit (`C133_unit_violated`); evenly spaced axes. -/
theorem C133_slopes_partial (ipx ipy : Nat → Nat → Rat) {f : VF} (hf : f.WF) (h2x : 2 ≤ f.ax.length) (h2y : 2 ≤ f.ay.length)
    (ex : Even f.ax) (ey : Even f.ay) (hu : f.ux = f.uy) :
    ∃ g d, vorticity ipx ipy f = .ok g ∧ divergence ipx ipy f = .ok d ∧ OnGrid g f ∧ OnGrid d f ∧
      g.uv.Compat (f.uv.div f.ux) ∧ d.uv.Compat (f.uv.div f.ux) ∧
      ∀ x y x0 x1 y0 y1, Around f.ax x x0 x1 → Around f.ay y y0 y1 →
        ∀ p q r s, f.Reads x0 y (some p) → f.Reads x1 y (some q) → f.Reads x y0 (some r) → f.Reads x y1 (some s) →
          ∃ w v, g.Reads x y (some w) ∧ d.Reads x y (some v) ∧
            w * g.uv.size = ((q.2 - p.2) / (x1 - x0) * (f.uv.size / f.ux.size) - (s.1 - r.1) / (y1 - y0) * (f.uv.size / f.uy.size)) / 2 ∧
            v * d.uv.size = (q.1 - p.1) / (x1 - x0) * (f.uv.size / f.ux.size) + (s.2 - r.2) / (y1 - y0) * (f.uv.size / f.uy.size) := by
  obtain ⟨g, eg, og, ug, cg⟩ := vorticity_cells ipx ipy hf h2x h2y
  obtain ⟨d, ed, od, ud, cd⟩ := divergence_cells ipx ipy hf h2x h2y
  refine ⟨g, d, eg, ed, og, od, ug ▸ unitSym_compat _, ud ▸ unitSym_compat _, ?_⟩
  intro x y x0 x1 y0 y1 hx hy p q r s rp rq rr rs
  obtain ⟨i, hi, hi0, hi1⟩ := hx
  obtain ⟨j, hj, hj0, hj1⟩ := hy
  have li := getElem?_some_lt hi
  have lj := getElem?_some_lt hj
  have kp := fill_cell ipx ipy (VF_cell_of hf rp hi0 hj)
  have kq := fill_cell ipx ipy (VF_cell_of hf rq hi1 hj)
  have kr := fill_cell ipx ipy (VF_cell_of hf rr hi hj0)
  have ks := fill_cell ipx ipy (VF_cell_of hf rs hi hj1)
  have gX1 : gradX f.ax (compX (fillV ipx ipy f)) i j = some ((q.1 - p.1) / (x1 - x0)) := by
    unfold gradX
    rw [diff1_slope ex h2x li hi0 hi1, kp.1, kq.1]; rfl
  have gX2 : gradX f.ax (compY (fillV ipx ipy f)) i j = some ((q.2 - p.2) / (x1 - x0)) := by
    unfold gradX
    rw [diff1_slope ex h2x li hi0 hi1, kp.2, kq.2]; rfl
  have gY1 : gradY f.ay (compX (fillV ipx ipy f)) i j = some ((s.1 - r.1) / (y1 - y0)) := by
    unfold gradY
    rw [diff1_slope ey h2y lj hj0 hj1, kr.1, ks.1]; rfl
  have gY2 : gradY f.ay (compY (fillV ipx ipy f)) i j = some ((s.2 - r.2) / (y1 - y0)) := by
    unfold gradY
    rw [diff1_slope ey h2y lj hj0 hj1, kr.2, ks.2]; rfl
  have on : ∀ {g : SF}, OnGrid g f → ∀ {v : Option Rat}, g.cell i j = v → g.Reads x y v := by
    intro g hg v hv
    exact ⟨i, j, by rw [hg.2.1]; exact hi, by rw [hg.2.2.1]; exact hj, hv⟩
  have c1 := cg i j
  have c2 := cd i j
  rw [gX2, gY1] at c1
  rw [gX1, gY2] at c2
  refine ⟨_, _, on og c1, on od c2, ?_, ?_⟩
  · rw [ug, unit_scale, ← hu]
    simp only [Sym.div]; ring
  · rw [ud, unit_scale, ← hu]
    simp only [Sym.div]; ring

/-- C133: nothing is masked in the results, the masked points of the field included. -/
theorem C133_never_masked (ipx ipy : Nat → Nat → Rat) {f : VF} (hf : f.WF) (h2x : 2 ≤ f.ax.length) (h2y : 2 ≤ f.ay.length) :
    ∃ g d, vorticity ipx ipy f = .ok g ∧ divergence ipx ipy f = .ok d ∧
      ∀ x ∈ f.ax, ∀ y ∈ f.ay, (∃ w, g.Reads x y (some w)) ∧ ∃ v, d.Reads x y (some v) := by
  obtain ⟨g, eg, og, ug, cg⟩ := vorticity_cells ipx ipy hf h2x h2y
  obtain ⟨d, ed, od, ud, cd⟩ := divergence_cells ipx ipy hf h2x h2y
  refine ⟨g, d, eg, ed, ?_⟩
  intro x hx y hy
  obtain ⟨i, hi⟩ := List.getElem?_of_mem hx
  obtain ⟨j, hj⟩ := List.getElem?_of_mem hy
  have li := getElem?_some_lt hi
  have lj := getElem?_some_lt hj
  have key : ∀ (n : Nat) (h : Rat) (c : Nat → Option Rat) (k : Nat), 2 ≤ n → k < n → (∀ m, m < n → ∃ u, c m = some u) →
      ∃ u, diff1 n h c k = some u := by
    intro n h c k h2 hk hc
    unfold diff1
    split
    · obtain ⟨a, ha⟩ := hc 0 (by omega); obtain ⟨b, hb⟩ := hc 1 (by omega); rw [ha, hb]; exact ⟨_, rfl⟩
    · split
      · obtain ⟨a, ha⟩ := hc (n - 2) (by omega); obtain ⟨b, hb⟩ := hc (n - 1) (by omega); rw [ha, hb]; exact ⟨_, rfl⟩
      · obtain ⟨a, ha⟩ := hc (k - 1) (by omega); obtain ⟨b, hb⟩ := hc (k + 1) (by omega); rw [ha, hb]; exact ⟨_, rfl⟩
  obtain ⟨a1, h1⟩ := key f.ax.length (step f.ax) (fun k => compX (fillV ipx ipy f) k j) i h2x li fun m hm => (fill_some ipx ipy hf hm lj).1
  obtain ⟨a2, h2⟩ := key f.ax.length (step f.ax) (fun k => compY (fillV ipx ipy f) k j) i h2x li fun m hm => (fill_some ipx ipy hf hm lj).2
  obtain ⟨a3, h3⟩ := key f.ay.length (step f.ay) (fun k => compX (fillV ipx ipy f) i k) j h2y lj fun m hm => (fill_some ipx ipy hf li hm).1
  obtain ⟨a4, h4⟩ := key f.ay.length (step f.ay) (fun k => compY (fillV ipx ipy f) i k) j h2y lj fun m hm => (fill_some ipx ipy hf li hm).2
  have c1 := cg i j
  have c2 := cd i j
  unfold gradX gradY at c1 c2
  rw [h2, h3] at c1
  rw [h1, h4] at c2
  exact ⟨⟨_, i, j, by rw [og.2.1]; exact hi, by rw [og.2.2.1]; exact hj, c1⟩,
    ⟨_, i, j, by rw [od.2.1]; exact hi, by rw [od.2.2.1]; exact hj, c2⟩⟩

/-- C133 fails for the vorticity: it is documented as the z component of the vorticity, that is the curl of the velocity; at every point
where the curl is not zero, the value returned is another one. -/
theorem C133_half_violated (ipx ipy : Nat → Nat → Rat) {f : VF} (hf : f.WF) (h2x : 2 ≤ f.ax.length) (h2y : 2 ≤ f.ay.length)
    (ex : Even f.ax) (ey : Even f.ay) (hu : f.ux = f.uy) :
    ∃ g, vorticity ipx ipy f = .ok g ∧ ∀ x y x0 x1 y0 y1, Around f.ax x x0 x1 → Around f.ay y y0 y1 →
      ∀ p q r s, f.Reads x0 y (some p) → f.Reads x1 y (some q) → f.Reads x y0 (some r) → f.Reads x y1 (some s) →
        (q.2 - p.2) / (x1 - x0) * (f.uv.size / f.ux.size) - (s.1 - r.1) / (y1 - y0) * (f.uv.size / f.uy.size) ≠ 0 →
        ∃ w, g.Reads x y (some w) ∧
          w * g.uv.size ≠ (q.2 - p.2) / (x1 - x0) * (f.uv.size / f.ux.size) - (s.1 - r.1) / (y1 - y0) * (f.uv.size / f.uy.size) := by
  obtain ⟨g, d, eg, _, _, _, _, _, key⟩ := C133_slopes_partial ipx ipy hf h2x h2y ex ey hu
  refine ⟨g, eg, ?_⟩
  intro x y x0 x1 y0 y1 hx hy p q r s rp rq rr rs hne
  obtain ⟨w, v, rw', _, ew, _⟩ := key x y x0 x1 y0 y1 hx hy p q r s rp rq rr rs
  refine ⟨w, rw', ?_⟩
  rw [ew]
  intro h
  apply hne
  linarith

/-- C133 fails for axes in different units: everything is divided by the unit of x.  The value returned is the half curl of the field
only where Vx does not change along y. -/
theorem C133_unit_violated (ipx ipy : Nat → Nat → Rat) {f : VF} (hf : f.WF) (h2x : 2 ≤ f.ax.length) (h2y : 2 ≤ f.ay.length)
    (ex : Even f.ax) (ey : Even f.ay) (pv : f.uv.size ≠ 0) (px : f.ux.size ≠ 0) (py : f.uy.size ≠ 0) (hu : f.ux.size ≠ f.uy.size) :
    ∃ g, vorticity ipx ipy f = .ok g ∧ ∀ x y x0 x1 y0 y1, Around f.ax x x0 x1 → Around f.ay y y0 y1 →
      ∀ p q r s, f.Reads x0 y (some p) → f.Reads x1 y (some q) → f.Reads x y0 (some r) → f.Reads x y1 (some s) → s.1 ≠ r.1 →
        ∃ w, g.Reads x y (some w) ∧
          w * g.uv.size ≠ ((q.2 - p.2) / (x1 - x0) * (f.uv.size / f.ux.size) - (s.1 - r.1) / (y1 - y0) * (f.uv.size / f.uy.size)) / 2 := by
  obtain ⟨g, eg, og, ug, cg⟩ := vorticity_cells ipx ipy hf h2x h2y
  refine ⟨g, eg, ?_⟩
  intro x y x0 x1 y0 y1 hx hy p q r s rp rq rr rs hne
  have hlt := around_lt hf.incy h2y hy
  obtain ⟨i, hi, hi0, hi1⟩ := hx
  obtain ⟨j, hj, hj0, hj1⟩ := hy
  have li := getElem?_some_lt hi
  have lj := getElem?_some_lt hj
  have kp := fill_cell ipx ipy (VF_cell_of hf rp hi0 hj)
  have kq := fill_cell ipx ipy (VF_cell_of hf rq hi1 hj)
  have kr := fill_cell ipx ipy (VF_cell_of hf rr hi hj0)
  have ks := fill_cell ipx ipy (VF_cell_of hf rs hi hj1)
  have gX2 : gradX f.ax (compY (fillV ipx ipy f)) i j = some ((q.2 - p.2) / (x1 - x0)) := by
    unfold gradX
    rw [diff1_slope ex h2x li hi0 hi1, kp.2, kq.2]; rfl
  have gY1 : gradY f.ay (compX (fillV ipx ipy f)) i j = some ((s.1 - r.1) / (y1 - y0)) := by
    unfold gradY
    rw [diff1_slope ey h2y lj hj0 hj1, kr.1, ks.1]; rfl
  have c1 := cg i j
  rw [gX2, gY1] at c1
  refine ⟨_, ⟨i, j, by rw [og.2.1]; exact hi, by rw [og.2.2.1]; exact hj, c1⟩, ?_⟩
  rw [ug, unit_scale]
  simp only [Sym.div]
  intro h
  have h1 : (s.1 - r.1) / (y1 - y0) * (f.uv.size / f.ux.size) = (s.1 - r.1) / (y1 - y0) * (f.uv.size / f.uy.size) := by linarith
  have h2 : (s.1 - r.1) / (y1 - y0) ≠ 0 := div_ne_zero (sub_ne_zero.mpr hne) (by linarith)
  have h3 := mul_left_cancel₀ h2 h1
  rw [div_eq_div_iff px py] at h3
  exact hu (mul_left_cancel₀ pv h3).symm

/-! ### C134 -/

/-- The line of differences, without masks: the neighbours used and the divisor. -/
def lo (n i : Nat) : Nat := if i = 0 then 0 else if i = n - 1 then n - 2 else i - 1
def hi (n i : Nat) : Nat := if i = 0 then 1 else if i = n - 1 then n - 1 else i + 1
def den (n : Nat) (h : Rat) (i : Nat) : Rat := if i = 0 then h else if i = n - 1 then h else 2 * h

theorem diff1_eq (n : Nat) (h : Rat) (g : Nat → Option Rat) (i : Nat) :
    diff1 n h g i = nanOp (fun a b => (b - a) / den n h i) (g (lo n i)) (g (hi n i)) := by
  unfold diff1 lo hi den
  split
  · rfl
  · split <;> rfl

theorem lohi_lt {n i : Nat} (h2 : 2 ≤ n) (hi' : i < n) : lo n i < n ∧ hi n i < n := by
  unfold lo hi
  constructor
  · split
    · omega
    · split <;> omega
  · split
    · omega
    · split <;> omega

/-- A field with no masked point. -/
def Full (f : VF) (u v : Nat → Nat → Rat) : Prop :=
  ∀ i j, i < f.ax.length → j < f.ay.length → f.mask.get i j = false ∧ f.cx.get i j = some (u i j) ∧ f.cy.get i j = some (v i j)

theorem full_comp (ipx ipy : Nat → Nat → Rat) {f : VF} {u v : Nat → Nat → Rat} (h : Full f u v) {i j : Nat} (hi : i < f.ax.length)
    (hj : j < f.ay.length) : compX (fillV ipx ipy f) i j = some (u i j) ∧ compY (fillV ipx ipy f) i j = some (v i j) := by
  obtain ⟨h1, h2, h3⟩ := h i j hi hj
  simp [compX, compY, fillV, h1, h2, h3]

theorem full_gradX (ipx ipy : Nat → Nat → Rat) {f : VF} {u v : Nat → Nat → Rat} (h : Full f u v) (h2x : 2 ≤ f.ax.length) {i j : Nat}
    (hi' : i < f.ax.length) (hj : j < f.ay.length) :
    gradX f.ax (compX (fillV ipx ipy f)) i j = some ((u (hi f.ax.length i) j - u (lo f.ax.length i) j) / den f.ax.length (step f.ax) i) ∧
    gradX f.ax (compY (fillV ipx ipy f)) i j = some ((v (hi f.ax.length i) j - v (lo f.ax.length i) j) / den f.ax.length (step f.ax) i) := by
  obtain ⟨a, b⟩ := lohi_lt h2x hi'
  have e1 := full_comp ipx ipy h a hj
  have e2 := full_comp ipx ipy h b hj
  unfold gradX
  rw [diff1_eq, diff1_eq, e1.1, e2.1, e1.2, e2.2]
  exact ⟨rfl, rfl⟩

theorem full_gradY (ipx ipy : Nat → Nat → Rat) {f : VF} {u v : Nat → Nat → Rat} (h : Full f u v) (h2y : 2 ≤ f.ay.length) {i j : Nat}
    (hi' : i < f.ax.length) (hj : j < f.ay.length) :
    gradY f.ay (compX (fillV ipx ipy f)) i j = some ((u i (hi f.ay.length j) - u i (lo f.ay.length j)) / den f.ay.length (step f.ay) j) ∧
    gradY f.ay (compY (fillV ipx ipy f)) i j = some ((v i (hi f.ay.length j) - v i (lo f.ay.length j)) / den f.ay.length (step f.ay) j) := by
  obtain ⟨a, b⟩ := lohi_lt h2y hj
  have e1 := full_comp ipx ipy h hi' a
  have e2 := full_comp ipx ipy h hi' b
  unfold gradY
  rw [diff1_eq, diff1_eq, e1.1, e2.1, e1.2, e2.2]
  exact ⟨rfl, rfl⟩

/-- C134: the vorticity of a gradient is zero: if the components of the field are the numerical derivatives (as `get_gradients` gives
them) of any scalar `phi` along x and y, the vorticity is zero at every point, borders included, on any axes. -/
theorem C134_curl_of_gradient (ipx ipy : Nat → Nat → Rat) {f : VF} (hf : f.WF) (h2x : 2 ≤ f.ax.length) (h2y : 2 ≤ f.ay.length)
    (phi : Nat → Nat → Rat) {u v : Nat → Nat → Rat} (h : Full f u v)
    (hu : ∀ i j, i < f.ax.length → j < f.ay.length → gradX f.ax (fun a b => some (phi a b)) i j = some (u i j))
    (hv : ∀ i j, i < f.ax.length → j < f.ay.length → gradY f.ay (fun a b => some (phi a b)) i j = some (v i j)) :
    ∃ g, vorticity ipx ipy f = .ok g ∧ ∀ x ∈ f.ax, ∀ y ∈ f.ay, g.Reads x y (some 0) := by
  obtain ⟨g, eg, og, ug, cg⟩ := vorticity_cells ipx ipy hf h2x h2y
  refine ⟨g, eg, ?_⟩
  intro x hx y hy
  obtain ⟨i, hi'⟩ := List.getElem?_of_mem hx
  obtain ⟨j, hj⟩ := List.getElem?_of_mem hy
  have li := getElem?_some_lt hi'
  have lj := getElem?_some_lt hj
  refine ⟨i, j, by rw [og.2.1]; exact hi', by rw [og.2.2.1]; exact hj, ?_⟩
  obtain ⟨a, b⟩ := lohi_lt h2x li
  obtain ⟨c, d⟩ := lohi_lt h2y lj
  have hu' : ∀ {i j}, i < f.ax.length → j < f.ay.length →
      u i j = (phi (hi f.ax.length i) j - phi (lo f.ax.length i) j) / den f.ax.length (step f.ax) i := by
    intro i j h1 h2
    have := hu i j h1 h2
    unfold gradX at this
    rw [diff1_eq] at this
    exact (Option.some.inj this).symm
  have hv' : ∀ {i j}, i < f.ax.length → j < f.ay.length →
      v i j = (phi i (hi f.ay.length j) - phi i (lo f.ay.length j)) / den f.ay.length (step f.ay) j := by
    intro i j h1 h2
    have := hv i j h1 h2
    unfold gradY at this
    rw [diff1_eq] at this
    exact (Option.some.inj this).symm
  rw [cg, (full_gradX ipx ipy h h2x li lj).2, (full_gradY ipx ipy h h2y li lj).1, hv' b lj, hv' a lj, hu' li d, hu' li c]
  simp only [nanOp, Option.map_some, Option.some.injEq]
  ring

/-- C134: a uniform flow added to a field changes neither its vorticity nor its divergence. -/
theorem C134_galilean (ipx ipy : Nat → Nat → Rat) {f f' : VF} (hf : f.WF) (hf' : f'.WF) (h2x : 2 ≤ f.ax.length) (h2y : 2 ≤ f.ay.length)
    (ex : f'.ax = f.ax) (ey : f'.ay = f.ay) (eux : f'.ux = f.ux) (euv : f'.uv = f.uv) {u v : Nat → Nat → Rat} (a b : Rat)
    (h : Full f u v) (h' : Full f' (fun i j => u i j + a) (fun i j => v i j + b)) :
    ∃ g d g' d', vorticity ipx ipy f = .ok g ∧ divergence ipx ipy f = .ok d ∧ vorticity ipx ipy f' = .ok g' ∧ divergence ipx ipy f' = .ok d' ∧
      g'.uv = g.uv ∧ d'.uv = d.uv ∧
      ∀ x ∈ f.ax, ∀ y ∈ f.ay, ∃ w k, g.Reads x y (some w) ∧ g'.Reads x y (some w) ∧ d.Reads x y (some k) ∧ d'.Reads x y (some k) := by
  obtain ⟨g, eg, og, ug, cg⟩ := vorticity_cells ipx ipy hf h2x h2y
  obtain ⟨d, ed, od, ud, cd⟩ := divergence_cells ipx ipy hf h2x h2y
  obtain ⟨g', eg', og', ug', cg'⟩ := vorticity_cells ipx ipy hf' (by rw [ex]; exact h2x) (by rw [ey]; exact h2y)
  obtain ⟨d', ed', od', ud', cd'⟩ := divergence_cells ipx ipy hf' (by rw [ex]; exact h2x) (by rw [ey]; exact h2y)
  refine ⟨g, d, g', d', eg, ed, eg', ed', by rw [ug, ug', eux, euv], by rw [ud, ud', eux, euv], ?_⟩
  intro x hx y hy
  obtain ⟨i, hi'⟩ := List.getElem?_of_mem hx
  obtain ⟨j, hj⟩ := List.getElem?_of_mem hy
  have li := getElem?_some_lt hi'
  have lj := getElem?_some_lt hj
  have c1 := cg i j
  have c2 := cd i j
  have c3 := cg' i j
  have c4 := cd' i j
  rw [(full_gradX ipx ipy h h2x li lj).2, (full_gradY ipx ipy h h2y li lj).1] at c1
  rw [(full_gradX ipx ipy h h2x li lj).1, (full_gradY ipx ipy h h2y li lj).2] at c2
  have q1 := full_gradX ipx ipy h' (by rw [ex]; exact h2x) (i := i) (j := j) (by rw [ex]; exact li) (by rw [ey]; exact lj)
  have q2 := full_gradY ipx ipy h' (by rw [ey]; exact h2y) (i := i) (j := j) (by rw [ex]; exact li) (by rw [ey]; exact lj)
  rw [q1.2, q2.1] at c3
  rw [q1.1, q2.2] at c4
  rw [ex, ey] at c3 c4
  rw [add_sub_add_right_eq_sub, add_sub_add_right_eq_sub, eux, euv] at c3 c4
  refine ⟨_, _, ⟨i, j, by rw [og.2.1]; exact hi', by rw [og.2.2.1]; exact hj, c1⟩,
    ⟨i, j, by rw [og'.2.1, ex]; exact hi', by rw [og'.2.2.1, ey]; exact hj, c3⟩,
    ⟨i, j, by rw [od.2.1]; exact hi', by rw [od.2.2.1]; exact hj, c2⟩,
    ⟨i, j, by rw [od'.2.1, ex]; exact hi', by rw [od'.2.2.1, ey]; exact hj, c4⟩⟩

/-- C134: the divergence of a field turned by a quarter turn, `(-Vy, Vx)`, is minus twice its vorticity. -/
theorem C134_turned (ipx ipy : Nat → Nat → Rat) {f f' : VF} (hf : f.WF) (hf' : f'.WF) (h2x : 2 ≤ f.ax.length) (h2y : 2 ≤ f.ay.length)
    (ex : f'.ax = f.ax) (ey : f'.ay = f.ay) (eux : f'.ux = f.ux) (euv : f'.uv = f.uv) {u v : Nat → Nat → Rat}
    (h : Full f u v) (h' : Full f' (fun i j => -v i j) u) :
    ∃ g d, vorticity ipx ipy f = .ok g ∧ divergence ipx ipy f' = .ok d ∧ d.uv = g.uv ∧
      ∀ x ∈ f.ax, ∀ y ∈ f.ay, ∃ w, g.Reads x y (some w) ∧ d.Reads x y (some (-2 * w)) := by
  obtain ⟨g, eg, og, ug, cg⟩ := vorticity_cells ipx ipy hf h2x h2y
  obtain ⟨d, ed, od, ud, cd⟩ := divergence_cells ipx ipy hf' (by rw [ex]; exact h2x) (by rw [ey]; exact h2y)
  refine ⟨g, d, eg, ed, by rw [ug, ud, eux, euv], ?_⟩
  intro x hx y hy
  obtain ⟨i, hi'⟩ := List.getElem?_of_mem hx
  obtain ⟨j, hj⟩ := List.getElem?_of_mem hy
  have li := getElem?_some_lt hi'
  have lj := getElem?_some_lt hj
  have c1 := cg i j
  have c2 := cd i j
  rw [(full_gradX ipx ipy h h2x li lj).2, (full_gradY ipx ipy h h2y li lj).1] at c1
  have q1 := full_gradX ipx ipy h' (by rw [ex]; exact h2x) (i := i) (j := j) (by rw [ex]; exact li) (by rw [ey]; exact lj)
  have q2 := full_gradY ipx ipy h' (by rw [ey]; exact h2y) (i := i) (j := j) (by rw [ex]; exact li) (by rw [ey]; exact lj)
  rw [q1.1, q2.2, ex, ey, eux, euv] at c2
  refine ⟨_, ⟨i, j, by rw [og.2.1]; exact hi', by rw [og.2.2.1]; exact hj, c1⟩,
    ⟨i, j, by rw [od.2.1, ex]; exact hi', by rw [od.2.2.1, ey]; exact hj, ?_⟩⟩
  rw [c2]
  simp only [nanOp, Option.map_some, Option.some.injEq]
  ring

/-! ### cases -/

/-- `Vx = 3 x + y`, `Vy = x - 7 y` in m/s on axes in mm: the curl is zero, the divergence `-4` per ms. -/
example : (match vorticity (fun _ _ => 0) (fun _ _ => 0) sampleV, divergence (fun _ _ => 0) (fun _ _ => 0) sampleV with
    | .ok g, .ok d => [g.cell 0 0, g.cell 1 1, d.cell 2 2, d.cell 1 0]
    | _, _ => []) = ([some 0, some 0, some (-4), some (-4)] : List (Option Rat)) := by decide +kernel

/-- A rotation at 5 rad per unit of time, with a masked point: away from it, 5 instead of the curl, 10. -/
def spinV : VF :=
  { ax := [0, 1, 2, 3, 4], ay := [0, 1, 2]
    cx := ⟨5, 3, fun i j => if i = 0 ∧ j = 0 then none else some (-5 * j)⟩
    cy := ⟨5, 3, fun i j => if i = 0 ∧ j = 0 then none else some (5 * i)⟩
    mask := ⟨5, 3, fun i j => i == 0 && j == 0⟩, ux := Sym.m, uy := Sym.m, uv := Sym.m.div Sym.s }

example : (match vorticity (fun _ _ => 0) (fun _ _ => 0) spinV with
    | .ok g => [g.cell 3 1, g.cell 4 2, g.cell 2 0]
    | _ => []) = ([some 5, some 5, some 5] : List (Option Rat)) := by decide +kernel

end IMT.Crit
