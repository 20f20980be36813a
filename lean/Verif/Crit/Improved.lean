import Verif.Crit.ImprovedModel
import Verif.Crit.Local
import Verif.Treat.Shear

/-! Improved swirling strength: C362. -/

namespace IMT.Crit

/-! ### specification -/

/-- Specification: `r + i w`, with `0 < w`, is an eigenvalue of the gradient: a root of its characteristic polynomial, real and imaginary parts apart. -/
def Spirals (J : Jac ℝ) (r w : ℝ) : Prop :=
  0 < w ∧ r ^ 2 - w ^ 2 - (J.xx + J.yy) * r + (J.xx * J.yy - J.xy * J.yx) = 0 ∧ 2 * r * w - (J.xx + J.yy) * w = 0

theorem isSqrt_real : IsSqrt Real.sqrt := fun x hx => ⟨Real.sqrt_nonneg x, Real.sq_sqrt hx⟩

theorem spirals_unique {J : Jac ℝ} {r w r' w' : ℝ} (h : Spirals J r w) (h' : Spirals J r' w') : r = r' ∧ w = w' := by
  obtain ⟨h0, h1, h2⟩ := h
  obtain ⟨k0, k1, k2⟩ := h'
  have e : 2 * r = J.xx + J.yy := mul_right_cancel₀ h0.ne' (by linarith)
  have e' : 2 * r' = J.xx + J.yy := mul_right_cancel₀ k0.ne' (by linarith)
  have er : r = r' := by linarith
  subst er
  refine ⟨rfl, ?_⟩
  have : w ^ 2 = w' ^ 2 := by linarith
  exact (pow_left_inj₀ h0.le k0.le two_ne_zero).1 this

theorem discr_spirals {J : Jac ℝ} (h : ¬ 0 ≤ discr J) : Spirals J ((J.xx + J.yy) / 2) (Real.sqrt (-discr J) / 2) := by
  have h0 : 0 < -discr J := by linarith [not_le.1 h]
  refine ⟨div_pos (Real.sqrt_pos.2 h0) two_pos, ?_, by ring⟩
  rw [div_pow (Real.sqrt _), Real.sq_sqrt h0.le]
  unfold discr
  ring

/-! ### C362 -/

/-- C362 at one point: the value is the real part over the positive imaginary part of an eigenvalue of the gradient. -/
theorem C362_ratio (J : Jac ℝ) (v : ℝ) : improved J = some v ↔ ∃ r w, Spirals J r w ∧ v = r / w := by
  unfold improved
  by_cases h : 0 ≤ discr J
  · rw [if_pos h]
    refine ⟨fun e => (by cases e), ?_⟩
    rintro ⟨r, w, ⟨h0, h1, h2⟩, -⟩
    exfalso
    have e : 2 * r = J.xx + J.yy := mul_right_cancel₀ h0.ne' (by linarith)
    have : discr J = -(2 * w) ^ 2 := by
      unfold discr
      linear_combination (-4) * h1 + (2 * r - (J.xx + J.yy)) * e
    have hp : 0 < (2 * w) ^ 2 := by positivity
    linarith
  · rw [if_neg h, Option.some.injEq]
    constructor
    · rintro rfl
      exact ⟨_, _, discr_spirals h, rfl⟩
    · rintro ⟨r, w, hs, rfl⟩
      obtain ⟨e1, e2⟩ := spirals_unique hs (discr_spirals h)
      rw [e1, e2]

/-- C362 at one point: masked exactly where the gradient has a real eigenvalue. -/
theorem C362_masked (J : Jac ℝ) : improved J = none ↔ ∃ l, Eigen J.xx J.xy J.yx J.yy l := by
  rw [← discr_eigen isSqrt_real]
  unfold improved
  change _ ↔ 0 ≤ discr J
  by_cases h : 0 ≤ discr J <;> simp [h]

/-- C362: turning the axes does not change the value. -/
theorem C362_turned (J : Jac ℝ) {c s : ℝ} (h : c ^ 2 + s ^ 2 = 1) : improved (J.turn c s) = improved J := by
  have e1 : (J.turn c s).xx + (J.turn c s).yy = J.xx + J.yy := by
    unfold Jac.turn
    linear_combination (J.xx + J.yy) * h
  have e2 : discr (J.turn c s) = discr J := by
    have hd : ∀ M : Jac ℝ, discr M = (M.xx + M.yy) ^ 2 - 4 * (M.xx * M.yy - M.xy * M.yx) := fun M => by unfold discr; ring
    have hdet : (J.turn c s).xx * (J.turn c s).yy - (J.turn c s).xy * (J.turn c s).yx = J.xx * J.yy - J.xy * J.yx := by
      unfold Jac.turn
      linear_combination (J.xx * J.yy - J.xy * J.yx) * (c ^ 2 + s ^ 2 + 1) * h
    rw [hd, hd J, e1, hdet]
  unfold improved
  rw [e1, e2]

/-- C362: velocities `k` times larger do not change the value, nor the points that are masked; opposite velocities change its sign. -/
theorem C362_scaled (J : Jac ℝ) {k : ℝ} (hk : k ≠ 0) : improved (J.scale k) = (improved J).map fun v => if 0 < k then v else -v := by
  have e : discr (J.scale k) = k ^ 2 * discr J := by unfold discr Jac.scale; ring
  have hk2 : 0 < k ^ 2 := by positivity
  unfold improved
  rw [e]
  by_cases h : 0 ≤ discr J
  · rw [if_pos h, if_pos (mul_nonneg hk2.le h)]
    rfl
  · have hn : ¬ 0 ≤ k ^ 2 * discr J := fun h' => h (nonneg_of_mul_nonneg_right h' hk2)
    rw [if_neg h, if_neg hn, Option.map_some, Option.some.injEq, ← mul_neg, Real.sqrt_mul hk2.le, Real.sqrt_sq_eq_abs]
    have hs : Real.sqrt (-discr J) ≠ 0 := (Real.sqrt_pos.2 (by linarith [not_le.1 h])).ne'
    unfold Jac.scale
    by_cases hp : 0 < k
    · rw [if_pos hp, abs_of_pos hp]
      field_simp
    · rw [if_neg hp, abs_of_nonpos (not_lt.1 hp)]
      field_simp

/-- C362: without divergence the value is zero wherever it is shown. -/
theorem C362_incompressible (J : Jac ℝ) (h : J.xx + J.yy = 0) (v : ℝ) (hv : improved J = some v) : v = 0 := by
  unfold improved at hv
  by_cases hd : 0 ≤ discr J
  · rw [if_pos hd] at hv; cases hv
  · rw [if_neg hd, h] at hv
    simpa using hv.symm

/-! ### the fields -/

variable {f : VF} {fill : VF → Res VF}

theorem cells_ok : ∀ {l : List (Nat × Nat)} {r : List (Option ℝ)}, improvedCells f l = .ok r → r.length = l.length ∧
    ∀ (k : Nat) (p : Nat × Nat) (v : Option ℝ), l[k]? = some p → r[k]? = some v → improvedCell f p.1 p.2 = .ok v
  | [], r, h => by
    cases h
    exact ⟨rfl, fun k p v hk _ => by simp at hk⟩
  | p :: l, r, h => by
    simp only [improvedCells] at h
    cases hc : improvedCell f p.1 p.2 with
    | error e => rw [hc] at h; cases h
    | ok v =>
      simp only [hc] at h
      cases hr : improvedCells f l with
      | error e => rw [hr] at h; cases h
      | ok s =>
        simp only [hr] at h
        cases h
        obtain ⟨h1, h2⟩ := cells_ok hr
        refine ⟨by simp [h1], ?_⟩
        intro k q w hk hw
        cases k with
        | zero => simp only [List.getElem?_cons_zero, Option.some.injEq] at hk hw; subst hk; subst hw; exact hc
        | succ k => exact h2 k q w (by simpa using hk) (by simpa using hw)

theorem cells_total : ∀ {l : List (Nat × Nat)}, (∀ p ∈ l, ∃ v, improvedCell f p.1 p.2 = .ok v) → ∃ r, improvedCells f l = .ok r
  | [], _ => ⟨_, rfl⟩
  | p :: l, h => by
    obtain ⟨v, hv⟩ := h p List.mem_cons_self
    obtain ⟨r, hr⟩ := cells_total fun q hq => h q (List.mem_cons_of_mem _ hq)
    exact ⟨v :: r, by simp only [improvedCells, hv, hr]⟩

theorem cells_error : ∀ {l : List (Nat × Nat)}, (∃ p ∈ l, improvedCell f p.1 p.2 = .error .exception) → improvedCells f l = .error .exception
  | [], h => by obtain ⟨p, hp, -⟩ := h; cases hp
  | q :: l, h => by
    simp only [improvedCells]
    cases hq : improvedCell f q.1 q.2 with
    | error e =>
      unfold improvedCell at hq
      split at hq
      · cases hq
      · split at hq
        · cases hq; rfl
        · cases hq
    | ok v =>
      obtain ⟨p, hp, e⟩ := h
      rcases List.mem_cons.1 hp with rfl | hp
      · rw [e] at hq; cases hq
      · simp only [cells_error ⟨p, hp, e⟩]

theorem nodes_get (f : VF) {i j : Nat} (hi : i < f.ax.length) (hj : j < f.ay.length) : (gridNodes f)[i * f.ay.length + j]? = some (i, j) := by
  unfold gridNodes
  generalize f.ax.length = n at hi
  generalize f.ay.length = m at hj
  induction n with
  | zero => omega
  | succ n ih =>
    have hl : ∀ n, ((List.range n).flatMap fun i => (List.range m).map fun j => (i, j)).length = n * m := by
      intro n
      simp [List.length_flatMap]
    rw [List.range_succ, List.flatMap_append]
    rcases Nat.lt_or_ge i n with h | h
    · rw [List.getElem?_append_left, ih h]
      rw [hl]
      calc i * m + j < i * m + m := by omega
        _ = (i + 1) * m := by ring
        _ ≤ n * m := Nat.mul_le_mul_right _ h
    · have : i = n := by omega
      subst this
      rw [List.getElem?_append_right (by rw [hl]; omega), hl]
      simp [hj]

theorem nodes_mem {p : Nat × Nat} : p ∈ gridNodes f ↔ p.1 < f.ax.length ∧ p.2 < f.ay.length := by
  unfold gridNodes
  simp only [List.mem_flatMap, List.mem_range, List.mem_map]
  constructor
  · rintro ⟨i, hi, j, hj, rfl⟩; exact ⟨hi, hj⟩
  · rintro ⟨hi, hj⟩; exact ⟨p.1, hi, p.2, hj, rfl⟩

theorem cell_raw (hf : f.WF) {i j : Nat} {v : Rat × Rat} (hi : i < f.ax.length) (hj : j < f.ay.length) (h : f.cell i j = some v) :
    f.mask.get i j = false ∧ f.cx.get i j = some v.1 ∧ f.cy.get i j = some v.2 :=
  Treat.raw_cell hf (List.getElem?_eq_getElem hi) (List.getElem?_eq_getElem hj)
    ⟨i, j, List.getElem?_eq_getElem hi, List.getElem?_eq_getElem hj, h⟩

theorem jacAt_slopes (hf : f.WF) (hx : 2 ≤ f.ax.length) (hy : 2 ≤ f.ay.length) (ex : Treat.Even f.ax) (ey : Treat.Even f.ay) {i j : Nat}
    (hi : i < f.ax.length) (hj : j < f.ay.length) {x0 x1 y0 y1 : Rat} (hx0 : f.ax[i - 1]? = some x0) (hx1 : f.ax[min (i + 1) (f.ax.length - 1)]? = some x1)
    (hy0 : f.ay[j - 1]? = some y0) (hy1 : f.ay[min (j + 1) (f.ay.length - 1)]? = some y1) {p q s t : Rat × Rat}
    (hp : f.cell (i - 1) j = some p) (hq : f.cell (min (i + 1) (f.ax.length - 1)) j = some q) (hs : f.cell i (j - 1) = some s)
    (ht : f.cell i (min (j + 1) (f.ay.length - 1)) = some t) :
    jacAt f i j = some ⟨((q.1 - p.1) / (x1 - x0) : Rat), ((t.1 - s.1) / (y1 - y0) : Rat), ((q.2 - p.2) / (x1 - x0) : Rat), ((t.2 - s.2) / (y1 - y0) : Rat)⟩ := by
  have cp := cell_raw hf (by omega) hj hp
  have cq := cell_raw hf (by omega) hj hq
  have cs := cell_raw hf hi (by omega) hs
  have ct := cell_raw hf hi (by omega) ht
  unfold jacAt Treat.gradX Treat.gradY
  rw [Treat.diff1_slope ex hx hi hx0 hx1, Treat.diff1_slope ey hy hj hy0 hy1, Treat.diff1_slope ex hx hi hx0 hx1, Treat.diff1_slope ey hy hj hy0 hy1,
    cp.2.1, cp.2.2, cq.2.1, cq.2.2, cs.2.1, cs.2.2, ct.2.1, ct.2.2]
  rfl

/-- C362, for a field with nothing masked, on evenly spaced axes: there is a value or a mask for each node `i`, `j`, that of the gradient made of the slopes of
both components between the neighbours of the node (the node itself standing for a missing neighbour). -/
theorem C362_field_partial (hf : f.WF) (hx : 2 ≤ f.ax.length) (hy : 2 ≤ f.ay.length) (ex : Treat.Even f.ax) (ey : Treat.Even f.ay)
    (hm : ∀ x y, ¬ f.Reads x y none) (hfill : ∃ r, fill f = .ok r) :
    ∃ r, improvedField fill f = .ok r ∧ r.length = (gridNodes f).length ∧
      ∀ (i j : Nat) (x0 x1 y0 y1 : Rat) (p q s t : Rat × Rat), i < f.ax.length → j < f.ay.length →
        f.ax[i - 1]? = some x0 → f.ax[min (i + 1) (f.ax.length - 1)]? = some x1 → f.ay[j - 1]? = some y0 → f.ay[min (j + 1) (f.ay.length - 1)]? = some y1 →
        f.cell (i - 1) j = some p → f.cell (min (i + 1) (f.ax.length - 1)) j = some q → f.cell i (j - 1) = some s →
        f.cell i (min (j + 1) (f.ay.length - 1)) = some t →
          r[i * f.ay.length + j]? = some (improved ⟨((q.1 - p.1) / (x1 - x0) : Rat), ((t.1 - s.1) / (y1 - y0) : Rat), ((q.2 - p.2) / (x1 - x0) : Rat),
            ((t.2 - s.2) / (y1 - y0) : Rat)⟩) := by
  have cell : ∀ i j, i < f.ax.length → j < f.ay.length → ∃ v : Rat × Rat, f.cell i j = some v := by
    intro i j hi hj
    cases hc : f.cell i j with
    | none => exact absurd ⟨i, j, List.getElem?_eq_getElem hi, List.getElem?_eq_getElem hj, hc⟩ (hm f.ax[i] f.ay[j])
    | some v => exact ⟨v, rfl⟩
  have key : ∀ i j, i < f.ax.length → j < f.ay.length → ∀ J, jacAt f i j = some J → improvedCell f i j = .ok (improved J) := by
    intro i j hi hj J hJ
    obtain ⟨v, hv⟩ := cell i j hi hj
    unfold improvedCell
    rw [(cell_raw hf hi hj hv).1]
    simp only [hJ]
    rfl
  obtain ⟨r, hr⟩ := cells_total (f := f) (l := gridNodes f) (by
    rintro ⟨i, j⟩ hp
    obtain ⟨hi, hj⟩ := nodes_mem.1 hp
    dsimp only at hi hj
    obtain ⟨p, hp⟩ := cell (i - 1) j (by omega) hj
    obtain ⟨q, hq⟩ := cell (min (i + 1) (f.ax.length - 1)) j (by omega) hj
    obtain ⟨s, hs⟩ := cell i (j - 1) hi (by omega)
    obtain ⟨t, ht⟩ := cell i (min (j + 1) (f.ay.length - 1)) hi (by omega)
    exact ⟨_, key i j hi hj _ (jacAt_slopes hf hx hy ex ey hi hj (List.getElem?_eq_getElem (by omega)) (List.getElem?_eq_getElem (by omega))
      (List.getElem?_eq_getElem (by omega)) (List.getElem?_eq_getElem (by omega)) hp hq hs ht)⟩)
  obtain ⟨w, hw⟩ := hfill
  refine ⟨r, ?_, (cells_ok hr).1, ?_⟩
  · unfold improvedField
    simp only [hw]
    rw [if_neg (by omega), hr]
  · intro i j x0 x1 y0 y1 p q s t hi hj hx0 hx1 hy0 hy1 hp hq hs ht
    have hn := nodes_get f hi hj
    have hlt : i * f.ay.length + j < r.length := by rw [(cells_ok hr).1]; exact getElem?_some_lt hn
    have h1 := (cells_ok hr).2 _ _ _ hn (List.getElem?_eq_getElem hlt)
    rw [key i j hi hj _ (jacAt_slopes hf hx hy ex ey hi hj hx0 hx1 hy0 hy1 hp hq hs ht)] at h1
    rw [List.getElem?_eq_getElem hlt, ← Except.ok.inj h1]

/-- C362 fails when a point that is not masked has a masked neighbour: the field is not filled, and there is no result. -/
theorem C362_filled_violated (hb : Treat.Blank f) (hx : 2 ≤ f.ax.length) (hy : 2 ≤ f.ay.length) (ex : Treat.Even f.ax) {i j : Nat} {v : Rat × Rat}
    (hi : i < f.ax.length) (hj : j < f.ay.length) (hv : f.cell i j = some v)
    (hn : f.mask.get (i - 1) j = true ∨ f.mask.get (min (i + 1) (f.ax.length - 1)) j = true) (hfill : ∃ r, fill f = .ok r) :
    improvedField fill f = .error .exception := by
  obtain ⟨w, hw⟩ := hfill
  have hJ : jacAt f i j = none := by
    have h1 : Treat.gradX f.ax f.cx.get i j = none := by
      unfold Treat.gradX
      rw [Treat.diff1_slope ex hx hi (List.getElem?_eq_getElem (by omega)) (List.getElem?_eq_getElem (by omega))]
      unfold Treat.slope
      rcases hn with hn | hn
      · simp [(hb _ _ (by omega) hj hn).1]
      · simp only [(hb _ _ (by omega) hj hn).1]
        split <;> simp_all
    unfold jacAt
    rw [h1]
  have hm : f.mask.get i j = false := by
    unfold VF.cell at hv
    by_cases h : f.mask.get i j = true
    · rw [if_pos h] at hv; cases hv
    · simpa using h
  unfold improvedField
  simp only [hw]
  rw [if_neg (by omega)]
  refine cells_error ⟨(i, j), nodes_mem.2 ⟨hi, hj⟩, ?_⟩
  unfold improvedCell
  simp [hm, hJ]

/-! ### the hypotheses are met -/

/-- A solid rotation with some divergence: eigenvalues `1 ± i`. -/
example : improved ⟨1, -1, 1, 1⟩ = some 1 :=
  (C362_ratio _ _).2 ⟨1, 1, ⟨one_pos, by norm_num, by norm_num⟩, by norm_num⟩

example : improved ⟨1, 0, 0, 1⟩ = none := (C362_masked _).2 ⟨1, 1, 0, .inl one_ne_zero, by norm_num, by norm_num⟩

example : ∃ r, improvedField .ok Treat.sampleV = .ok r ∧ r.length = (gridNodes Treat.sampleV).length := by
  obtain ⟨r, h1, h2, -⟩ := C362_field_partial (fill := .ok) Treat.sampleV_WF (by decide) (by decide) (by
    intro i a b c ha hb hc
    have hl := getElem?_some_lt hc
    simp only [Treat.sampleV, List.length_cons, List.length_nil] at hl
    have : i = 0 := by omega
    subst this
    simp [Treat.sampleV] at ha hb hc
    rw [← ha, ← hb, ← hc]; norm_num) (by
    intro i a b c ha hb hc
    have hl := getElem?_some_lt hc
    simp only [Treat.sampleV, List.length_cons, List.length_nil] at hl
    have : i = 0 := by omega
    subst this
    simp [Treat.sampleV] at ha hb hc
    rw [← ha, ← hb, ← hc]; norm_num) (by
    rintro x y ⟨i, j, -, -, h⟩
    simp [VF.cell, Treat.sampleV] at h) ⟨_, rfl⟩
  exact ⟨r, h1, h2⟩

/-- A field with a hole at its first node. -/
def holedV : VF :=
  { ax := [0, 1], ay := [0, 1], cx := ⟨2, 2, fun i j => if i = 0 ∧ j = 0 then none else some j⟩, cy := ⟨2, 2, fun i j => if i = 0 ∧ j = 0 then none else some i⟩,
    mask := ⟨2, 2, fun i j => i == 0 && j == 0⟩, ux := Sym.m, uy := Sym.m, uv := Sym.m.div Sym.s }

example : improvedField .ok holedV = .error .exception := by
  refine C362_filled_violated (i := 1) (j := 0) (v := (0, 1)) ?_ (by decide) (by decide) ?_ (by decide) (by decide) (by decide +kernel) (.inl rfl) ⟨_, rfl⟩
  · intro i j _ _ hm
    simp only [holedV, Bool.and_eq_true, beq_iff_eq] at hm
    simp [holedV, hm.1, hm.2]
  · intro i a b c _ _ hc
    have := getElem?_some_lt hc
    simp [holedV] at this

end IMT.Crit
