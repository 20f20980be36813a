import Mathlib.Analysis.SpecialFunctions.Trigonometric.Inverse
import Verif.Pbi.Props

/-!
C58: the fast sign test of `VF.get_cp_cell_position` on velocity cells, with the angles of `VectorField.theta`
over the real numbers.
-/

namespace IMT.Pbi

open Real

/-- `VectorField.theta` at one unmasked point, `/repo/IMTreatment/core/vectorfield.py:459-470`: 0 for a null vector,
`arccos(vx / |v|)` for `vy >= 0` and `2π - arccos(vx / |v|)` for `vy < 0`. -/
noncomputable def theta (vx vy : ℝ) : ℝ :=
  if vx ^ 2 + vy ^ 2 = 0 then 0
  else if vy < 0 then 2 * π - arccos (vx / √(vx ^ 2 + vy ^ 2))
  else arccos (vx / √(vx ^ 2 + vy ^ 2))

/-- The angles of a velocity field. -/
noncomputable def thetas (vx vy : Nat → Nat → ℝ) : Nat → Nat → ℝ := fun r c => theta (vx r c) (vy r c)

/-- The (real) index of the cell whose lowest corner is `(i, j)`, vd.py:417-427. -/
noncomputable def cellIndex (vx vy : Nat → Nat → ℝ) (i j : Nat) : ℝ :=
  pbi (2 * π) (shift (thetas vx vy) i j) 2 1

theorem norm_pos {vx vy : ℝ} (h : vx ^ 2 + vy ^ 2 ≠ 0) : 0 < √(vx ^ 2 + vy ^ 2) :=
  Real.sqrt_pos.mpr (lt_of_le_of_ne (by positivity) (Ne.symm h))

theorem abs_lt_norm {vx vy : ℝ} (hy : vy ≠ 0) : |vx| < √(vx ^ 2 + vy ^ 2) := by
  apply Real.lt_sqrt_of_sq_lt
  rw [sq_abs]
  have := sq_pos_of_ne_zero hy
  linarith

theorem ne_of_vy {vx vy : ℝ} (hy : vy ≠ 0) : vx ^ 2 + vy ^ 2 ≠ 0 := by
  have := sq_pos_of_ne_zero hy
  have := sq_nonneg vx
  intro h; linarith

theorem ratio_lt {vx vy : ℝ} (hy : vy ≠ 0) : vx / √(vx ^ 2 + vy ^ 2) < 1 := by
  rw [div_lt_one (norm_pos (ne_of_vy hy))]
  exact lt_of_le_of_lt (le_abs_self _) (abs_lt_norm hy)

theorem lt_ratio {vx vy : ℝ} (hy : vy ≠ 0) : -1 < vx / √(vx ^ 2 + vy ^ 2) := by
  rw [lt_div_iff₀ (norm_pos (ne_of_vy hy))]
  have := neg_abs_le vx
  have := abs_lt_norm (vx := vx) hy
  linarith

theorem arccos_inner {c : ℝ} (h1 : -1 < c) (h2 : c < 1) : 0 < arccos c ∧ arccos c < π := by
  refine ⟨arccos_pos.mpr h2, lt_of_le_of_ne (arccos_le_pi c) ?_⟩
  intro h
  have := arccos_eq_pi.mp h
  linarith

theorem theta_zero : theta 0 0 = 0 := by simp [theta]

theorem theta_up {vx vy : ℝ} (h : 0 < vy) : 0 < theta vx vy ∧ theta vx vy < π := by
  unfold theta
  rw [if_neg (ne_of_vy h.ne'), if_neg (by linarith)]
  exact arccos_inner (lt_ratio h.ne') (ratio_lt h.ne')

theorem theta_down {vx vy : ℝ} (h : vy < 0) : π < theta vx vy ∧ theta vx vy < 2 * π := by
  unfold theta
  rw [if_neg (ne_of_vy h.ne), if_pos h]
  obtain ⟨h1, h2⟩ := arccos_inner (lt_ratio (vx := vx) h.ne) (ratio_lt h.ne)
  constructor <;> linarith

theorem theta_right {vx : ℝ} (h : 0 < vx) : theta vx 0 = 0 := by
  unfold theta
  have hn : vx ^ 2 + 0 ^ 2 = vx ^ 2 := by ring
  rw [if_neg (by rw [hn]; positivity), if_neg (lt_irrefl _), hn, Real.sqrt_sq h.le, div_self h.ne', arccos_one]

theorem theta_left {vx : ℝ} (h : vx < 0) : theta vx 0 = π := by
  unfold theta
  have hn : vx ^ 2 + 0 ^ 2 = (-vx) ^ 2 := by ring
  have hne : (-vx) ≠ 0 := by linarith
  rw [if_neg (by rw [hn]; positivity), if_neg (lt_irrefl _), hn, Real.sqrt_sq (by linarith), div_neg,
    div_self h.ne, arccos_neg_one]

/-- The angle is in `[0, 2π)`. -/
theorem theta_range (vx vy : ℝ) : 0 ≤ theta vx vy ∧ theta vx vy < 2 * π := by
  have hp := pi_pos
  rcases lt_trichotomy vy 0 with h | h | h
  · obtain ⟨h1, h2⟩ := theta_down (vx := vx) h; exact ⟨by linarith, h2⟩
  · subst h
    rcases lt_trichotomy vx 0 with h | h | h
    · rw [theta_left h]; constructor <;> linarith
    · subst h; rw [theta_zero]; constructor <;> linarith
    · rw [theta_right h]; constructor <;> linarith
  · obtain ⟨h1, h2⟩ := theta_up (vx := vx) h; exact ⟨h1.le, by linarith⟩

/-- The angle gives back the direction of the vector: the specification of `theta`. -/
theorem theta_spec (vx vy : ℝ) :
    √(vx ^ 2 + vy ^ 2) * cos (theta vx vy) = vx ∧ √(vx ^ 2 + vy ^ 2) * sin (theta vx vy) = vy := by
  by_cases h0 : vx ^ 2 + vy ^ 2 = 0
  · have hx : vx = 0 := by nlinarith [sq_nonneg vx, sq_nonneg vy]
    have hy : vy = 0 := by nlinarith [sq_nonneg vx, sq_nonneg vy]
    simp [hx, hy]
  · have hn := norm_pos h0
    set n := √(vx ^ 2 + vy ^ 2) with hnd
    have hn2 : n ^ 2 = vx ^ 2 + vy ^ 2 := Real.sq_sqrt (by positivity)
    have hr : -1 ≤ vx / n ∧ vx / n ≤ 1 := by
      constructor
      · rw [le_div_iff₀ hn]; nlinarith [sq_nonneg vy]
      · rw [div_le_one hn]; nlinarith [sq_nonneg vy]
    have hs : n * √(1 - (vx / n) ^ 2) = |vy| := by
      have : 1 - (vx / n) ^ 2 = (vy / n) ^ 2 := by
        field_simp; linarith
      rw [this, Real.sqrt_sq_eq_abs, abs_div, abs_of_pos hn]
      field_simp
    unfold theta
    rw [if_neg h0]
    by_cases hy : vy < 0
    · rw [if_pos hy, cos_two_pi_sub, sin_two_pi_sub, cos_arccos hr.1 hr.2, sin_arccos, mul_neg, hs, abs_of_neg hy]
      constructor
      · field_simp
      · ring
    · rw [if_neg hy, cos_arccos hr.1 hr.2, sin_arccos, hs, abs_of_nonneg (not_lt.mp hy)]
      constructor
      · field_simp
      · rfl

/-- A vector with `vx > 0` has an angle in `[0, π/2)` or `(3π/2, 2π)`. -/
theorem theta_vx_pos {vx vy : ℝ} (h : 0 < vx) :
    (0 ≤ theta vx vy ∧ theta vx vy < π / 2) ∨ (3 * π / 2 < theta vx vy ∧ theta vx vy < 2 * π) := by
  have h0 : vx ^ 2 + vy ^ 2 ≠ 0 := by have := sq_nonneg vy; positivity
  have hr : 0 < vx / √(vx ^ 2 + vy ^ 2) := div_pos h (norm_pos h0)
  have ha : arccos (vx / √(vx ^ 2 + vy ^ 2)) < π / 2 := arccos_lt_pi_div_two.mpr hr
  have := theta_range vx vy
  unfold theta at this ⊢
  rw [if_neg h0] at this ⊢
  by_cases hy : vy < 0
  · rw [if_pos hy] at this ⊢; right; exact ⟨by linarith, this.2⟩
  · rw [if_neg hy] at this ⊢; left; exact ⟨this.1, ha⟩

/-- A non-zero vector with `vx ≤ 0` has an angle in `[π/2, 3π/2]`. -/
theorem theta_vx_neg {vx vy : ℝ} (h : vx ≤ 0) (h0 : vx ^ 2 + vy ^ 2 ≠ 0) :
    π / 2 ≤ theta vx vy ∧ theta vx vy ≤ 3 * π / 2 := by
  have hr : vx / √(vx ^ 2 + vy ^ 2) ≤ 0 := div_nonpos_of_nonpos_of_nonneg h (norm_pos h0).le
  have ha : π / 2 ≤ arccos (vx / √(vx ^ 2 + vy ^ 2)) := by
    by_contra hc
    exact absurd (arccos_lt_pi_div_two.mp (not_le.mp hc)) (not_lt.mpr hr)
  have hb := arccos_le_pi (vx / √(vx ^ 2 + vy ^ 2))
  have hp := pi_pos
  unfold theta
  rw [if_neg h0]
  by_cases hy : vy < 0
  · rw [if_pos hy]; constructor <;> linarith
  · rw [if_neg hy]; constructor <;> linarith

/-- Angles lifting to a function that explains all wrapped differences give index 0. -/
theorem lift_zero {θ : Nat → Nat → ℝ} {i j : Nat} (φ : ℝ → ℝ)
    (h : ∀ a ∈ [(i, j), (i + 1, j), (i, j + 1), (i + 1, j + 1)],
      ∀ b ∈ [(i, j), (i + 1, j), (i, j + 1), (i + 1, j + 1)],
      W (2 * π) (θ a.1 a.2) (θ b.1 b.2) = φ (θ b.1 b.2) - φ (θ a.1 a.2)) :
    pbi (2 * π) (shift θ i j) 2 1 = 0 := by
  have hT : (0 : ℝ) < 2 * π := by have := pi_pos; linarith
  have hs := cell_sides hT θ i j
  rw [h (i + 1, j) (by simp) (i, j) (by simp), h (i, j) (by simp) (i, j + 1) (by simp),
    h (i, j + 1) (by simp) (i + 1, j + 1) (by simp), h (i + 1, j + 1) (by simp) (i + 1, j) (by simp)] at hs
  have hz : pbi (2 * π) (shift θ i j) 2 1 * (2 * π) = 0 := by rw [hs]; ring
  rcases mul_eq_zero.mp hz with h | h
  · exact h
  · linarith

theorem wrap_inner {d : ℝ} (h1 : -π ≤ d) (h2 : d ≤ π) : wrap (2 * π) d = d := by
  unfold wrap
  have e : 2 * π / 2 = π := by ring
  simp only [e]
  rw [if_neg (not_lt.mpr h2), if_neg (not_lt.mpr h1)]

theorem wrap_high {d : ℝ} (h1 : π < d) : wrap (2 * π) d = d - 2 * π := by
  unfold wrap
  have e : 2 * π / 2 = π := by ring
  simp only [e]
  rw [if_pos h1, if_neg (by linarith)]

theorem wrap_low {d : ℝ} (h1 : d < -π) : wrap (2 * π) d = d + 2 * π := by
  unfold wrap
  have e : 2 * π / 2 = π := by ring
  simp only [e]
  have hp := pi_pos
  have h2 : ¬ d > π := by intro h; linarith
  simp only [if_neg h2]
  rw [if_pos h1]

/-- The four corners of a cell. -/
def corners (i j : Nat) : List (Nat × Nat) := [(i, j), (i + 1, j), (i, j + 1), (i + 1, j + 1)]

theorem positives_four {v : Nat → Nat → ℝ} {i j : Nat} (h : positives v i j = 4) : ∀ a ∈ corners i j, 0 < v a.1 a.2 := by
  unfold positives at h
  intro a ha
  simp only [corners, List.mem_cons, List.not_mem_nil, or_false] at ha
  by_contra hc
  rcases ha with rfl | rfl | rfl | rfl <;> simp only at hc <;> rw [if_neg hc] at h <;> (split_ifs at h <;> omega)

theorem positives_zero {v : Nat → Nat → ℝ} {i j : Nat} (h : positives v i j = 0) : ∀ a ∈ corners i j, v a.1 a.2 ≤ 0 := by
  unfold positives at h
  intro a ha
  simp only [corners, List.mem_cons, List.not_mem_nil, or_false] at ha
  by_contra hc
  rw [not_le] at hc
  rcases ha with rfl | rfl | rfl | rfl <;> simp only at hc <;> rw [if_pos hc] at h <;> (split_ifs at h <;> omega)

/-- C58: a cell discarded by the sign test has index 0, provided no corner has a null velocity and the cell does not
have at the same time a corner pointing exactly to the right and one pointing exactly to the left.  Missing: those
degenerate cells, for which the claim is false (the two `_violated` theorems below). -/
theorem C58_sign_test_partial (vx vy : Nat → Nat → ℝ) (i j : Nat) (hd : ¬ examined vx vy i j)
    (hnz : ∀ a ∈ corners i j, ¬ (vx a.1 a.2 = 0 ∧ vy a.1 a.2 = 0))
    (hopp : ∀ a ∈ corners i j, ∀ b ∈ corners i j,
      ¬ (vy a.1 a.2 = 0 ∧ 0 < vx a.1 a.2 ∧ vy b.1 b.2 = 0 ∧ vx b.1 b.2 < 0)) :
    cellIndex vx vy i j = 0 := by
  have hp := pi_pos
  have hnz' : ∀ a ∈ corners i j, vx a.1 a.2 ^ 2 + vy a.1 a.2 ^ 2 ≠ 0 := by
    intro a ha h0
    exact hnz a ha ⟨by nlinarith [sq_nonneg (vx a.1 a.2), sq_nonneg (vy a.1 a.2)],
      by nlinarith [sq_nonneg (vx a.1 a.2), sq_nonneg (vy a.1 a.2)]⟩
  have hcases : positives vx i j = 0 ∨ positives vx i j = 4 ∨ positives vy i j = 0 ∨ positives vy i j = 4 := by
    unfold examined at hd
    by_contra hc
    exact hd ⟨⟨fun h => hc (.inl h), fun h => hc (.inr (.inl h))⟩,
      ⟨fun h => hc (.inr (.inr (.inl h))), fun h => hc (.inr (.inr (.inr h)))⟩⟩
  unfold cellIndex
  rcases hcases with h | h | h | h
  · -- all `vx ≤ 0`
    apply lift_zero fun t => t
    intro a ha b hb
    obtain ⟨a1, a2⟩ := theta_vx_neg (positives_zero h a ha) (hnz' a ha)
    obtain ⟨b1, b2⟩ := theta_vx_neg (positives_zero h b hb) (hnz' b hb)
    unfold W thetas
    rw [wrap_inner (by linarith) (by linarith)]
  · -- all `vx > 0`
    apply lift_zero fun t => if t < π then t else t - 2 * π
    intro a ha b hb
    unfold W thetas
    rcases theta_vx_pos (vy := vy a.1 a.2) (positives_four h a ha) with ⟨a1, a2⟩ | ⟨a1, a2⟩ <;>
    rcases theta_vx_pos (vy := vy b.1 b.2) (positives_four h b hb) with ⟨b1, b2⟩ | ⟨b1, b2⟩
    · rw [wrap_inner (by linarith) (by linarith), if_pos (by linarith), if_pos (by linarith)]
    · rw [wrap_high (by linarith), if_neg (by linarith), if_pos (by linarith)]; ring
    · rw [wrap_low (by linarith), if_pos (by linarith), if_neg (by linarith)]; ring
    · rw [wrap_inner (by linarith) (by linarith), if_neg (by linarith), if_neg (by linarith)]; ring
  · -- all `vy ≤ 0`
    apply lift_zero fun t => if t = 0 then 2 * π else t
    have key : ∀ a ∈ corners i j, (π < theta (vx a.1 a.2) (vy a.1 a.2) ∧ theta (vx a.1 a.2) (vy a.1 a.2) < 2 * π) ∨
        (vy a.1 a.2 = 0 ∧ 0 < vx a.1 a.2 ∧ theta (vx a.1 a.2) (vy a.1 a.2) = 0) ∨
        (vy a.1 a.2 = 0 ∧ vx a.1 a.2 < 0 ∧ theta (vx a.1 a.2) (vy a.1 a.2) = π) := by
      intro a ha
      rcases lt_or_eq_of_le (positives_zero h a ha) with hy | hy
      · exact .inl (theta_down hy)
      · rcases lt_trichotomy (vx a.1 a.2) 0 with hx | hx | hx
        · exact .inr (.inr ⟨hy, hx, by rw [hy]; exact theta_left hx⟩)
        · exact absurd ⟨hx, hy⟩ (hnz a ha)
        · exact .inr (.inl ⟨hy, hx, by rw [hy]; exact theta_right hx⟩)
    intro a ha b hb
    unfold W thetas
    rcases key a ha with ⟨a1, a2⟩ | ⟨a0, a1, a2⟩ | ⟨a0, a1, a2⟩ <;>
    rcases key b hb with ⟨b1, b2⟩ | ⟨b0, b1, b2⟩ | ⟨b0, b1, b2⟩
    · rw [wrap_inner (by linarith) (by linarith), if_neg (by linarith), if_neg (by linarith)]
    · rw [b2, wrap_low (by linarith), if_pos rfl, if_neg (by linarith)]; ring
    · rw [b2, wrap_inner (by linarith) (by linarith), if_neg (by linarith), if_neg (by linarith)]
    · rw [a2, wrap_high (by linarith), if_pos rfl, if_neg (by linarith)]; ring
    · rw [a2, b2, wrap_inner (by linarith) (by linarith)]; ring
    · exact absurd ⟨a0, a1, b0, b1⟩ (hopp a ha b hb)
    · rw [a2, wrap_inner (by linarith) (by linarith), if_neg (by linarith), if_neg (by linarith)]
    · exact absurd ⟨b0, b1, a0, a1⟩ (hopp b hb a ha)
    · rw [a2, b2, wrap_inner (by linarith) (by linarith)]; ring
  · -- all `vy > 0`
    apply lift_zero fun t => t
    intro a ha b hb
    obtain ⟨a1, a2⟩ := theta_up (vx := vx a.1 a.2) (positives_four h a ha)
    obtain ⟨b1, b2⟩ := theta_up (vx := vx b.1 b.2) (positives_four h b hb)
    unfold W thetas
    rw [wrap_inner (by linarith) (by linarith)]

/-- The hypotheses are met by a discarded cell with a corner pointing exactly to the left. -/
example : ∃ vx vy : Nat → Nat → ℝ, ¬ examined vx vy 0 0 ∧
    (∀ a ∈ corners 0 0, ¬ (vx a.1 a.2 = 0 ∧ vy a.1 a.2 = 0)) ∧
    (∀ a ∈ corners 0 0, ∀ b ∈ corners 0 0,
      ¬ (vy a.1 a.2 = 0 ∧ 0 < vx a.1 a.2 ∧ vy b.1 b.2 = 0 ∧ vx b.1 b.2 < 0)) ∧ vx 0 0 < 0 ∧ vx 0 1 > 0 := by
  refine ⟨fun _ c => if c = 0 then -1 else 1, fun r c => if r = 0 ∧ c = 0 then 0 else -1, ?_, ?_, ?_, ?_, ?_⟩
  · intro h; apply h.2.1; simp [positives]
  · simp [corners]
  · simp [corners]
  · norm_num
  · norm_num

/-- C58 fails for opposite horizontal corners: with the velocities (-1, 0), (1, 0) in the first row of points and
(0, -1), (0, -1) above, `vy` is never positive, the cell is not examined, and yet its index is not 0
(vd.py:107-108 counts `vy > 0` only). -/
theorem C58_horizontal_violated :
    ∃ vx vy : Nat → Nat → ℝ, ¬ examined vx vy 0 0 ∧ (∀ a ∈ corners 0 0, ¬ (vx a.1 a.2 = 0 ∧ vy a.1 a.2 = 0)) ∧
      cellIndex vx vy 0 0 ≠ 0 := by
  refine ⟨fun r c => if r = 0 then (if c = 0 then -1 else 1) else 0, fun r _ => if r = 0 then 0 else -1, ?_, ?_, ?_⟩
  · intro h; apply h.2.1; simp [positives]
  · simp [corners]
  · intro h0
    have hp := pi_pos
    have hT : (0 : ℝ) < 2 * π := by linarith
    have hs := cell_sides hT (thetas (fun r c => if r = 0 then (if c = 0 then -1 else 1) else 0)
      (fun r _ => if r = 0 then 0 else -1)) 0 0
    unfold cellIndex at h0
    rw [h0] at hs
    obtain ⟨d1, d2⟩ := theta_down (vx := 0) (vy := -1) (by norm_num)
    have e1 : theta (-1) 0 = π := theta_left (by norm_num)
    have e2 : theta 1 0 = 0 := theta_right (by norm_num)
    unfold W thetas at hs
    simp only [zero_add, if_true, if_false, one_ne_zero] at hs
    rw [e1, e2, wrap_inner (d := π - theta 0 (-1)) (by linarith) (by linarith),
      wrap_inner (d := 0 - π) (by linarith) (by linarith),
      wrap_high (d := theta 0 (-1) - 0) (by linarith),
      wrap_inner (d := theta 0 (-1) - theta 0 (-1)) (by linarith) (by linarith)] at hs
    linarith

/-- C58 fails for a null corner: the velocities (0, 1), (-1, 0) in the first row of points and (0, 0), (0, -1) above
have no positive `vx`, the cell is not examined, and the angle 0 given to the null vector makes the index 1. -/
theorem C58_null_corner_violated :
    ∃ vx vy : Nat → Nat → ℝ, ¬ examined vx vy 0 0 ∧
      (∀ a ∈ corners 0 0, ∀ b ∈ corners 0 0,
        ¬ (vy a.1 a.2 = 0 ∧ 0 < vx a.1 a.2 ∧ vy b.1 b.2 = 0 ∧ vx b.1 b.2 < 0)) ∧ cellIndex vx vy 0 0 = 1 := by
  refine ⟨fun r c => if r = 0 ∧ c = 1 then -1 else 0,
    fun r c => if r = 0 then (if c = 0 then 1 else 0) else (if c = 0 then 0 else -1), ?_, ?_, ?_⟩
  · intro h; apply h.1.1; simp [positives]
  · simp [corners]
  · have hp := pi_pos
    have hT : (0 : ℝ) < 2 * π := by linarith
    have hs := cell_sides hT (thetas (fun r c => if r = 0 ∧ c = 1 then -1 else 0)
      (fun r c => if r = 0 then (if c = 0 then 1 else 0) else (if c = 0 then 0 else -1))) 0 0
    unfold cellIndex
    have e1 : theta (-1) 0 = π := theta_left (by norm_num)
    have e2 : theta 0 1 = π / 2 := by simp [theta]
    have e3 : theta 0 (-1) = 2 * π - π / 2 := by simp [theta]
    unfold W thetas at hs
    simp only [zero_add, if_true, if_false, one_ne_zero, zero_ne_one, and_true, and_false, and_self] at hs
    rw [e1, e2, e3, theta_zero, wrap_inner (d := π / 2 - 0) (by linarith) (by linarith),
      wrap_inner (d := π - π / 2) (by linarith) (by linarith),
      wrap_inner (d := 2 * π - π / 2 - π) (by linarith) (by linarith),
      wrap_low (d := 0 - (2 * π - π / 2)) (by linarith)] at hs
    unfold thetas
    have : (2 * π) ≠ 0 := hT.ne'
    rw [← mul_left_inj' this, hs]
    ring

end IMT.Pbi
