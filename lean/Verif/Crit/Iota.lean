import Verif.Crit.IotaModel
import Verif.Crit.DevSort

/-! C342: the iota criterion. -/

namespace IMT.Crit.Iota

open Real

/-! ### Specification -/

/-- The angle between two vectors, from 0 to π. -/
noncomputable def angle (v w : ℝ × ℝ) : ℝ := arccos ((v.1 * w.1 + v.2 * w.2) / (√(v.1 ^ 2 + v.2 ^ 2) * √(w.1 ^ 2 + w.2 ^ 2)))

/-- The angle by which the vectors turn per step of the grid at the node `i` of a line of `n` nodes: between the two neighbours, or
between the node and its neighbour at an end. -/
noncomputable def rate (n : ℕ) (l : ℕ → ℝ × ℝ) (i : ℕ) : ℝ :=
  if i = 0 then angle (l 0) (l 1) else if i = n - 1 then angle (l (n - 2)) (l (n - 1)) else angle (l (i - 1)) (l (i + 1)) / 2

/-- The field with its vectors multiplied by the matrix of a rotation. -/
def Fld.turned (c s : ℝ) (f : Fld) : Fld := { f with vec := fun i j => (f.vec i j).map fun v => (c * v.1 - s * v.2, s * v.1 + c * v.2) }

/-! ### Lemmas -/

theorem arc {a b : ℝ} (ha : 0 ≤ a ∧ a < 2 * π) (hb : 0 ≤ b ∧ b < 2 * π) :
    (|b - a| > |back b - back a| → |back b - back a| = arccos (cos (b - a))) ∧
    (¬ |b - a| > |back b - back a| → |b - a| = arccos (cos (b - a))) := by
  have hp := pi_pos
  have e1 : |b - a| ≤ π → |b - a| = arccos (cos (b - a)) := fun h => by rw [← cos_abs, arccos_cos (abs_nonneg _) h]
  have e2 : ∀ d : ℝ, |d| ≤ π → cos d = cos (b - a) → |d| = arccos (cos (b - a)) := fun d h hc => by
    rw [← hc, ← cos_abs, arccos_cos (abs_nonneg _) h]
  unfold back
  split <;> split
  · rw [show b - 2 * π - (a - 2 * π) = b - a by ring]
    exact ⟨fun h => absurd h (lt_irrefl _), fun _ => e1 (abs_le.2 ⟨by linarith, by linarith⟩)⟩
  · next h1 h2 =>
    have x1 : |b - a| = b - a := abs_of_nonneg (by linarith)
    have x2 : |b - 2 * π - a| = 2 * π - (b - a) := by rw [abs_of_nonpos (by linarith)]; ring
    refine ⟨fun h => e2 _ ?_ ?_, fun h => e1 ?_⟩
    · rw [x1, x2] at h; rw [x2]; linarith
    · rw [show b - 2 * π - a = b - a - 2 * π by ring, cos_sub_two_pi]
    · rw [x1, x2] at h; rw [x1]; linarith
  · next h1 h2 =>
    have x1 : |b - a| = a - b := by rw [abs_of_nonpos (by linarith)]; ring
    have x2 : |b - (a - 2 * π)| = 2 * π - (a - b) := by rw [abs_of_nonneg (by linarith)]; ring
    refine ⟨fun h => e2 _ ?_ ?_, fun h => e1 ?_⟩
    · rw [x1, x2] at h; rw [x2]; linarith
    · rw [show b - (a - 2 * π) = b - a + 2 * π by ring, cos_add_two_pi]
    · rw [x1, x2] at h; rw [x1]; linarith
  · next h1 h2 => exact ⟨fun h => absurd h (lt_irrefl _), fun _ => e1 (abs_le.2 ⟨by linarith, by linarith⟩)⟩

theorem angle_theta {v w : ℝ × ℝ} (hv : v ≠ (0, 0)) (hw : w ≠ (0, 0)) :
    arccos (cos (Pbi.theta w.1 w.2 - Pbi.theta v.1 v.2)) = angle v w := by
  have nv := Pbi.norm_pos (ne_zero_iff.1 hv)
  have nw := Pbi.norm_pos (ne_zero_iff.1 hw)
  obtain ⟨a1, a2⟩ := Pbi.theta_spec v.1 v.2
  obtain ⟨b1, b2⟩ := Pbi.theta_spec w.1 w.2
  unfold angle
  congr 1
  rw [eq_div_iff (mul_pos nv nw).ne', cos_sub]
  calc _ = (√(v.1 ^ 2 + v.2 ^ 2) * cos (Pbi.theta v.1 v.2)) * (√(w.1 ^ 2 + w.2 ^ 2) * cos (Pbi.theta w.1 w.2)) +
      (√(v.1 ^ 2 + v.2 ^ 2) * sin (Pbi.theta v.1 v.2)) * (√(w.1 ^ 2 + w.2 ^ 2) * sin (Pbi.theta w.1 w.2)) := by ring
    _ = _ := by rw [a1, a2, b1, b2]

/-- The smaller of the two differences, for two nodes and a factor. -/
theorem small_pair {v w : ℝ × ℝ} (hv : v ≠ (0, 0)) (hw : w ≠ (0, 0)) {k : ℝ} (hk : 0 < k) {d1 d2 : ℝ}
    (h1 : d1 = (Pbi.theta w.1 w.2 - Pbi.theta v.1 v.2) / k)
    (h2 : d2 = (back (Pbi.theta w.1 w.2) - back (Pbi.theta v.1 v.2)) / k) :
    (if |d1| > |d2| then d2 else d1) ^ 2 = (angle v w / k) ^ 2 := by
  obtain ⟨x, y⟩ := arc (Pbi.theta_range v.1 v.2) (Pbi.theta_range w.1 w.2)
  rw [angle_theta hv hw] at x y
  have e1 : |d1| = |Pbi.theta w.1 w.2 - Pbi.theta v.1 v.2| / k := by rw [h1, abs_div, abs_of_pos hk]
  have e2 : |d2| = |back (Pbi.theta w.1 w.2) - back (Pbi.theta v.1 v.2)| / k := by rw [h2, abs_div, abs_of_pos hk]
  rw [e1, e2]
  have hiff : |Pbi.theta w.1 w.2 - Pbi.theta v.1 v.2| / k > |back (Pbi.theta w.1 w.2) - back (Pbi.theta v.1 v.2)| / k ↔
      |Pbi.theta w.1 w.2 - Pbi.theta v.1 v.2| > |back (Pbi.theta w.1 w.2) - back (Pbi.theta v.1 v.2)| := div_lt_div_iff_of_pos_right hk
  split
  · next h => rw [← sq_abs, e2, x (hiff.1 h)]
  · next h => rw [← sq_abs, e1, y fun h' => h (hiff.2 h')]

theorem small_sq {n : ℕ} (hn : 2 ≤ n) (l : ℕ → ℝ × ℝ) {i : ℕ} (hi : i < n) (h0 : ∀ k < n, l k ≠ (0, 0)) (g : ℕ → ℝ)
    (hg : ∀ k < n, g k = Pbi.theta (l k).1 (l k).2) : (small n g i) ^ 2 = (rate n l i) ^ 2 := by
  unfold small rate grad
  by_cases c0 : i = 0
  · rw [if_pos c0, if_pos c0, if_pos c0]
    refine (small_pair (h0 0 (by omega)) (h0 1 (by omega)) one_pos ?_ ?_).trans (by rw [div_one])
    · rw [hg 0 (by omega), hg 1 (by omega), div_one]
    · simp only; rw [hg 0 (by omega), hg 1 (by omega), div_one]
  · rw [if_neg c0, if_neg c0, if_neg c0]
    by_cases c1 : i = n - 1
    · rw [if_pos c1, if_pos c1, if_pos c1]
      refine (small_pair (h0 (n - 2) (by omega)) (h0 (n - 1) (by omega)) one_pos ?_ ?_).trans (by rw [div_one])
      · rw [hg (n - 2) (by omega), hg (n - 1) (by omega), div_one]
      · simp only; rw [hg (n - 2) (by omega), hg (n - 1) (by omega), div_one]
    · rw [if_neg c1, if_neg c1, if_neg c1]
      refine small_pair (h0 (i - 1) (by omega)) (h0 (i + 1) (by omega)) two_pos ?_ ?_
      · rw [hg (i - 1) (by omega), hg (i + 1) (by omega)]
      · simp only; rw [hg (i - 1) (by omega), hg (i + 1) (by omega)]

theorem angle_turned {v w : ℝ × ℝ} {c s : ℝ} (hcs : c ^ 2 + s ^ 2 = 1) :
    angle (c * v.1 - s * v.2, s * v.1 + c * v.2) (c * w.1 - s * w.2, s * w.1 + c * w.2) = angle v w := by
  unfold angle
  have n1 : (c * v.1 - s * v.2) ^ 2 + (s * v.1 + c * v.2) ^ 2 = v.1 ^ 2 + v.2 ^ 2 := by linear_combination (v.1 ^ 2 + v.2 ^ 2) * hcs
  have n2 : (c * w.1 - s * w.2) ^ 2 + (s * w.1 + c * w.2) ^ 2 = w.1 ^ 2 + w.2 ^ 2 := by linear_combination (w.1 ^ 2 + w.2 ^ 2) * hcs
  have n3 : (c * v.1 - s * v.2) * (c * w.1 - s * w.2) + (s * v.1 + c * v.2) * (s * w.1 + c * w.2) = v.1 * w.1 + v.2 * w.2 := by
    linear_combination (v.1 * w.1 + v.2 * w.2) * hcs
  simp only [n1, n2, n3]

/-! ### Theorems -/

/-- C342: on a row and a column of the field without masked or null vector, iota is half the length of the vector of the angles by
which the vectors turn per step along both axes. -/
theorem C342_angle_partial (f : Fld) (mask : ℕ → ℕ → Bool) (V : ℕ → ℕ → ℝ × ℝ) (hx : 2 ≤ f.ax.length) (hy : 2 ≤ f.ay.length) {i j : ℕ}
    (hi : i < f.ax.length) (hj : j < f.ay.length)
    (hr : ∀ k < f.ax.length, f.vec k j = some (V k j) ∧ V k j ≠ (0, 0)) (hc : ∀ k < f.ay.length, f.vec i k = some (V i k) ∧ V i k ≠ (0, 0)) :
    iota f f mask i j = .ok (some (1 / 2 * √((rate f.ax.length (fun k => V k j) i) ^ 2 + (rate f.ay.length (fun k => V i k) j) ^ 2))) := by
  unfold iota
  rw [if_neg (by omega), (hr i hi).1]
  simp only
  rw [small_sq hx (fun k => V k j) hi (fun k hk => (hr k hk).2) _ (fun k hk => by simp only [Fld.theta, (hr k hk).1]),
    small_sq hy (fun k => V i k) hj (fun k hk => (hc k hk).2) _ (fun k hk => by simp only [Fld.theta, (hc k hk).1])]

/-- C342: so that it does not change when all the vectors are turned by the same angle. -/
theorem C342_turned_partial (f : Fld) (mask : ℕ → ℕ → Bool) (V : ℕ → ℕ → ℝ × ℝ) (hx : 2 ≤ f.ax.length) (hy : 2 ≤ f.ay.length) {i j : ℕ}
    (hi : i < f.ax.length) (hj : j < f.ay.length)
    (hr : ∀ k < f.ax.length, f.vec k j = some (V k j) ∧ V k j ≠ (0, 0)) (hc : ∀ k < f.ay.length, f.vec i k = some (V i k) ∧ V i k ≠ (0, 0))
    {c s : ℝ} (hcs : c ^ 2 + s ^ 2 = 1) : iota (f.turned c s) (f.turned c s) mask i j = iota f f mask i j := by
  have hne : ∀ v : ℝ × ℝ, v ≠ (0, 0) → ((c * v.1 - s * v.2, s * v.1 + c * v.2) : ℝ × ℝ) ≠ (0, 0) := fun v hv => by
    rw [ne_zero_iff] at hv ⊢
    simp only
    rwa [show (c * v.1 - s * v.2) ^ 2 + (s * v.1 + c * v.2) ^ 2 = v.1 ^ 2 + v.2 ^ 2 by linear_combination (v.1 ^ 2 + v.2 ^ 2) * hcs]
  rw [C342_angle_partial f mask V hx hy hi hj hr hc,
    C342_angle_partial (f.turned c s) mask (fun i j => (c * (V i j).1 - s * (V i j).2, s * (V i j).1 + c * (V i j).2)) hx hy hi hj
      (fun k hk => ⟨by simp only [Fld.turned, (hr k hk).1, Option.map_some], hne _ (hr k hk).2⟩)
      (fun k hk => ⟨by simp only [Fld.turned, (hc k hk).1, Option.map_some], hne _ (hc k hk).2⟩)]
  simp only [rate, angle_turned hcs, Fld.turned]

example : ∃ (f : Fld) (V : ℕ → ℕ → ℝ × ℝ), 2 ≤ f.ax.length ∧ 2 ≤ f.ay.length ∧
    (∀ k < f.ax.length, f.vec k 1 = some (V k 1) ∧ V k 1 ≠ (0, 0)) ∧ (∀ k < f.ay.length, f.vec 1 k = some (V 1 k) ∧ V 1 k ≠ (0, 0)) ∧
    rate f.ax.length (fun k => V k 1) 1 = angle (0, 1) (2, 1) / 2 :=
  ⟨⟨[0, 1, 2], [0, 1, 2], fun i j => some (i, j)⟩, fun i j => (i, j), by simp, by simp,
    fun k _ => ⟨rfl, fun h => by simpa using congrArg Prod.snd h⟩, fun k _ => ⟨rfl, fun h => by simpa using congrArg Prod.fst h⟩,
    by simp [rate]⟩

/-- C342: the masked nodes are those of the field: the nodes masked by the argument have a value. -/
theorem C342_mask_violated (f g : Fld) (hx : 2 ≤ f.ax.length) (hy : 2 ≤ f.ay.length) (mask : ℕ → ℕ → Bool) (i j : ℕ) :
    (∃ r, iota f g mask i j = .ok r ∧ (r = none ↔ f.vec i j = none)) ∧ iota f g mask i j = iota f g (fun _ _ => false) i j := by
  refine ⟨?_, rfl⟩
  unfold iota
  rw [if_neg (by omega)]
  split
  · next h => exact ⟨none, rfl, by simp [h]⟩
  · next h => exact ⟨_, rfl, by simp [h]⟩

/-- C342: a masked or null vector counts as a vector along the first axis in the value of the nodes around it, that are not masked. -/
theorem C342_hole_violated (f : Fld) (mask : ℕ → ℕ → Bool) (i j : ℕ) :
    iota f f mask i j = iota f { f with vec := fun k l => match f.vec k l with
      | none => some (1, 0)
      | some v => if v.1 ^ 2 + v.2 ^ 2 = 0 then some (1, 0) else some v } mask i j := by
  have key : ∀ k l, Fld.theta { f with vec := fun k l => match f.vec k l with
      | none => some (1, 0)
      | some v => if v.1 ^ 2 + v.2 ^ 2 = 0 then some (1, 0) else some v } k l = f.theta k l := by
    intro k l
    have h1 : Pbi.theta 1 0 = 0 := Pbi.theta_right one_pos
    unfold Fld.theta
    simp only
    cases f.vec k l with
    | none => simpa using h1
    | some v =>
      by_cases h : v.1 ^ 2 + v.2 ^ 2 = 0
      · simp only [if_pos h, h1]
        simp [Pbi.theta, h]
      · simp only [if_neg h]
  simp only [iota, key]

/-- C342: in particular the vectors are not turned together: next to a masked vector, at the node on the other side of which
the vector is along the first axis, the value is 0 along that axis, and it is not when the vectors are turned by a quarter. -/
theorem C342_quarter_violated (f : Fld) {i j : ℕ} (hi : 0 < i) (hi' : i + 1 < f.ax.length) (he : f.vec (i + 1) j = none)
    {a : ℝ} (ha : 0 < a) (hw : f.vec (i - 1) j = some (a, 0)) :
    small f.ax.length (fun k => f.theta k j) i = 0 ∧ small f.ax.length (fun k => (f.turned 0 1).theta k j) i ≠ 0 := by
  have hp := pi_pos
  have t0 : f.theta (i - 1) j = 0 := by simp only [Fld.theta, hw, Pbi.theta_right ha]
  have t1 : f.theta (i + 1) j = 0 := by simp only [Fld.theta, he]
  have t2 : (f.turned 0 1).theta (i + 1) j = 0 := by simp only [Fld.theta, Fld.turned, he, Option.map_none]
  have t3 : 0 < (f.turned 0 1).theta (i - 1) j ∧ (f.turned 0 1).theta (i - 1) j < π := by
    have : (f.turned 0 1).theta (i - 1) j = Pbi.theta 0 a := by simp [Fld.theta, Fld.turned, hw]
    rw [this]
    exact Pbi.theta_up ha
  have hb : back 0 = 0 := by unfold back; rw [if_neg (by linarith)]
  have hb' : back ((f.turned 0 1).theta (i - 1) j) = (f.turned 0 1).theta (i - 1) j := by unfold back; rw [if_neg (by linarith [t3.2])]
  refine ⟨?_, ?_⟩
  · simp only [small, grad, if_neg (show i ≠ 0 by omega), if_neg (show i ≠ f.ax.length - 1 by omega), t0, t1, hb]
    simp
  · simp only [small, grad, if_neg (show i ≠ 0 by omega), if_neg (show i ≠ f.ax.length - 1 by omega), t2, hb, hb']
    rw [if_neg (lt_irrefl _)]
    have := t3.1
    intro h
    linarith

example : ∃ f : Fld, 1 + 1 < f.ax.length ∧ f.vec 2 1 = none ∧ f.vec 0 1 = some (3, 0) ∧ f.vec 1 1 = some (1, 1) :=
  ⟨⟨[0, 1, 2], [0, 1, 2], fun i j => if i = 2 then none else if i = 0 then some (3, 0) else some (i, j)⟩, by simp, by simp, by simp, by simp⟩

/-- C342: the angles are per step, not per length: the axes do not count, and the values have no unit. -/
theorem C342_axes_violated (f g : Fld) (mask : ℕ → ℕ → Bool) (i j : ℕ) (hx : f.ax.length = g.ax.length) (hy : f.ay.length = g.ay.length)
    (h : f.vec = g.vec) (ux : Sym) : iota f f mask i j = iota g g mask i j ∧ iotaUnit ux = Sym.one := by
  obtain ⟨fx, fy, v⟩ := f
  obtain ⟨gx, gy, w⟩ := g
  subst h
  refine ⟨?_, rfl⟩
  simp only at hx hy
  simp only [iota, Fld.theta, hx, hy]

end IMT.Crit.Iota
