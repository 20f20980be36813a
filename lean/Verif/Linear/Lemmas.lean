import Verif.Linear.Spec

/-! Helper lemmas on linear flows. -/

namespace IMT.Linear

open Pbi Real

namespace Flow

variable {f : Flow}

theorem ray_iff {s : ℝ} : f.Ray s ↔ s ^ 2 - (f.a + f.d) * s + f.det = 0 := by
  unfold Ray u v det
  constructor
  · rintro ⟨x, y, hne, h1, h2⟩
    have e1 : (f.a - s) * (x - f.px) + f.b * (y - f.py) = 0 := by linarith
    have e2 : f.c * (x - f.px) + (f.d - s) * (y - f.py) = 0 := by linarith
    have k1 : (x - f.px) * (s ^ 2 - (f.a + f.d) * s + (f.a * f.d - f.b * f.c)) = 0 := by
      linear_combination (f.d - s) * e1 - f.b * e2
    have k2 : (y - f.py) * (s ^ 2 - (f.a + f.d) * s + (f.a * f.d - f.b * f.c)) = 0 := by
      linear_combination (f.a - s) * e2 - f.c * e1
    by_contra hq
    have hx : x - f.px = 0 := by rcases mul_eq_zero.mp k1 with h | h; exacts [h, absurd h hq]
    have hy : y - f.py = 0 := by rcases mul_eq_zero.mp k2 with h | h; exacts [h, absurd h hq]
    exact hne (by rw [sub_eq_zero.mp hx, sub_eq_zero.mp hy])
  · intro h
    by_cases h1 : f.b = 0 ∧ s - f.a = 0
    · by_cases h2 : s - f.d = 0 ∧ f.c = 0
      · refine ⟨f.px + 1, f.py, fun e => ?_, ?_, ?_⟩
        · have := congrArg Prod.fst e; simp at this
        · obtain ⟨-, h12⟩ := h1; linear_combination (-h12)
        · obtain ⟨-, h22⟩ := h2; linear_combination h22
      · refine ⟨f.px + (s - f.d), f.py + f.c, fun e => h2 ⟨?_, ?_⟩, ?_, ?_⟩
        · have := congrArg Prod.fst e; simpa using this
        · have := congrArg Prod.snd e; simpa using this
        · linear_combination (-h)
        · ring
    · refine ⟨f.px + f.b, f.py + (s - f.a), fun e => h1 ⟨?_, ?_⟩, ?_, ?_⟩
      · have := congrArg Prod.fst e; simpa using this
      · have := congrArg Prod.snd e; simpa using this
      · ring
      · linear_combination (-h)

theorem saddle_det (h : f.Saddle) : f.det < 0 := by
  obtain ⟨s, t, hs, ht, rs, rt⟩ := h
  rw [ray_iff] at rs rt
  have h1 : (t - s) * (t + s - (f.a + f.d)) = 0 := by linear_combination rt - rs
  have h2 : t + s = f.a + f.d := by
    rcases mul_eq_zero.mp h1 with h | h <;> linarith
  have h3 : f.det = s * t := by rw [← h2] at rs; linarith
  rw [h3]
  exact mul_neg_of_neg_of_pos hs ht

theorem exists_ray (h : 0 ≤ (f.a - f.d) ^ 2 + 4 * f.b * f.c) : ∃ s, f.Ray s := by
  refine ⟨((f.a + f.d) + √((f.a - f.d) ^ 2 + 4 * f.b * f.c)) / 2, ray_iff.mpr ?_⟩
  have := Real.sq_sqrt h
  unfold det
  linear_combination (1 / 4) * this

theorem other_ray {s : ℝ} (h : f.Ray s) : f.Ray (f.a + f.d - s) := by
  rw [ray_iff] at h ⊢; linear_combination h

theorem ray_prod {s : ℝ} (h : f.Ray s) : s * (f.a + f.d - s) = f.det := by
  rw [ray_iff] at h; linear_combination (-h)

theorem rays {s t : ℝ} (h : f.Ray s) (k : f.Ray t) : t = s ∨ t = f.a + f.d - s := by
  rw [ray_iff] at h k
  have h1 : (t - s) * (t - (f.a + f.d - s)) = 0 := by linear_combination k - h
  rcases mul_eq_zero.mp h1 with h | h
  · left; linarith
  · right; linarith

/-- The five natures. -/
theorem nature (hd : f.det ≠ 0) : f.Saddle ∨ f.Clockwise ∨ f.Anticlockwise ∨ f.NodeOut ∨ f.NodeIn := by
  by_cases hr : ∃ s, f.Ray s
  · obtain ⟨s, hs⟩ := hr
    have hp := ray_prod hs
    have ho := other_ray hs
    have hs0 : s ≠ 0 := by rintro rfl; exact hd (by rw [← hp]; ring)
    have ht0 : f.a + f.d - s ≠ 0 := by intro h; exact hd (by rw [← hp, h]; ring)
    rcases lt_or_gt_of_ne hs0 with h1 | h1 <;> rcases lt_or_gt_of_ne ht0 with h2 | h2
    · right; right; right; right
      exact ⟨⟨s, hs⟩, fun t ht => by rcases rays hs ht with rfl | rfl <;> assumption⟩
    · left; exact ⟨s, _, h1, h2, hs, ho⟩
    · left; exact ⟨_, s, h2, h1, ho, hs⟩
    · right; right; right; left
      exact ⟨⟨s, hs⟩, fun t ht => by rcases rays hs ht with rfl | rfl <;> assumption⟩
  · have hq : (f.a - f.d) ^ 2 + 4 * f.b * f.c < 0 := by
      by_contra h; exact hr (exists_ray (not_lt.mp h))
    have hc : f.c ≠ 0 := by intro h; rw [h] at hq; nlinarith [sq_nonneg (f.a - f.d)]
    have key : ∀ x y, (x, y) ≠ (f.px, f.py) → 0 < f.c * ((x - f.px) * f.v x y - (y - f.py) * f.u x y) := by
      intro x y hne
      have e : 4 * (f.c * ((x - f.px) * f.v x y - (y - f.py) * f.u x y)) =
          (2 * f.c * (x - f.px) + (f.d - f.a) * (y - f.py)) ^ 2 - ((f.a - f.d) ^ 2 + 4 * f.b * f.c) * (y - f.py) ^ 2 := by
        unfold u v; ring
      by_cases hy : y - f.py = 0
      · have hx : x - f.px ≠ 0 := by intro hx; exact hne (by rw [sub_eq_zero.mp hx, sub_eq_zero.mp hy])
        rw [hy] at e
        have : 0 < (2 * f.c * (x - f.px) + (f.d - f.a) * 0) ^ 2 := by
          have : 2 * f.c * (x - f.px) + (f.d - f.a) * 0 ≠ 0 := by
            rw [mul_zero, add_zero]; exact mul_ne_zero (mul_ne_zero two_ne_zero hc) hx
          positivity
        rw [hy]
        linarith
      · have h1 : 0 < (y - f.py) ^ 2 := by positivity
        have h2 : 0 < -((f.a - f.d) ^ 2 + 4 * f.b * f.c) * (y - f.py) ^ 2 := mul_pos (by linarith) h1
        nlinarith [sq_nonneg (2 * f.c * (x - f.px) + (f.d - f.a) * (y - f.py))]
    rcases lt_or_gt_of_ne hc with h | h
    · right; left
      intro x y hne
      have := key x y hne
      by_contra hn
      exact absurd this (not_lt.mpr (mul_nonpos_of_nonpos_of_nonneg h.le (not_lt.mp hn)))
    · right; right; left
      intro x y hne
      have := key x y hne
      exact pos_of_mul_pos_right this h.le

theorem clockwise_no_ray (h : f.Clockwise) {s : ℝ} (k : f.Ray s) : False := by
  obtain ⟨x, y, hne, h1, h2⟩ := k
  have := h x y hne
  rw [h1, h2] at this
  nlinarith

theorem anticlockwise_no_ray (h : f.Anticlockwise) {s : ℝ} (k : f.Ray s) : False := by
  obtain ⟨x, y, hne, h1, h2⟩ := k
  have := h x y hne
  rw [h1, h2] at this
  nlinarith

theorem clockwise_c (h : f.Clockwise) : f.c < 0 := by
  have := h (f.px + 1) f.py (by intro e; have := congrArg Prod.fst e; simp at this)
  unfold v at this
  nlinarith

theorem anticlockwise_c (h : f.Anticlockwise) : 0 < f.c := by
  have := h (f.px + 1) f.py (by intro e; have := congrArg Prod.fst e; simp at this)
  unfold v at this
  nlinarith

theorem det_neg_ray (h : f.det < 0) : ∃ s, s < 0 ∧ f.Ray s := by
  obtain ⟨s, hs⟩ := exists_ray (f := f) (by unfold det at h; nlinarith [sq_nonneg (f.a + f.d)])
  have hp := ray_prod hs
  by_cases h1 : s < 0
  · exact ⟨s, h1, hs⟩
  · refine ⟨_, ?_, other_ray hs⟩
    by_contra h2
    have := mul_nonneg (not_lt.mp h1) (not_lt.mp h2)
    linarith

theorem det_neg_ray' (h : f.det < 0) : ∃ s, 0 < s ∧ f.Ray s := by
  obtain ⟨s, h1, hs⟩ := det_neg_ray h
  refine ⟨_, ?_, other_ray hs⟩
  have hp := ray_prod hs
  by_contra h2
  have := mul_nonneg_of_nonpos_of_nonpos h1.le (not_lt.mp h2)
  linarith

/-! ### the velocity on the sides of a cell -/

theorem notOpp_h (hd : f.det ≠ 0) {xa xb y : ℝ} (h : xa < xb) (hn : ¬ (f.py = y ∧ xa ≤ f.px ∧ f.px ≤ xb)) :
    NotOpposite (f.u xa y) (f.v xa y) (f.u xb y) (f.v xb y) := by
  rintro ⟨h1, h2⟩
  have e : f.u xa y * f.v xb y - f.v xa y * f.u xb y = f.det * ((y - f.py) * (xa - xb)) := by unfold u v det; ring
  rw [e] at h1
  have hy : y - f.py = 0 := by
    rcases mul_eq_zero.mp h1 with h | h
    · exact absurd h hd
    · rcases mul_eq_zero.mp h with h | h
      · exact h
      · linarith
  have e2 : f.u xa y * f.u xb y + f.v xa y * f.v xb y = (xa - f.px) * (xb - f.px) * (f.a ^ 2 + f.c ^ 2) := by
    unfold u v; rw [hy]; ring
  rw [e2] at h2
  have hp : 0 < f.a ^ 2 + f.c ^ 2 := by
    rcases lt_or_eq_of_le (add_nonneg (sq_nonneg f.a) (sq_nonneg f.c)) with h | h
    · exact h
    · have ha : f.a = 0 := by nlinarith [sq_nonneg f.a, sq_nonneg f.c]
      have hc : f.c = 0 := by nlinarith [sq_nonneg f.a, sq_nonneg f.c]
      exact absurd (by unfold det; rw [ha, hc]; ring) hd
  have h3 : (xa - f.px) * (xb - f.px) ≤ 0 := by
    by_contra hh
    have := mul_pos (not_le.mp hh) hp
    linarith
  refine hn ⟨by linarith, ?_, ?_⟩
  · by_contra hh
    have : 0 < (xa - f.px) * (xb - f.px) := mul_pos (by linarith) (by linarith)
    linarith
  · by_contra hh
    have : 0 < (xa - f.px) * (xb - f.px) := mul_pos_of_neg_of_neg (by linarith) (by linarith)
    linarith

theorem notOpp_v (hd : f.det ≠ 0) {ya yb x : ℝ} (h : ya < yb) (hn : ¬ (f.px = x ∧ ya ≤ f.py ∧ f.py ≤ yb)) :
    NotOpposite (f.u x ya) (f.v x ya) (f.u x yb) (f.v x yb) := by
  rintro ⟨h1, h2⟩
  have e : f.u x ya * f.v x yb - f.v x ya * f.u x yb = f.det * ((x - f.px) * (yb - ya)) := by unfold u v det; ring
  rw [e] at h1
  have hx : x - f.px = 0 := by
    rcases mul_eq_zero.mp h1 with h | h
    · exact absurd h hd
    · rcases mul_eq_zero.mp h with h | h
      · exact h
      · linarith
  have e2 : f.u x ya * f.u x yb + f.v x ya * f.v x yb = (ya - f.py) * (yb - f.py) * (f.b ^ 2 + f.d ^ 2) := by
    unfold u v; rw [hx]; ring
  rw [e2] at h2
  have hp : 0 < f.b ^ 2 + f.d ^ 2 := by
    rcases lt_or_eq_of_le (add_nonneg (sq_nonneg f.b) (sq_nonneg f.d)) with h | h
    · exact h
    · have hb : f.b = 0 := by nlinarith [sq_nonneg f.b, sq_nonneg f.d]
      have hd' : f.d = 0 := by nlinarith [sq_nonneg f.b, sq_nonneg f.d]
      exact absurd (by unfold det; rw [hb, hd']; ring) hd
  have h3 : (ya - f.py) * (yb - f.py) ≤ 0 := by
    by_contra hh
    have := mul_pos (not_le.mp hh) hp
    linarith
  refine hn ⟨by linarith, ?_, ?_⟩
  · by_contra hh
    have : 0 < (ya - f.py) * (yb - f.py) := mul_pos (by linarith) (by linarith)
    linarith
  · by_contra hh
    have : 0 < (ya - f.py) * (yb - f.py) := mul_pos_of_neg_of_neg (by linarith) (by linarith)
    linarith

/-- The velocity components on the grid of axes `X` (columns) and `Y` (rows). -/
def gu (f : Flow) (X Y : Nat → ℝ) : Nat → Nat → ℝ := fun r c => f.u (X c) (Y r)

/-- See `gu`. -/
def gv (f : Flow) (X Y : Nat → ℝ) : Nat → Nat → ℝ := fun r c => f.v (X c) (Y r)

variable {X Y : Nat → ℝ}

theorem clean (hd : f.det ≠ 0) (hX : StrictMono X) (hY : StrictMono Y) {i j : Nat}
    (h1 : ¬ (f.py = Y i ∧ X j ≤ f.px ∧ f.px ≤ X (j + 1))) (h2 : ¬ (f.py = Y (i + 1) ∧ X j ≤ f.px ∧ f.px ≤ X (j + 1)))
    (h3 : ¬ (f.px = X j ∧ Y i ≤ f.py ∧ f.py ≤ Y (i + 1))) (h4 : ¬ (f.px = X (j + 1) ∧ Y i ≤ f.py ∧ f.py ≤ Y (i + 1))) :
    CleanSides (cellOf (f.gu X Y) (f.gv X Y) i j) :=
  ⟨notOpp_h hd (hX (Nat.lt_succ_self j)) h1, notOpp_v hd (hY (Nat.lt_succ_self i)) h3, notOpp_v hd (hY (Nat.lt_succ_self i)) h4,
    notOpp_h hd (hX (Nat.lt_succ_self j)) h2⟩

/-- A cell that does not hold the critical point has the index 0. -/
theorem index_outside (hd : f.det ≠ 0) (hX : StrictMono X) (hY : StrictMono Y) {i j : Nat}
    (h : ¬ (X j ≤ f.px ∧ f.px ≤ X (j + 1) ∧ Y i ≤ f.py ∧ f.py ≤ Y (i + 1))) : cellIndex (f.gu X Y) (f.gv X Y) i j = 0 := by
  have hx := hX (Nat.lt_succ_self j)
  have hy := hY (Nat.lt_succ_self i)
  by_contra hidx
  have hcl : CleanSides (cellOf (f.gu X Y) (f.gv X Y) i j) := by
    refine clean hd hX hY ?_ ?_ ?_ ?_
    · rintro ⟨e, h1, h2⟩; exact h ⟨h1, h2, e.ge, by rw [e]; exact hy.le⟩
    · rintro ⟨e, h1, h2⟩; exact h ⟨h1, h2, by rw [e]; exact hy.le, e.le⟩
    · rintro ⟨e, h1, h2⟩; exact h ⟨e.ge, by rw [e]; exact hx.le, h1, h2⟩
    · rintro ⟨e, h1, h2⟩; exact h ⟨by rw [e]; exact hx.le, e.le, h1, h2⟩
  obtain ⟨x, y, ⟨x0, x1, y0, y1⟩, z1, z2⟩ := C59_detected_has_zero (dx := X (j + 1) - X j) (dy := Y (i + 1) - Y i) (sub_pos.mpr hx) (sub_pos.mpr hy) hcl hidx
  have hxn : X (j + 1) - X j ≠ 0 := (sub_pos.mpr hx).ne'
  have hyn : Y (i + 1) - Y i ≠ 0 := (sub_pos.mpr hy).ne'
  have e1 : f.u (X j + x) (Y i + y) = 0 := by
    rw [← z1]
    unfold bilin
    rw [eq_div_iff (mul_ne_zero hxn hyn)]
    simp only [cellOf, gu, u]
    ring
  have e2 : f.v (X j + x) (Y i + y) = 0 := by
    rw [← z2]
    unfold bilin
    rw [eq_div_iff (mul_ne_zero hxn hyn)]
    simp only [cellOf, gv, v]
    ring
  unfold u at e1
  unfold v at e2
  have k1 : f.det * (X j + x - f.px) = 0 := by unfold det; linear_combination f.d * e1 - f.b * e2
  have k2 : f.det * (Y i + y - f.py) = 0 := by unfold det; linear_combination f.a * e2 - f.c * e1
  have kx := (mul_eq_zero.mp k1).resolve_left hd
  have ky := (mul_eq_zero.mp k2).resolve_left hd
  exact h ⟨by linarith, by linarith, by linarith, by linarith⟩

/-- The index of the cell that holds the critical point is the sign of the determinant. -/
theorem index_inside (hd : f.det ≠ 0) (hX : StrictMono X) (hY : StrictMono Y) {i j : Nat} (hx0 : X j < f.px) (hx1 : f.px < X (j + 1))
    (hy0 : Y i < f.py) (hy1 : f.py < Y (i + 1)) : cellIndex (f.gu X Y) (f.gv X Y) i j = if 0 < f.det then 1 else -1 := by
  have hcl : CleanSides (cellOf (f.gu X Y) (f.gv X Y) i j) := by
    refine clean hd hX hY ?_ ?_ ?_ ?_ <;> rintro ⟨e, h1, h2⟩ <;> linarith
  have hi := index_arg hcl
  have i12 : (turnc (q1 (cellOf (f.gu X Y) (f.gv X Y) i j)) (q2 (cellOf (f.gu X Y) (f.gv X Y) i j))).im = f.det * ((f.py - Y i) * (X (j + 1) - X j)) := by
    rw [turnc_im]; simp only [q1, q2, cellOf, gu, gv, u, v, det]; ring
  have i24 : (turnc (q2 (cellOf (f.gu X Y) (f.gv X Y) i j)) (q4 (cellOf (f.gu X Y) (f.gv X Y) i j))).im = f.det * ((X (j + 1) - f.px) * (Y (i + 1) - Y i)) := by
    rw [turnc_im]; simp only [q2, q4, cellOf, gu, gv, u, v, det]; ring
  have i13 : (turnc (q1 (cellOf (f.gu X Y) (f.gv X Y) i j)) (q3 (cellOf (f.gu X Y) (f.gv X Y) i j))).im = -(f.det * ((f.px - X j) * (Y (i + 1) - Y i))) := by
    rw [turnc_im]; simp only [q1, q3, cellOf, gu, gv, u, v, det]; ring
  have i34 : (turnc (q3 (cellOf (f.gu X Y) (f.gv X Y) i j)) (q4 (cellOf (f.gu X Y) (f.gv X Y) i j))).im = -(f.det * ((Y (i + 1) - f.py) * (X (j + 1) - X j))) := by
    rw [turnc_im]; simp only [q3, q4, cellOf, gu, gv, u, v, det]; ring
  have p12 : 0 < (f.py - Y i) * (X (j + 1) - X j) := mul_pos (by linarith) (by linarith)
  have p24 : 0 < (X (j + 1) - f.px) * (Y (i + 1) - Y i) := mul_pos (by linarith) (by linarith)
  have p13 : 0 < (f.px - X j) * (Y (i + 1) - Y i) := mul_pos (by linarith) (by linarith)
  have p34 : 0 < (Y (i + 1) - f.py) * (X (j + 1) - X j) := mul_pos (by linarith) (by linarith)
  have hp := pi_pos
  by_cases h : 0 < f.det
  · rw [if_pos h]
    have a1 : 0 ≤ (turnc (q1 (cellOf (f.gu X Y) (f.gv X Y) i j)) (q2 (cellOf (f.gu X Y) (f.gv X Y) i j))).arg :=
      Complex.arg_nonneg_iff.mpr (by rw [i12]; exact (mul_pos h p12).le)
    have a2 : 0 ≤ (turnc (q2 (cellOf (f.gu X Y) (f.gv X Y) i j)) (q4 (cellOf (f.gu X Y) (f.gv X Y) i j))).arg :=
      Complex.arg_nonneg_iff.mpr (by rw [i24]; exact (mul_pos h p24).le)
    have a3 : (turnc (q1 (cellOf (f.gu X Y) (f.gv X Y) i j)) (q3 (cellOf (f.gu X Y) (f.gv X Y) i j))).arg < 0 :=
      Complex.arg_neg_iff.mpr (by rw [i13]; have := mul_pos h p13; linarith)
    have a4 : (turnc (q3 (cellOf (f.gu X Y) (f.gv X Y) i j)) (q4 (cellOf (f.gu X Y) (f.gv X Y) i j))).arg < 0 :=
      Complex.arg_neg_iff.mpr (by rw [i34]; have := mul_pos h p34; linarith)
    have hpos : 0 < cellIndex (f.gu X Y) (f.gv X Y) i j * (2 * π) := by rw [hi]; linarith
    rcases C57_velocity_cell (f.gu X Y) (f.gv X Y) i j with e | e | e
    · rw [e] at hpos; linarith
    · rw [e] at hpos; linarith
    · exact e
  · rw [if_neg h]
    have h : f.det < 0 := lt_of_le_of_ne (not_lt.mp h) hd
    have a1 : (turnc (q1 (cellOf (f.gu X Y) (f.gv X Y) i j)) (q2 (cellOf (f.gu X Y) (f.gv X Y) i j))).arg < 0 :=
      Complex.arg_neg_iff.mpr (by rw [i12]; exact mul_neg_of_neg_of_pos h p12)
    have a2 : (turnc (q2 (cellOf (f.gu X Y) (f.gv X Y) i j)) (q4 (cellOf (f.gu X Y) (f.gv X Y) i j))).arg < 0 :=
      Complex.arg_neg_iff.mpr (by rw [i24]; exact mul_neg_of_neg_of_pos h p24)
    have a3 : 0 ≤ (turnc (q1 (cellOf (f.gu X Y) (f.gv X Y) i j)) (q3 (cellOf (f.gu X Y) (f.gv X Y) i j))).arg :=
      Complex.arg_nonneg_iff.mpr (by rw [i13]; have := mul_neg_of_neg_of_pos h p13; linarith)
    have a4 : 0 ≤ (turnc (q3 (cellOf (f.gu X Y) (f.gv X Y) i j)) (q4 (cellOf (f.gu X Y) (f.gv X Y) i j))).arg :=
      Complex.arg_nonneg_iff.mpr (by rw [i34]; have := mul_neg_of_neg_of_pos h p34; linarith)
    have hneg : cellIndex (f.gu X Y) (f.gv X Y) i j * (2 * π) < 0 := by rw [hi]; linarith
    rcases C57_velocity_cell (f.gu X Y) (f.gv X Y) i j with e | e | e
    · exact e
    · rw [e] at hneg; linarith
    · rw [e] at hneg; linarith

/-- A linear function that is not constant takes both signs at the corners of a cell in which it vanishes. -/
theorem both_signs {g h px py x0 x1 y0 y1 : ℝ} (hgh : ¬ (g = 0 ∧ h = 0)) (hx0 : x0 < px) (hx1 : px < x1) (hy0 : y0 < py) (hy1 : py < y1) :
    (0 < g * (x0 - px) + h * (y0 - py) ∨ 0 < g * (x0 - px) + h * (y1 - py) ∨ 0 < g * (x1 - px) + h * (y0 - py) ∨
      0 < g * (x1 - px) + h * (y1 - py)) ∧
    (g * (x0 - px) + h * (y0 - py) < 0 ∨ g * (x0 - px) + h * (y1 - py) < 0 ∨ g * (x1 - px) + h * (y0 - py) < 0 ∨
      g * (x1 - px) + h * (y1 - py) < 0) := by
  have a0 : 0 < px - x0 := by linarith
  have a1 : 0 < x1 - px := by linarith
  have b0 : 0 < py - y0 := by linarith
  have b1 : 0 < y1 - py := by linarith
  rcases lt_trichotomy g 0 with hg | hg | hg <;> rcases lt_trichotomy h 0 with hh | hh | hh
  · exact ⟨.inl (by nlinarith), .inr (.inr (.inr (by nlinarith)))⟩
  · exact ⟨.inl (by nlinarith), .inr (.inr (.inr (by nlinarith)))⟩
  · exact ⟨.inr (.inl (by nlinarith)), .inr (.inr (.inl (by nlinarith)))⟩
  · exact ⟨.inl (by nlinarith), .inr (.inr (.inr (by nlinarith)))⟩
  · exact absurd ⟨hg, hh⟩ hgh
  · exact ⟨.inr (.inl (by nlinarith)), .inr (.inr (.inl (by nlinarith)))⟩
  · exact ⟨.inr (.inr (.inl (by nlinarith))), .inr (.inl (by nlinarith))⟩
  · exact ⟨.inr (.inr (.inl (by nlinarith))), .inr (.inl (by nlinarith))⟩
  · exact ⟨.inr (.inr (.inr (by nlinarith))), .inl (by nlinarith)⟩

theorem examined_inside (hd : f.det ≠ 0) {i j : Nat} (hx0 : X j < f.px) (hx1 : f.px < X (j + 1))
    (hy0 : Y i < f.py) (hy1 : f.py < Y (i + 1)) : examined (f.gu X Y) (f.gv X Y) i j := by
  have s1 := both_signs (g := f.a) (h := f.b) (by rintro ⟨h1, h2⟩; exact hd (by unfold det; rw [h1, h2]; ring)) hx0 hx1 hy0 hy1
  have s2 := both_signs (g := f.c) (h := f.d) (by rintro ⟨h1, h2⟩; exact hd (by unfold det; rw [h1, h2]; ring)) hx0 hx1 hy0 hy1
  refine ⟨⟨fun h => ?_, fun h => ?_⟩, ⟨fun h => ?_, fun h => ?_⟩⟩
  · have := positives_zero h
    simp only [corners, List.forall_mem_cons, List.not_mem_nil, false_implies, implies_true, and_true, gu, u] at this
    rcases s1.1 with k | k | k | k <;> linarith
  · have := positives_four h
    simp only [corners, List.forall_mem_cons, List.not_mem_nil, false_implies, implies_true, and_true, gu, u] at this
    rcases s1.2 with k | k | k | k <;> linarith
  · have := positives_zero h
    simp only [corners, List.forall_mem_cons, List.not_mem_nil, false_implies, implies_true, and_true, gv, v] at this
    rcases s2.1 with k | k | k | k <;> linarith
  · have := positives_four h
    simp only [corners, List.forall_mem_cons, List.not_mem_nil, false_implies, implies_true, and_true, gv, v] at this
    rcases s2.2 with k | k | k | k <;> linarith

theorem jacobian_eq (X Y : Nat → ℝ) (i j : Nat) :
    jacobian (cellOf (f.gu X Y) (f.gv X Y) i j) =
      ⟨f.a * (X (j + 1) - X j), f.b * (Y (i + 1) - Y i), f.c * (X (j + 1) - X j), f.d * (Y (i + 1) - Y i)⟩ := by
  simp only [jacobian, cellOf, gu, gv, u, v, Mat.mk.injEq]
  refine ⟨by ring, by ring, by ring, by ring⟩

end Flow

theorem mem_detected {vx vy : Nat → Nat → ℝ} {mask : Nat → Nat → Bool} {n m : Nat} {p : Nat × Nat} :
    p ∈ detected vx vy mask n m ↔ p.1 < n - 1 ∧ p.2 < m - 1 ∧ reported vx vy mask p = true := by
  unfold detected
  rw [List.mem_filter, List.mem_flatMap]
  simp only [List.mem_range, List.mem_map]
  constructor
  · rintro ⟨⟨i, hi, j, hj, rfl⟩, h⟩; exact ⟨hi, hj, h⟩
  · rintro ⟨h1, h2, h⟩; exact ⟨⟨p.1, h1, p.2, h2, rfl⟩, h⟩

theorem detected_nodup (vx vy : Nat → Nat → ℝ) (mask : Nat → Nat → Bool) (n m : Nat) : (detected vx vy mask n m).Nodup := by
  unfold detected
  refine List.Nodup.filter _ ?_
  exact List.Nodup.product List.nodup_range List.nodup_range

/-- Eigenvalues of a matrix with a real eigenvalue are real, and the first is a root. -/
theorem eig_real {e1 e2 : ℂ} {s t : ℝ} (h1 : e1 + e2 = ((s + t : ℝ) : ℂ)) (h2 : e1 * e2 = ((s * t : ℝ) : ℂ)) :
    e1.im = 0 ∧ e2.im = 0 ∧ (e1.re = s ∨ e1.re = t) ∧ e1.re + e2.re = s + t := by
  have h : (e1 - s) * (e1 - t) = 0 := by
    push_cast at h1 h2
    have : e2 = s + t - e1 := by linear_combination h1
    rw [this] at h2
    linear_combination (-h2)
  have hsum : e1.re + e2.re = s + t := by
    have := congrArg Complex.re h1
    simpa using this
  have him : e1.im + e2.im = 0 := by
    have := congrArg Complex.im h1
    simpa using this
  rcases mul_eq_zero.mp h with h | h
  · have e : e1 = (s : ℂ) := by linear_combination h
    rw [e] at him hsum ⊢
    simp at him hsum ⊢
    exact ⟨him, hsum⟩
  · have e : e1 = (t : ℂ) := by linear_combination h
    rw [e] at him hsum ⊢
    simp at him hsum ⊢
    exact ⟨him, hsum⟩

theorem mu_zero {e : ℂ × ℂ} : mu e = 0 ↔ e.1.im = 0 ∧ e.2.im = 0 := by
  unfold mu
  constructor
  · intro h
    have h1 := abs_nonneg e.1.im
    have h2 := abs_nonneg e.2.im
    exact ⟨abs_eq_zero.mp (by linarith), abs_eq_zero.mp (by linarith)⟩
  · rintro ⟨h1, h2⟩; rw [h1, h2]; simp

end IMT.Linear
