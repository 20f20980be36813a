import Mathlib.Tactic.IntervalCases
import Verif.Linear.Lemmas

/-! C219 to C222: detection and classification of the critical point of a linear flow. -/

namespace IMT.Linear

open Pbi Real

/-! ### C219: where -/

section

variable {f : Flow} {X Y : Nat → ℝ} {n m i j : Nat}

/-- The velocity components of the flow at the points of the grid: row `r` is `Y r`, column `c` is `X c`. -/
def onGrid (f : Flow) (X Y : Nat → ℝ) : (Nat → Nat → ℝ) × (Nat → Nat → ℝ) := (fun r c => f.u (X c) (Y r), fun r c => f.v (X c) (Y r))

/-- C219: on any grid, even or not, a linear flow whose critical point is strictly inside a cell of the field is reported in this cell, and nowhere else. -/
theorem C219_inside (hd : f.det ≠ 0) (hX : StrictMono X) (hY : StrictMono Y) (hi : i + 1 < n) (hj : j + 1 < m)
    (hx0 : X j < f.px) (hx1 : f.px < X (j + 1)) (hy0 : Y i < f.py) (hy1 : f.py < Y (i + 1)) :
    detected (onGrid f X Y).1 (onGrid f X Y).2 (fun _ _ => false) n m = [(i, j)] := by
  refine List.perm_singleton.mp ((List.perm_ext_iff_of_nodup (detected_nodup _ _ _ _ _) (List.nodup_singleton _)).mpr fun p => ?_)
  rw [mem_detected, List.mem_singleton, reported_iff]
  constructor
  · rintro ⟨-, -, -, -, h⟩
    by_contra hne
    apply h
    refine Flow.index_outside hd hX hY fun ⟨a1, a2, a3, a4⟩ => hne ?_
    have b1 : p.2 < j + 1 := hX.lt_iff_lt.mp (lt_of_le_of_lt a1 hx1)
    have b2 : j < p.2 + 1 := hX.lt_iff_lt.mp (lt_of_lt_of_le hx0 a2)
    have b3 : p.1 < i + 1 := hY.lt_iff_lt.mp (lt_of_le_of_lt a3 hy1)
    have b4 : i < p.1 + 1 := hY.lt_iff_lt.mp (lt_of_lt_of_le hy0 a4)
    exact Prod.ext (by dsimp only; omega) (by dsimp only; omega)
  · rintro rfl
    refine ⟨by dsimp only; omega, by dsimp only; omega, fun _ _ => rfl, Flow.examined_inside hd hx0 hx1 hy0 hy1, ?_⟩
    have := Flow.index_inside hd hX hY hx0 hx1 hy0 hy1
    show cellIndex (f.gu X Y) (f.gv X Y) i j ≠ 0
    rw [this]
    split_ifs <;> norm_num

/-- C219: a linear flow whose critical point is outside of the field gives no report. -/
theorem C219_outside (hd : f.det ≠ 0) (hX : StrictMono X) (hY : StrictMono Y)
    (h : f.px < X 0 ∨ X (m - 1) < f.px ∨ f.py < Y 0 ∨ Y (n - 1) < f.py) :
    detected (onGrid f X Y).1 (onGrid f X Y).2 (fun _ _ => false) n m = [] := by
  refine List.eq_nil_iff_forall_not_mem.mpr fun p hp => ?_
  rw [mem_detected, reported_iff] at hp
  obtain ⟨h1, h2, -, -, h3⟩ := hp
  refine h3 (Flow.index_outside hd hX hY fun ⟨a1, a2, a3, a4⟩ => ?_)
  rcases h with h | h | h | h
  · exact absurd (lt_of_le_of_lt a1 h) (not_lt.mpr (hX.monotone (Nat.zero_le _)))
  · exact absurd (lt_of_lt_of_le h a2) (not_lt.mpr (hX.monotone (by omega)))
  · exact absurd (lt_of_le_of_lt a3 h) (not_lt.mpr (hY.monotone (Nat.zero_le _)))
  · exact absurd (lt_of_lt_of_le h a4) (not_lt.mpr (hY.monotone (by omega)))

/-- Solid rotation. -/
def rotation (ω px py : ℝ) : Flow := ⟨0, -ω, ω, 0, px, py⟩

theorem flat_index {vx vy : Nat → Nat → ℝ} (h : ∀ p ∈ corners i j, theta (vx p.1 p.2) (vy p.1 p.2) ≤ π) : cellIndex vx vy i j = 0 := by
  unfold cellIndex
  apply lift_zero fun t => t
  intro a ha b hb
  have a1 := (theta_range (vx a.1 a.2) (vy a.1 a.2)).1
  have b1 := (theta_range (vx b.1 b.2) (vy b.1 b.2)).1
  have a2 := h a ha
  have b2 := h b hb
  unfold W thetas
  rw [wrap_inner (by linarith) (by linarith)]

/-- C219 fails for a critical point on a point of the grid: a vortex in solid rotation (anticlockwise) centred on any point of the grid, the middle of the field
included, is not reported at all. -/
theorem C219_node_violated (hX : StrictMono X) (hY : StrictMono Y) {ω : ℝ} (hω : 0 < ω) (i j : Nat) :
    detected (onGrid (rotation ω (X j) (Y i)) X Y).1 (onGrid (rotation ω (X j) (Y i)) X Y).2 (fun _ _ => false) n m = [] := by
  refine List.eq_nil_iff_forall_not_mem.mpr fun p hp => ?_
  rw [mem_detected, reported_iff] at hp
  obtain ⟨-, -, -, hex, h3⟩ := hp
  have hd : (rotation ω (X j) (Y i)).det ≠ 0 := by unfold Flow.det rotation; simp; exact hω.ne'
  by_cases hin : X p.2 ≤ X j ∧ X j ≤ X (p.2 + 1) ∧ Y p.1 ≤ Y i ∧ Y i ≤ Y (p.1 + 1)
  · obtain ⟨a1, a2, a3, a4⟩ := hin
    rw [hX.le_iff_le] at a1 a2
    rw [hY.le_iff_le] at a3 a4
    by_cases hr : p.1 = i
    · -- above: the first component is never positive
      refine hex.1.1 ?_
      have y1 : Y i < Y (i + 1) := hY (Nat.lt_succ_self i)
      have e0 : ∀ c, ¬ 0 < (onGrid (rotation ω (X j) (Y i)) X Y).1 i c := by
        intro c; simp [onGrid, rotation, Flow.u]
      have e1 : ∀ c, ¬ 0 < (onGrid (rotation ω (X j) (Y i)) X Y).1 (i + 1) c := by
        intro c
        have := mul_pos hω (sub_pos.mpr y1)
        simp only [onGrid, rotation, Flow.u]
        linarith
      simp only [positives, hr, if_neg (e0 _), if_neg (e1 _)]
    · have hr' : p.1 + 1 = i := by omega
      by_cases hc : p.2 = j
      · -- below, on the right: no turn
        refine h3 (flat_index fun q hq => ?_)
        have hp := pi_pos
        have y1 : 0 < Y i - Y p.1 := sub_pos.mpr (hY (by omega))
        have x1 : 0 < X (p.2 + 1) - X p.2 := sub_pos.mpr (hX (Nat.lt_succ_self _))
        have up : ∀ r, theta ((onGrid (rotation ω (X j) (Y i)) X Y).1 r (p.2 + 1)) ((onGrid (rotation ω (X j) (Y i)) X Y).2 r (p.2 + 1)) ≤ π := by
          intro r
          refine (theta_up ?_).2.le
          have := mul_pos hω x1
          simp only [onGrid, rotation, Flow.v]
          rw [← hc]
          linarith
        have zero : ∀ r, (onGrid (rotation ω (X j) (Y i)) X Y).2 r p.2 = 0 := by
          intro r; simp [onGrid, rotation, Flow.v, hc]
        simp only [corners, List.mem_cons, List.not_mem_nil, or_false] at hq
        rcases hq with rfl | rfl | rfl | rfl
        · dsimp only
          rw [zero, theta_right]
          · exact hp.le
          · have := mul_pos hω y1
            simp only [onGrid, rotation, Flow.u]
            linarith
        · dsimp only
          have : (onGrid (rotation ω (X j) (Y i)) X Y).1 (p.1 + 1) p.2 = 0 := by simp [onGrid, rotation, Flow.u, hr']
          rw [zero, this, theta_zero]
          exact hp.le
        · exact up _
        · exact up _
      · -- below, on the left: the second component is never positive
        have hc' : p.2 + 1 = j := by omega
        refine hex.2.1 ?_
        have x1 : X p.2 < X j := hX (by omega)
        have e0 : ∀ r, ¬ 0 < (onGrid (rotation ω (X j) (Y i)) X Y).2 r p.2 := by
          intro r
          have := mul_pos hω (sub_pos.mpr x1)
          simp only [onGrid, rotation, Flow.v]
          linarith
        have e1 : ∀ r, ¬ 0 < (onGrid (rotation ω (X j) (Y i)) X Y).2 r (p.2 + 1) := by
          intro r; simp [onGrid, rotation, Flow.v, hc']
        simp only [positives, if_neg (e0 _), if_neg (e1 _)]
  · exact h3 (Flow.index_outside hd hX hY hin)

/-! ### C220: what -/

theorem IsEig.scaled {eig : Mat → ℂ × ℂ} (he : IsEig eig) {h s : ℝ} (hh : X (j + 1) - X j = h) (hk : Y (i + 1) - Y i = h) (hs : f.Ray s) :
    mu (eig (jacobian (cellOf (f.gu X Y) (f.gv X Y) i j))) = 0 ∧
      ∃ t, f.Ray t ∧ (eig (jacobian (cellOf (f.gu X Y) (f.gv X Y) i j))).1.re = h * t := by
  obtain ⟨e1, e2⟩ := he (jacobian (cellOf (f.gu X Y) (f.gv X Y) i j))
  rw [Flow.jacobian_eq, hh, hk] at *
  have hp := Flow.ray_prod hs
  have r := eig_real (s := h * s) (t := h * (f.a + f.d - s)) (by rw [e1]; congr 1; ring) (by
    rw [e2]; congr 1; dsimp only; unfold Flow.det at hp; linear_combination (-h ^ 2) * hp)
  refine ⟨mu_zero.mpr ⟨r.1, r.2.1⟩, ?_⟩
  rcases r.2.2.1 with e | e
  · exact ⟨s, hs, e⟩
  · exact ⟨_, Flow.other_ray hs, e⟩

/-- When the eigenvalues of the jacobian of a square cell are real, there is a straight line in the flow. -/
theorem IsEig.ray {eig : Mat → ℂ × ℂ} (he : IsEig eig) {h : ℝ} (h0 : 0 < h) (hh : X (j + 1) - X j = h) (hk : Y (i + 1) - Y i = h)
    (hm : mu (eig (jacobian (cellOf (f.gu X Y) (f.gv X Y) i j))) = 0) : ∃ s, f.Ray s := by
  obtain ⟨e1, e2⟩ := he (jacobian (cellOf (f.gu X Y) (f.gv X Y) i j))
  rw [Flow.jacobian_eq, hh, hk] at *
  obtain ⟨m1, m2⟩ := mu_zero.mp hm
  generalize eig _ = e at *
  have s1 := congrArg Complex.re e1
  have s2 := congrArg Complex.re e2
  simp only [Complex.add_re, Complex.mul_re, Complex.ofReal_re, m1, m2] at s1 s2
  refine ⟨e.1.re / h, Flow.ray_iff.mpr ?_⟩
  have h0' := h0.ne'
  have : h ^ 2 * ((e.1.re / h) ^ 2 - (f.a + f.d) * (e.1.re / h) + f.det) = 0 := by
    have e3 : h * (e.1.re / h) = e.1.re := by field_simp
    have : h ^ 2 * ((e.1.re / h) ^ 2 - (f.a + f.d) * (e.1.re / h) + f.det) =
        (h * (e.1.re / h)) ^ 2 - (f.a * h + f.d * h) * (h * (e.1.re / h)) + h ^ 2 * f.det := by ring
    rw [this, e3]
    unfold Flow.det
    linear_combination e.1.re * s1 - s2
  exact (mul_eq_zero.mp this).resolve_left (by positivity)

/-- C220: in a square cell holding the critical point, the type given is the nature of the flow: 0 for a saddle point, 1 and 2 for a centre or focus turning
clockwise and anticlockwise, 3 and 4 for an outgoing and ingoing node. -/
theorem C220_type {eig : Mat → ℂ × ℂ} (he : IsEig eig) (hd : f.det ≠ 0) (hX : StrictMono X) (hY : StrictMono Y)
    (hx0 : X j < f.px) (hx1 : f.px < X (j + 1)) (hy0 : Y i < f.py) (hy1 : f.py < Y (i + 1)) (hsq : X (j + 1) - X j = Y (i + 1) - Y i) :
    (f.Saddle → typeOf eig (onGrid f X Y).1 (onGrid f X Y).2 (i, j) = 0) ∧
    (f.Clockwise → typeOf eig (onGrid f X Y).1 (onGrid f X Y).2 (i, j) = 1) ∧
    (f.Anticlockwise → typeOf eig (onGrid f X Y).1 (onGrid f X Y).2 (i, j) = 2) ∧
    (f.NodeOut → typeOf eig (onGrid f X Y).1 (onGrid f X Y).2 (i, j) = 3) ∧
    (f.NodeIn → typeOf eig (onGrid f X Y).1 (onGrid f X Y).2 (i, j) = 4) := by
  have hidx := Flow.index_inside hd hX hY hx0 hx1 hy0 hy1
  have hw : 0 < X (j + 1) - X j := by linarith
  have hc : (jacobian (cellOf (f.gu X Y) (f.gv X Y) i j)).c = f.c * (X (j + 1) - X j) := by rw [Flow.jacobian_eq]
  have pos : ∀ {P : Prop}, (f.det < 0 → False) → (0 < f.det → P) → P := by
    intro P h1 h2; rcases lt_or_gt_of_ne hd with h | h
    · exact (h1 h).elim
    · exact h2 h
  have start : 0 < f.det → ¬ cellIndex (f.gu X Y) (f.gv X Y) i j = -1 := by
    intro h; rw [hidx, if_pos h]; norm_num
  have noray : (∀ s, ¬ f.Ray s) → mu (eig (jacobian (cellOf (f.gu X Y) (f.gv X Y) i j))) ≠ 0 := by
    intro h hm
    obtain ⟨s, hs⟩ := he.ray hw rfl hsq.symm hm
    exact h s hs
  show (_ → typeOf eig (f.gu X Y) (f.gv X Y) (i, j) = 0) ∧ (_ → typeOf eig (f.gu X Y) (f.gv X Y) (i, j) = 1) ∧
    (_ → typeOf eig (f.gu X Y) (f.gv X Y) (i, j) = 2) ∧ (_ → typeOf eig (f.gu X Y) (f.gv X Y) (i, j) = 3) ∧
    (_ → typeOf eig (f.gu X Y) (f.gv X Y) (i, j) = 4)
  refine ⟨fun h => ?_, fun h => ?_, fun h => ?_, fun h => ?_, fun h => ?_⟩
  · have := Flow.saddle_det h
    unfold typeOf
    rw [if_pos (by rw [hidx, if_neg (by linarith)])]
  · refine pos (fun h' => ?_) fun h' => ?_
    · obtain ⟨s, -, hs⟩ := Flow.det_neg_ray h'; exact Flow.clockwise_no_ray h hs
    · have := Flow.clockwise_c h
      unfold typeOf
      rw [if_neg (start h'), if_pos (noray fun s hs => Flow.clockwise_no_ray h hs), if_pos (by rw [hc]; exact mul_neg_of_neg_of_pos this hw)]
  · refine pos (fun h' => ?_) fun h' => ?_
    · obtain ⟨s, -, hs⟩ := Flow.det_neg_ray h'; exact Flow.anticlockwise_no_ray h hs
    · have := Flow.anticlockwise_c h
      unfold typeOf
      rw [if_neg (start h'), if_pos (noray fun s hs => Flow.anticlockwise_no_ray h hs), if_neg (by rw [hc]; exact not_lt.mpr (mul_pos this hw).le)]
  · refine pos (fun h' => ?_) fun h' => ?_
    · obtain ⟨s, h1, hs⟩ := Flow.det_neg_ray h'; exact absurd (h.2 s hs) (not_lt.mpr h1.le)
    · obtain ⟨⟨s, hs⟩, hall⟩ := h
      obtain ⟨hm, t, ht, hre⟩ := he.scaled rfl hsq.symm hs
      unfold typeOf
      rw [if_neg (start h'), if_neg (not_not.mpr hm), if_pos (by rw [hre]; exact (mul_pos hw (hall t ht)).le)]
  · refine pos (fun h' => ?_) fun h' => ?_
    · obtain ⟨s, h1, hs⟩ := Flow.det_neg_ray' h'; exact absurd (h.2 s hs) (not_lt.mpr h1.le)
    · obtain ⟨⟨s, hs⟩, hall⟩ := h
      obtain ⟨hm, t, ht, hre⟩ := he.scaled rfl hsq.symm hs
      unfold typeOf
      rw [if_neg (start h'), if_neg (not_not.mpr hm), if_neg (by rw [hre]; exact not_le.mpr (mul_neg_of_pos_of_neg hw (hall t ht)))]

/-- C220: whatever the steps of the grid, a saddle point is given the type 0 and nothing else is. -/
theorem C220_saddle_any_step {eig : Mat → ℂ × ℂ} (hd : f.det ≠ 0) (hX : StrictMono X) (hY : StrictMono Y)
    (hx0 : X j < f.px) (hx1 : f.px < X (j + 1)) (hy0 : Y i < f.py) (hy1 : f.py < Y (i + 1)) :
    typeOf eig (onGrid f X Y).1 (onGrid f X Y).2 (i, j) = 0 ↔ f.Saddle := by
  have hidx := Flow.index_inside hd hX hY hx0 hx1 hy0 hy1
  show typeOf eig (f.gu X Y) (f.gv X Y) (i, j) = 0 ↔ f.Saddle
  constructor
  · intro h
    have : cellIndex (f.gu X Y) (f.gv X Y) i j = -1 := by
      by_contra hn
      unfold typeOf at h
      rw [if_neg hn] at h
      split_ifs at h
    rw [hidx] at this
    have hneg : f.det < 0 := by
      by_contra hh
      rw [if_pos (lt_of_le_of_ne (not_lt.mp hh) hd.symm)] at this
      norm_num at this
    obtain ⟨s, h1, h2⟩ := Flow.det_neg_ray hneg
    obtain ⟨t, h3, h4⟩ := Flow.det_neg_ray' hneg
    exact ⟨s, t, h1, h3, h2, h4⟩
  · intro h
    have := Flow.saddle_det h
    unfold typeOf
    rw [if_pos (by rw [hidx, if_neg (by linarith)])]

/-- C220 fails when the steps of the grid are different: in every cell that is not square, some flow spiralling anticlockwise around the middle of the cell is
taken for an outgoing node, because the jacobian is computed with steps 1. -/
theorem C220_steps_violated {eig : Mat → ℂ × ℂ} (he : IsEig eig) (hX : StrictMono X) (hY : StrictMono Y) (hne : X (j + 1) - X j ≠ Y (i + 1) - Y i) :
    ∃ f : Flow, f.det ≠ 0 ∧ (X j < f.px ∧ f.px < X (j + 1) ∧ Y i < f.py ∧ f.py < Y (i + 1)) ∧ f.Anticlockwise ∧
      typeOf eig (onGrid f X Y).1 (onGrid f X Y).2 (i, j) = 3 := by
  have hw : 0 < X (j + 1) - X j := sub_pos.mpr (hX (Nat.lt_succ_self j))
  have hh : 0 < Y (i + 1) - Y i := sub_pos.mpr (hY (Nat.lt_succ_self i))
  have hq : 0 < (X (j + 1) - X j - (Y (i + 1) - Y i)) ^ 2 / (8 * ((X (j + 1) - X j) * (Y (i + 1) - Y i))) := by
    have : X (j + 1) - X j - (Y (i + 1) - Y i) ≠ 0 := sub_ne_zero.mpr hne
    positivity
  obtain ⟨k, hk0, hk⟩ : ∃ k : ℝ, 0 < k ∧ k ^ 2 = (X (j + 1) - X j - (Y (i + 1) - Y i)) ^ 2 / (8 * ((X (j + 1) - X j) * (Y (i + 1) - Y i))) :=
    ⟨_, Real.sqrt_pos.mpr hq, Real.sq_sqrt hq.le⟩
  have hx0 : X j < (X j + X (j + 1)) / 2 := by linarith
  have hx1 : (X j + X (j + 1)) / 2 < X (j + 1) := by linarith
  have hy0 : Y i < (Y i + Y (i + 1)) / 2 := by linarith
  have hy1 : (Y i + Y (i + 1)) / 2 < Y (i + 1) := by linarith
  obtain ⟨f, hf⟩ : ∃ f : Flow, f = ⟨1, -k, k, 1, (X j + X (j + 1)) / 2, (Y i + Y (i + 1)) / 2⟩ := ⟨_, rfl⟩
  have hd : 0 < f.det := by
    rw [hf]; unfold Flow.det; dsimp only
    have : 0 < k ^ 2 := by positivity
    nlinarith
  have hpx : f.px = (X j + X (j + 1)) / 2 := by rw [hf]
  have hpy : f.py = (Y i + Y (i + 1)) / 2 := by rw [hf]
  refine ⟨f, hd.ne', ⟨by rw [hpx]; exact hx0, by rw [hpx]; exact hx1, by rw [hpy]; exact hy0, by rw [hpy]; exact hy1⟩, ?_, ?_⟩
  · intro x y hxy
    have e : (x - f.px) * f.v x y - (y - f.py) * f.u x y = k * ((x - f.px) ^ 2 + (y - f.py) ^ 2) := by
      unfold Flow.u Flow.v; rw [hf]; ring
    rw [e]
    refine mul_pos hk0 ?_
    by_contra hc
    have h1 : (x - f.px) ^ 2 = 0 := by nlinarith [sq_nonneg (x - f.px), sq_nonneg (y - f.py)]
    have h2 : (y - f.py) ^ 2 = 0 := by nlinarith [sq_nonneg (x - f.px), sq_nonneg (y - f.py)]
    exact hxy (by rw [sub_eq_zero.mp (pow_eq_zero_iff (two_ne_zero)|>.mp h1), sub_eq_zero.mp (pow_eq_zero_iff (two_ne_zero)|>.mp h2)])
  · have hidx := Flow.index_inside hd.ne' hX hY (by rw [hpx]; exact hx0) (by rw [hpx]; exact hx1) (by rw [hpy]; exact hy0) (by rw [hpy]; exact hy1)
    rw [if_pos hd] at hidx
    show typeOf eig (f.gu X Y) (f.gv X Y) (i, j) = 3
    -- the two eigenvalues of the matrix built by the code
    have hwh : 0 < (X (j + 1) - X j) * (Y (i + 1) - Y i) := mul_pos hw hh
    have hdisc : 8 * k ^ 2 * ((X (j + 1) - X j) * (Y (i + 1) - Y i)) = (X (j + 1) - X j - (Y (i + 1) - Y i)) ^ 2 := by
      rw [hk]; field_simp
    obtain ⟨e1, e2⟩ := he (jacobian (cellOf (f.gu X Y) (f.gv X Y) i j))
    have hj := Flow.jacobian_eq (f := f) X Y i j
    have hsum : ∃ s t : ℝ, 0 < s ∧ 0 < t ∧ s + t = (jacobian (cellOf (f.gu X Y) (f.gv X Y) i j)).a + (jacobian (cellOf (f.gu X Y) (f.gv X Y) i j)).d ∧
        s * t = (jacobian (cellOf (f.gu X Y) (f.gv X Y) i j)).a * (jacobian (cellOf (f.gu X Y) (f.gv X Y) i j)).d -
          (jacobian (cellOf (f.gu X Y) (f.gv X Y) i j)).b * (jacobian (cellOf (f.gu X Y) (f.gv X Y) i j)).c := by
      rw [hj]
      simp only [hf]
      generalize X (j + 1) - X j = w at *
      generalize Y (i + 1) - Y i = g at *
      have hr : 0 ≤ (w - g) ^ 2 - 4 * k ^ 2 * (w * g) := by nlinarith [sq_nonneg (w - g)]
      have hsq := Real.sq_sqrt hr
      have hlt : √((w - g) ^ 2 - 4 * k ^ 2 * (w * g)) < w + g := by
        rw [Real.sqrt_lt' (by linarith)]
        have : 0 < k ^ 2 * (w * g) := mul_pos (by positivity) hwh
        nlinarith
      have hnn := Real.sqrt_nonneg ((w - g) ^ 2 - 4 * k ^ 2 * (w * g))
      refine ⟨(w + g + √((w - g) ^ 2 - 4 * k ^ 2 * (w * g))) / 2, (w + g - √((w - g) ^ 2 - 4 * k ^ 2 * (w * g))) / 2, by linarith, by linarith, by ring, ?_⟩
      linear_combination (-1 / 4 : ℝ) * hsq
    obtain ⟨s, t, hs, ht, k1, k2⟩ := hsum
    have r := eig_real (s := s) (t := t) (by rw [e1, k1]) (by rw [e2, k2])
    unfold typeOf
    rw [if_neg (by rw [hidx]; norm_num), if_neg (not_not.mpr (mu_zero.mpr ⟨r.1, r.2.1⟩)), if_pos]
    rcases r.2.2.1 with e | e <;> rw [e]
    · exact hs.le
    · exact ht.le

/-- C220: the documentation calls the types 1 and 2 unstable and stable focus; an unstable anticlockwise focus is given the type 2, whatever its growth rate. -/
theorem C220_documented_violated {eig : Mat → ℂ × ℂ} (he : IsEig eig) (hX : StrictMono X) (hY : StrictMono Y) (hsq : X (j + 1) - X j = Y (i + 1) - Y i)
    {g ω : ℝ} (hg : 0 < g) (hω : 0 < ω) {x y : ℝ} (hx0 : X j < x) (hx1 : x < X (j + 1)) (hy0 : Y i < y) (hy1 : y < Y (i + 1)) :
    ∃ f : Flow, f = ⟨g, -ω, ω, g, x, y⟩ ∧ (∀ x' y', (x', y') ≠ (x, y) → 0 < (x' - x) * f.u x' y' + (y' - y) * f.v x' y') ∧
      typeOf eig (onGrid f X Y).1 (onGrid f X Y).2 (i, j) = 2 := by
  have hp : ∀ x' y', (x', y') ≠ (x, y) → 0 < (x' - x) ^ 2 + (y' - y) ^ 2 := by
    intro x' y' hne
    by_contra hc
    have h1 : (x' - x) ^ 2 = 0 := by nlinarith [sq_nonneg (x' - x), sq_nonneg (y' - y)]
    have h2 : (y' - y) ^ 2 = 0 := by nlinarith [sq_nonneg (x' - x), sq_nonneg (y' - y)]
    exact hne (by rw [sub_eq_zero.mp (pow_eq_zero_iff (two_ne_zero)|>.mp h1), sub_eq_zero.mp (pow_eq_zero_iff (two_ne_zero)|>.mp h2)])
  refine ⟨_, rfl, fun x' y' hne => ?_, ?_⟩
  · have := mul_pos hg (hp x' y' hne)
    unfold Flow.u Flow.v
    dsimp only
    linarith
  · refine (C220_type (f := ⟨g, -ω, ω, g, x, y⟩) he ?_ hX hY hx0 hx1 hy0 hy1 hsq).2.2.1 fun x' y' hne => ?_
    · unfold Flow.det; dsimp only; nlinarith [mul_pos hg hg, mul_pos hω hω]
    · have := mul_pos hω (hp x' y' hne)
      unfold Flow.u Flow.v
      dsimp only
      linarith

end

/-- C220: the five natures cover every linear flow with a single critical point. -/
theorem C220_natures {f : Flow} (hd : f.det ≠ 0) : f.Saddle ∨ f.Clockwise ∨ f.Anticlockwise ∨ f.NodeOut ∨ f.NodeIn := f.nature hd

/-! ### C221: the report -/

theorem fill_append (s : Sets) (l : List (Nat × (ℝ × ℝ))) (h : ∀ q ∈ l, q.1 ≤ 4) :
    s.fill l = some ⟨s.sadd ++ (l.filter (·.1 = 0)).map (·.2), s.focC ++ (l.filter (·.1 = 1)).map (·.2), s.foc ++ (l.filter (·.1 = 2)).map (·.2),
      s.nodeO ++ (l.filter (·.1 = 3)).map (·.2), s.nodeI ++ (l.filter (·.1 = 4)).map (·.2)⟩ := by
  induction l generalizing s with
  | nil => simp [Sets.fill]
  | cons q l ih =>
    obtain ⟨t, p⟩ := q
    have ht : t ≤ 4 := h (t, p) (by simp)
    have ih' := fun s => ih s fun q hq => h q (List.mem_cons_of_mem _ hq)
    interval_cases t <;> simp [Sets.fill, Sets.put, ih']

theorem typeOf_le (eig : Mat → ℂ × ℂ) (vx vy : Nat → Nat → ℝ) (p : Nat × Nat) : typeOf eig vx vy p ≤ 4 := by
  unfold typeOf; split_ifs <;> omega

/-- The set holding the points of a type. -/
def Sets.kind (s : Sets) : Nat → List (ℝ × ℝ)
  | 0 => s.sadd
  | 1 => s.focC
  | 2 => s.foc
  | 3 => s.nodeO
  | _ => s.nodeI

/-- C221: for any velocity field the report never fails, and each set holds the centres of the detected cells of its type, in the order of detection: no point is
lost, repeated or put in another set. -/
theorem C221_sorted (eig : Mat → ℂ × ℂ) (X Y : Nat → ℝ) (vx vy : Nat → Nat → ℝ) (mask : Nat → Nat → Bool) (n m : Nat) :
    ∃ s, critCell eig X Y vx vy mask n m = some s ∧
      (∀ t ≤ 4, s.kind t = ((detected vx vy mask n m).filter fun p => typeOf eig vx vy p = t).map
        fun p => (X p.2 + (X 1 - X 0) / 2, Y p.1 + (Y 1 - Y 0) / 2)) ∧
      s.sadd.length + s.focC.length + s.foc.length + s.nodeO.length + s.nodeI.length = (detected vx vy mask n m).length := by
  have hle : ∀ q ∈ (detected vx vy mask n m).map fun p => (typeOf eig vx vy p, centreAt X Y p), q.1 ≤ 4 := by
    intro q hq
    obtain ⟨p, -, rfl⟩ := List.mem_map.mp hq
    exact typeOf_le _ _ _ _
  refine ⟨_, fill_append _ _ hle, fun t ht => ?_, ?_⟩
  · interval_cases t <;> simp [Sets.kind, List.filter_map, Function.comp_def, centreAt]
  · simp only [List.nil_append, List.filter_map, List.length_map, Function.comp_def]
    generalize detected vx vy mask n m = l
    induction l with
    | nil => rfl
    | cons p l ih =>
      have := typeOf_le eig vx vy p
      simp only [List.filter_cons, List.length_cons]
      generalize typeOf eig vx vy p = t at *
      interval_cases t <;> simp <;> omega

/-- C221: on an even grid with square cells, a linear flow whose critical point is strictly inside a cell gives one point, at most half a step away from the
critical point in each direction, in the set of its nature; the other sets are empty. -/
theorem C221_linear {eig : Mat → ℂ × ℂ} (he : IsEig eig) {f : Flow} (hd : f.det ≠ 0) {x0 y0 h : ℝ} (h0 : 0 < h) {n m i j : Nat} (hi : i + 1 < n) (hj : j + 1 < m)
    (hx0 : x0 + j * h < f.px) (hx1 : f.px < x0 + (j + 1) * h) (hy0 : y0 + i * h < f.py) (hy1 : f.py < y0 + (i + 1) * h) :
    ∃ s q, critCell eig (fun k => x0 + k * h) (fun k => y0 + k * h) (onGrid f (fun k => x0 + k * h) (fun k => y0 + k * h)).1
        (onGrid f (fun k => x0 + k * h) (fun k => y0 + k * h)).2 (fun _ _ => false) n m = some s ∧
      |q.1 - f.px| < h / 2 ∧ |q.2 - f.py| < h / 2 ∧
      (f.Saddle → s = ⟨[q], [], [], [], []⟩) ∧ (f.Clockwise → s = ⟨[], [q], [], [], []⟩) ∧ (f.Anticlockwise → s = ⟨[], [], [q], [], []⟩) ∧
      (f.NodeOut → s = ⟨[], [], [], [q], []⟩) ∧ (f.NodeIn → s = ⟨[], [], [], [], [q]⟩) := by
  have mono : ∀ z : ℝ, StrictMono fun k : Nat => z + k * h := by
    intro z a b hab
    have : (a : ℝ) < b := by exact_mod_cast hab
    have := mul_lt_mul_of_pos_right this h0
    dsimp only
    linarith
  have hx1' : f.px < (fun k : Nat => x0 + k * h) (j + 1) := by push_cast; exact hx1
  have hy1' : f.py < (fun k : Nat => y0 + k * h) (i + 1) := by push_cast; exact hy1
  have det1 := C219_inside (n := n) (m := m) hd (mono x0) (mono y0) hi hj hx0 hx1' hy0 hy1'
  have ty := C220_type he hd (mono x0) (mono y0) hx0 hx1' hy0 hy1' (by push_cast; ring)
  have cr : ∀ t s, typeOf eig (onGrid f (fun k => x0 + k * h) (fun k => y0 + k * h)).1 (onGrid f (fun k => x0 + k * h) (fun k => y0 + k * h)).2 (i, j) = t →
      Sets.put ⟨[], [], [], [], []⟩ t (centreAt (fun k => x0 + k * h) (fun k => y0 + k * h) (i, j)) = some s →
      critCell eig (fun k => x0 + k * h) (fun k => y0 + k * h) (onGrid f (fun k => x0 + k * h) (fun k => y0 + k * h)).1
        (onGrid f (fun k => x0 + k * h) (fun k => y0 + k * h)).2 (fun _ _ => false) n m = some s := by
    intro t s ht hs
    unfold critCell
    rw [det1]
    simp only [List.map_cons, List.map_nil, Sets.fill, ht, hs]
  obtain ⟨s, hs⟩ : ∃ s, Sets.put ⟨[], [], [], [], []⟩ (typeOf eig (onGrid f (fun k => x0 + k * h) (fun k => y0 + k * h)).1
      (onGrid f (fun k => x0 + k * h) (fun k => y0 + k * h)).2 (i, j)) (centreAt (fun k => x0 + k * h) (fun k => y0 + k * h) (i, j)) = some s := by
    have := typeOf_le eig (onGrid f (fun k => x0 + k * h) (fun k => y0 + k * h)).1 (onGrid f (fun k => x0 + k * h) (fun k => y0 + k * h)).2 (i, j)
    generalize typeOf eig _ _ _ = t at this ⊢
    interval_cases t <;> exact ⟨_, rfl⟩
  refine ⟨s, centreAt (fun k => x0 + k * h) (fun k => y0 + k * h) (i, j), cr _ s rfl hs, ?_, ?_, fun k => ?_, fun k => ?_, fun k => ?_, fun k => ?_, fun k => ?_⟩
  · unfold centreAt; rw [abs_lt]; push_cast; constructor <;> linarith
  · unfold centreAt; rw [abs_lt]; push_cast; constructor <;> linarith
  · rw [ty.1 k] at hs; exact (Option.some.inj hs).symm
  · rw [ty.2.1 k] at hs; exact (Option.some.inj hs).symm
  · rw [ty.2.2.1 k] at hs; exact (Option.some.inj hs).symm
  · rw [ty.2.2.2.1 k] at hs; exact (Option.some.inj hs).symm
  · rw [ty.2.2.2.2 k] at hs; exact (Option.some.inj hs).symm

/-! ### C222: the directions of a saddle point -/

/-- The vectors are eigenvectors for the two eigenvalues, when these are real. -/
def IsEigV (eig : Mat → (ℂ × ℂ) × ((ℝ × ℝ) × (ℝ × ℝ))) : Prop :=
  IsEig (fun m => (eig m).1) ∧ ∀ m, (eig m).1.1.im = 0 → (eig m).1.2.im = 0 →
    ((eig m).2.1 ≠ (0, 0) ∧ m.a * (eig m).2.1.1 + m.b * (eig m).2.1.2 = (eig m).1.1.re * (eig m).2.1.1 ∧
      m.c * (eig m).2.1.1 + m.d * (eig m).2.1.2 = (eig m).1.1.re * (eig m).2.1.2) ∧
    ((eig m).2.2 ≠ (0, 0) ∧ m.a * (eig m).2.2.1 + m.b * (eig m).2.2.2 = (eig m).1.2.re * (eig m).2.2.1 ∧
      m.c * (eig m).2.2.1 + m.d * (eig m).2.2.2 = (eig m).1.2.re * (eig m).2.2.2)

theorem jacobian4_eq (f : Flow) {x0 y0 dx dy : ℝ} (hdx : dx ≠ 0) (hdy : dy ≠ 0) (i j : Nat) :
    jacobian4 (fun r c => f.u (x0 + ((j + c : Nat) : ℝ) * dx) (y0 + ((i + r : Nat) : ℝ) * dy)) (fun r c => f.v (x0 + ((j + c : Nat) : ℝ) * dx) (y0 + ((i + r : Nat) : ℝ) * dy)) dx dy =
      ⟨f.a, f.b, f.c, f.d⟩ := by
  have gx : ∀ (g k z : ℝ) (c : Nat), c < 4 → grad4 (fun q => g * (x0 + ((j + q : Nat) : ℝ) * dx - z) + k) dx c = g := by
    intro g k z c hc
    interval_cases c <;> simp [grad4] <;> field_simp <;> ring
  have gy : ∀ (g k z : ℝ) (c : Nat), c < 4 → grad4 (fun q => k + g * (y0 + ((i + q : Nat) : ℝ) * dy - z)) dy c = g := by
    intro g k z c hc
    interval_cases c <;> simp [grad4] <;> field_simp <;> ring
  have hm : ∀ (F : Nat → Nat → ℝ) (g : ℝ), (∀ r c, r < 4 → c < 4 → F r c = g) → mean16 F = g := by
    intro F g hF
    have e : mean16 F = (F 0 0 + F 0 1 + F 0 2 + F 0 3 + F 1 0 + F 1 1 + F 1 2 + F 1 3 + F 2 0 + F 2 1 + F 2 2 + F 2 3 + F 3 0 + F 3 1 + F 3 2 + F 3 3) / 16 := by
      simp [mean16, List.range_succ]; ring
    rw [e]
    repeat rw [hF _ _ (by norm_num) (by norm_num)]
    ring
  unfold jacobian4
  congr 1
  · exact hm _ _ fun r c _ hc => gx f.a _ f.px c hc
  · exact hm _ _ fun r c hr _ => gy f.b _ f.py r hr
  · exact hm _ _ fun r c _ hc => gx f.c _ f.px c hc
  · exact hm _ _ fun r c hr _ => gy f.d _ f.py r hr

/-- C222: on an even grid (square or not), the two directions of a saddle point of a linear flow whose 4 x 4 surrounding points are in the field are a direction
of departure and a direction of arrival, in this order. -/
theorem C222_orientations {eig : Mat → (ℂ × ℂ) × ((ℝ × ℝ) × (ℝ × ℝ))} (he : IsEigV eig) {f : Flow} (hs : f.Saddle) {x0 y0 dx dy : ℝ} (hdx : 0 < dx) (hdy : 0 < dy)
    {n m i j : Nat} (hi0 : 0 < i) (hi : i + 2 < n) (hj0 : 0 < j) (hj : j + 2 < m) :
    ∃ o1 o2 s t, orientations eig (fun k => x0 + k * dx) (fun k => y0 + k * dy) (onGrid f (fun k => x0 + k * dx) (fun k => y0 + k * dy)).1
        (onGrid f (fun k => x0 + k * dx) (fun k => y0 + k * dy)).2 n m i j = (o1, o2) ∧
      o1 ≠ (0, 0) ∧ 0 < t ∧ f.u (f.px + o1.1) (f.py + o1.2) = t * o1.1 ∧ f.v (f.px + o1.1) (f.py + o1.2) = t * o1.2 ∧
      o2 ≠ (0, 0) ∧ s < 0 ∧ f.u (f.px + o2.1) (f.py + o2.2) = s * o2.1 ∧ f.v (f.px + o2.1) (f.py + o2.2) = s * o2.2 := by
  obtain ⟨s, t, hs0, ht0, rs, rt⟩ := hs
  have hst : t = f.a + f.d - s := by
    rcases Flow.rays rs rt with h | h
    · linarith
    · exact h
  have hp := Flow.ray_prod rs
  rw [← hst] at hp
  have hjac := jacobian4_eq f (x0 := x0) (y0 := y0) hdx.ne' hdy.ne' (i - 1) (j - 1)
  obtain ⟨e1, e2⟩ := he.1 ⟨f.a, f.b, f.c, f.d⟩
  have hv := he.2 ⟨f.a, f.b, f.c, f.d⟩
  have r := eig_real (s := s) (t := t) (by rw [e1]; congr 1; rw [hst]; ring) (by rw [e2]; congr 1; exact hp.symm)
  obtain ⟨⟨a1, a2, a3⟩, b1, b2, b3⟩ := hv r.1 r.2.1
  have ho : orientations eig (fun k => x0 + k * dx) (fun k => y0 + k * dy) (onGrid f (fun k => x0 + k * dx) (fun k => y0 + k * dy)).1
        (onGrid f (fun k => x0 + k * dx) (fun k => y0 + k * dy)).2 n m i j =
      pickOri (eig ⟨f.a, f.b, f.c, f.d⟩) := by
    unfold orientations
    rw [if_neg (by omega)]
    have k1 : (fun k : Nat => x0 + k * dx) 1 - (fun k : Nat => x0 + k * dx) 0 = dx := by push_cast; ring
    have k2 : (fun k : Nat => y0 + k * dy) 1 - (fun k : Nat => y0 + k * dy) 0 = dy := by push_cast; ring
    rw [k1, k2]
    congr 2
  rw [ho]
  have lin : ∀ {o : ℝ × ℝ} {l : ℝ}, f.a * o.1 + f.b * o.2 = l * o.1 → f.c * o.1 + f.d * o.2 = l * o.2 →
      f.u (f.px + o.1) (f.py + o.2) = l * o.1 ∧ f.v (f.px + o.1) (f.py + o.2) = l * o.2 := by
    intro o l h1 h2
    unfold Flow.u Flow.v
    constructor
    · linear_combination h1
    · linear_combination h2
  rcases r.2.2.1 with e | e
  · have e' : (eig ⟨f.a, f.b, f.c, f.d⟩).1.2.re = t := by have := r.2.2.2; rw [e] at this; linarith
    simp only [e] at a2 a3
    simp only [e'] at b2 b3
    have hpk : pickOri (eig ⟨f.a, f.b, f.c, f.d⟩) = ((eig ⟨f.a, f.b, f.c, f.d⟩).2.2, (eig ⟨f.a, f.b, f.c, f.d⟩).2.1) :=
      if_neg (by rw [e, e']; linarith)
    exact ⟨_, _, s, t, hpk, b1, ht0, (lin b2 b3).1, (lin b2 b3).2, a1, hs0, (lin a2 a3).1, (lin a2 a3).2⟩
  · have e' : (eig ⟨f.a, f.b, f.c, f.d⟩).1.2.re = s := by have := r.2.2.2; rw [e] at this; linarith
    simp only [e] at a2 a3
    simp only [e'] at b2 b3
    have hpk : pickOri (eig ⟨f.a, f.b, f.c, f.d⟩) = ((eig ⟨f.a, f.b, f.c, f.d⟩).2.1, (eig ⟨f.a, f.b, f.c, f.d⟩).2.2) :=
      if_pos (by rw [e, e']; linarith)
    exact ⟨_, _, s, t, hpk, a1, ht0, (lin a2 a3).1, (lin a2 a3).2, b1, hs0, (lin b2 b3).1, (lin b2 b3).2⟩

/-- C222 fails for the cells of the border: null vectors are given as directions, for any field. -/
theorem C222_border_violated (eig : Mat → (ℂ × ℂ) × ((ℝ × ℝ) × (ℝ × ℝ))) (X Y : Nat → ℝ) (vx vy : Nat → Nat → ℝ) {n m i j : Nat}
    (h : i = 0 ∨ j = 0 ∨ i + 2 = n ∨ j + 2 = m) : orientations eig X Y vx vy n m i j = ((0, 0), (0, 0)) := by
  unfold orientations
  rw [if_pos (by omega)]

/-! ### the hypotheses are met -/

/-- Eigenvalues exist. -/
theorem exists_eig : ∃ eig : Mat → ℂ × ℂ, IsEig eig := by
  have h : ∀ m : Mat, ∃ e : ℂ × ℂ, e.1 + e.2 = ((m.a + m.d : ℝ) : ℂ) ∧ e.1 * e.2 = ((m.a * m.d - m.b * m.c : ℝ) : ℂ) := by
    intro m
    rcases le_total 0 ((m.a - m.d) ^ 2 + 4 * m.b * m.c) with h | h
    · have hs := Real.sq_sqrt h
      refine ⟨((((m.a + m.d + √((m.a - m.d) ^ 2 + 4 * m.b * m.c)) / 2 : ℝ) : ℂ), (((m.a + m.d - √((m.a - m.d) ^ 2 + 4 * m.b * m.c)) / 2 : ℝ) : ℂ)), ?_, ?_⟩
      · rw [← Complex.ofReal_add]; congr 1; ring
      · rw [← Complex.ofReal_mul]; congr 1; linear_combination (-1 / 4 : ℝ) * hs
    · have hs := Real.sq_sqrt (show 0 ≤ -((m.a - m.d) ^ 2 + 4 * m.b * m.c) by linarith)
      refine ⟨(⟨(m.a + m.d) / 2, √(-((m.a - m.d) ^ 2 + 4 * m.b * m.c)) / 2⟩, ⟨(m.a + m.d) / 2, -(√(-((m.a - m.d) ^ 2 + 4 * m.b * m.c)) / 2)⟩), ?_, ?_⟩
      · apply Complex.ext <;> simp
      · apply Complex.ext
        · simp only [Complex.mul_re, Complex.ofReal_re]; linear_combination (1 / 4 : ℝ) * hs
        · simp only [Complex.mul_im, Complex.ofReal_im]; ring
  choose e he using h
  exact ⟨e, he⟩

/-- Eigenvectors exist. -/
theorem exists_eigV : ∃ eig : Mat → (ℂ × ℂ) × ((ℝ × ℝ) × (ℝ × ℝ)), IsEigV eig := by
  obtain ⟨e, he⟩ := exists_eig
  have vec : ∀ (m : Mat) (s : ℝ), s ^ 2 - (m.a + m.d) * s + (m.a * m.d - m.b * m.c) = 0 →
      ∃ o : ℝ × ℝ, o ≠ (0, 0) ∧ m.a * o.1 + m.b * o.2 = s * o.1 ∧ m.c * o.1 + m.d * o.2 = s * o.2 := by
    intro m s hs
    obtain ⟨x, y, h1, h2, h3⟩ := (Flow.ray_iff (f := ⟨m.a, m.b, m.c, m.d, 0, 0⟩) (s := s)).mpr hs
    exact ⟨(x, y), h1, by simpa [Flow.u] using h2, by simpa [Flow.v] using h3⟩
  have both : ∀ m : Mat, ∃ o : (ℝ × ℝ) × (ℝ × ℝ), (e m).1.im = 0 → (e m).2.im = 0 →
      (o.1 ≠ (0, 0) ∧ m.a * o.1.1 + m.b * o.1.2 = (e m).1.re * o.1.1 ∧ m.c * o.1.1 + m.d * o.1.2 = (e m).1.re * o.1.2) ∧
      (o.2 ≠ (0, 0) ∧ m.a * o.2.1 + m.b * o.2.2 = (e m).2.re * o.2.1 ∧ m.c * o.2.1 + m.d * o.2.2 = (e m).2.re * o.2.2) := by
    intro m
    by_cases hr : (e m).1.im = 0 ∧ (e m).2.im = 0
    · obtain ⟨h1, h2⟩ := he m
      have s1 := congrArg Complex.re h1
      have s2 := congrArg Complex.re h2
      simp only [Complex.add_re, Complex.mul_re, Complex.ofReal_re, hr.1, hr.2] at s1 s2
      obtain ⟨o1, k1⟩ := vec m (e m).1.re (by linear_combination (e m).1.re * s1 - s2)
      obtain ⟨o2, k2⟩ := vec m (e m).2.re (by linear_combination (e m).2.re * s1 - s2)
      exact ⟨(o1, o2), fun _ _ => ⟨k1, k2⟩⟩
    · exact ⟨((0, 0), (0, 0)), fun a b => absurd ⟨a, b⟩ hr⟩
  choose o ho using both
  exact ⟨fun m => (e m, o m), he, ho⟩

/-- The hypotheses of C219 to C221 are met: a vortex in solid rotation in the cell (1, 2) of a grid of 4 x 5 points. -/
example : ∃ eig s q, IsEig eig ∧ critCell eig (fun k => 0 + k * 2) (fun k => 0 + k * 2) (onGrid (rotation 3 5 (5 / 2)) (fun k => 0 + k * 2) (fun k => 0 + k * 2)).1
    (onGrid (rotation 3 5 (5 / 2)) (fun k => 0 + k * 2) (fun k => 0 + k * 2)).2 (fun _ _ => false) 4 5 = some s ∧ s = ⟨[], [], [q], [], []⟩ := by
  obtain ⟨eig, he⟩ := exists_eig
  obtain ⟨s, q, h, -, -, -, -, h3, -, -⟩ := C221_linear he (f := rotation 3 5 (5 / 2)) (by norm_num [Flow.det, rotation]) (x0 := 0) (y0 := 0) (h := 2) (by norm_num)
    (n := 4) (m := 5) (i := 1) (j := 2) (by norm_num) (by norm_num) (by norm_num [rotation]) (by norm_num [rotation]) (by norm_num [rotation]) (by norm_num [rotation])
  refine ⟨eig, s, q, he, h, h3 fun x y hne => ?_⟩
  have e : (x - (rotation 3 5 (5 / 2)).px) * (rotation 3 5 (5 / 2)).v x y - (y - (rotation 3 5 (5 / 2)).py) * (rotation 3 5 (5 / 2)).u x y =
      3 * ((x - 5) ^ 2 + (y - 5 / 2) ^ 2) := by unfold Flow.u Flow.v rotation; dsimp only; ring
  rw [e]
  by_contra hc
  have h1 : (x - 5) ^ 2 = 0 := by nlinarith [sq_nonneg (x - 5), sq_nonneg (y - 5 / 2)]
  have h2 : (y - 5 / 2) ^ 2 = 0 := by nlinarith [sq_nonneg (x - 5), sq_nonneg (y - 5 / 2)]
  exact hne (by rw [sub_eq_zero.mp (pow_eq_zero_iff (two_ne_zero)|>.mp h1), sub_eq_zero.mp (pow_eq_zero_iff (two_ne_zero)|>.mp h2)]; rfl)

/-- The hypotheses of C222 are met by the stagnation point `(x, -y)`. -/
example : ∃ (eig : Mat → (ℂ × ℂ) × ((ℝ × ℝ) × (ℝ × ℝ))) (f : Flow), IsEigV eig ∧ f.Saddle ∧ f.det ≠ 0 := by
  obtain ⟨eig, he⟩ := exists_eigV
  exact ⟨eig, ⟨1, 0, 0, -1, 0, 0⟩, he, ⟨-1, 1, by norm_num, by norm_num, Flow.ray_iff.mpr (by norm_num [Flow.det]), Flow.ray_iff.mpr (by norm_num [Flow.det])⟩,
    by norm_num [Flow.det]⟩

end IMT.Linear
