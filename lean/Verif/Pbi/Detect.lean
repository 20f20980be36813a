import Verif.Pbi.Degree

/-! C59: a cell with a non-zero index contains exactly one zero of the interpolated velocity, and that zero is the
position computed by the code. -/

namespace IMT.Pbi

open Real

/-- The cell of the velocity field with lower left corner at row `i`, column `j`. -/
def cellOf (vx vy : Nat → Nat → ℝ) (i j : Nat) : Cell ℝ :=
  ⟨vx i j, vx i (j + 1), vx (i + 1) j, vx (i + 1) (j + 1), vy i j, vy i (j + 1), vy (i + 1) j, vy (i + 1) (j + 1)⟩

/-- Neither vector is null and they do not point in exactly opposite directions. -/
def NotOpposite (ax ay bx bY : ℝ) : Prop := ¬ (ax * bY - ay * bx = 0 ∧ ax * bx + ay * bY ≤ 0)

/-- No side of the cell carries a zero of the velocity. -/
def CleanSides (c : Cell ℝ) : Prop :=
  NotOpposite c.x1 c.y1 c.x2 c.y2 ∧ NotOpposite c.x1 c.y1 c.x3 c.y3 ∧ NotOpposite c.x2 c.y2 c.x4 c.y4 ∧
  NotOpposite c.x3 c.y3 c.x4 c.y4

theorem avoid_iff {a b : ℂ} : Avoid a b ↔ NotOpposite a.re a.im b.re b.im := by
  unfold Avoid NotOpposite
  rw [Complex.mem_slitPlane_iff, turnc_re, turnc_im]
  constructor
  · rintro (h | h) ⟨h1, h2⟩
    · linarith
    · exact h h1
  · intro h
    by_cases h1 : a.re * b.im - a.im * b.re = 0
    · left; by_contra h2; exact h ⟨h1, not_lt.mp h2⟩
    · right; exact h1

/-- The wrapped difference of two angles is the argument of the turn. -/
theorem W_arg {a b : ℂ} (h : Avoid a b) :
    W (2 * π) (theta a.re a.im) (theta b.re b.im) = (turnc a b).arg := by
  obtain ⟨a1, a2⟩ := theta_range a.re a.im
  obtain ⟨b1, b2⟩ := theta_range b.re b.im
  obtain ⟨sa1, sa2⟩ := theta_spec a.re a.im
  obtain ⟨sb1, sb2⟩ := theta_spec b.re b.im
  have hp := pi_pos
  have hna : 0 < √(a.re ^ 2 + a.im ^ 2) := Real.sqrt_pos.mpr (by have := normSq_pos' h.left; nlinarith)
  have hnb : 0 < √(b.re ^ 2 + b.im ^ 2) := Real.sqrt_pos.mpr (by have := normSq_pos' h.right; nlinarith)
  set ta := theta a.re a.im with hta
  set tb := theta b.re b.im with htb
  set ra := √(a.re ^ 2 + a.im ^ 2) with hra
  set rb := √(b.re ^ 2 + b.im ^ 2) with hrb
  obtain ⟨⟨w1, w2⟩, -, w4⟩ := W_bound (T := 2 * π) a1 a2 b1 b2
  have e2 : 2 * π / 2 = π := by ring
  rw [e2] at w1 w2 w4
  have hcs : cos (W (2 * π) ta tb) = cos (tb - ta) ∧ sin (W (2 * π) ta tb) = sin (tb - ta) := by
    unfold W wrap
    simp only [e2]
    by_cases h1 : tb - ta > π
    · simp only [if_pos h1]
      rw [if_neg (by linarith)]
      exact ⟨cos_sub_two_pi _, sin_sub_two_pi _⟩
    · simp only [if_neg h1]
      by_cases h2 : tb - ta < -π
      · rw [if_pos h2]; exact ⟨cos_add_two_pi _, sin_add_two_pi _⟩
      · rw [if_neg h2]; exact ⟨rfl, rfl⟩
  have hre : (turnc a b).re = ra * rb * cos (tb - ta) := by
    rw [turnc_re, cos_sub]
    conv_lhs => rw [← sa1, ← sa2, ← sb1, ← sb2]
    ring
  have him : (turnc a b).im = ra * rb * sin (tb - ta) := by
    rw [turnc_im, sin_sub]
    conv_lhs => rw [← sa1, ← sa2, ← sb1, ← sb2]
    ring
  have hform : turnc a b = ((ra * rb : ℝ) : ℂ) * (Complex.cos (W (2 * π) ta tb : ℝ) +
      Complex.sin (W (2 * π) ta tb : ℝ) * Complex.I) := by
    have key : ∀ r C S : ℝ, ((r : ℂ) * ((C : ℂ) + (S : ℂ) * Complex.I)).re = r * C ∧
        ((r : ℂ) * ((C : ℂ) + (S : ℂ) * Complex.I)).im = r * S := by intro r C S; simp
    rw [← Complex.ofReal_cos, ← Complex.ofReal_sin, hcs.1, hcs.2]
    exact Complex.ext (by rw [hre, (key _ _ _).1]) (by rw [him, (key _ _ _).2])
  have hlt : -π < W (2 * π) ta tb := by
    rcases lt_or_eq_of_le w2 with hlt | heq
    · exact hlt
    · exfalso
      have hd := w4 heq.symm
      unfold Avoid at h
      rw [Complex.mem_slitPlane_iff, hre, him, hd] at h
      have hs : sin (-π) = 0 := by simp
      have hcn : cos (-π) = -1 := by simp
      rw [hs, hcn] at h
      have := mul_pos hna hnb
      rcases h with h | h
      · linarith
      · exact h (mul_zero _)
  rw [hform]
  exact (Complex.arg_mul_cos_add_sin_mul_I (mul_pos hna hnb) ⟨hlt, w1⟩).symm

section
variable {vx vy : Nat → Nat → ℝ} {i j : Nat}

/-- The corners of a cell as complex numbers. -/
noncomputable def q1 (c : Cell ℝ) : ℂ := ⟨c.x1, c.y1⟩
noncomputable def q2 (c : Cell ℝ) : ℂ := ⟨c.x2, c.y2⟩
noncomputable def q3 (c : Cell ℝ) : ℂ := ⟨c.x3, c.y3⟩
noncomputable def q4 (c : Cell ℝ) : ℂ := ⟨c.x4, c.y4⟩

theorem clean_avoid {c : Cell ℝ} (h : CleanSides c) :
    Avoid (q1 c) (q2 c) ∧ Avoid (q1 c) (q3 c) ∧ Avoid (q2 c) (q4 c) ∧ Avoid (q3 c) (q4 c) :=
  ⟨avoid_iff.mpr h.1, avoid_iff.mpr h.2.1, avoid_iff.mpr h.2.2.1, avoid_iff.mpr h.2.2.2⟩

/-- The index in terms of arguments. -/
theorem index_arg (h : CleanSides (cellOf vx vy i j)) :
    cellIndex vx vy i j * (2 * π) =
      -(turnc (q1 (cellOf vx vy i j)) (q3 (cellOf vx vy i j))).arg +
      (turnc (q1 (cellOf vx vy i j)) (q2 (cellOf vx vy i j))).arg +
      (turnc (q2 (cellOf vx vy i j)) (q4 (cellOf vx vy i j))).arg -
      (turnc (q3 (cellOf vx vy i j)) (q4 (cellOf vx vy i j))).arg := by
  have hp := pi_pos
  have hT : (0 : ℝ) < 2 * π := by linarith
  obtain ⟨h12, h13, h24, h34⟩ := clean_avoid h
  unfold cellIndex
  rw [cell_sides hT, W_symm hT (thetas vx vy (i + 1) j) (thetas vx vy i j),
    W_symm hT (thetas vx vy (i + 1) (j + 1)) (thetas vx vy (i + 1) j)]
  rw [← W_arg h12, ← W_arg h13, ← W_arg h24, ← W_arg h34]
  simp only [thetas, q1, q2, q3, q4, cellOf]
  ring

/-- The interpolated velocity in reduced coordinates, row by row. -/
theorem zeroAt_iff {c : Cell ℝ} {dx dy x y : ℝ} (hdx : 0 < dx) (hdy : 0 < dy) :
    ZeroAt c dx dy x y ↔ seg (seg (q1 c) (q3 c) (y / dy)) (seg (q2 c) (q4 c) (y / dy)) (x / dx) = 0 := by
  unfold ZeroAt bilin
  rw [Complex.ext_iff]
  simp only [seg_re, seg_im, Complex.zero_re, Complex.zero_im, q1, q2, q3, q4]
  have e : ∀ v1 v2 v3 v4 : ℝ,
      (v1 * (dx - x) * (dy - y) + v2 * x * (dy - y) + v3 * (dx - x) * y + v4 * x * y) / (dx * dy) =
      v1 + y / dy * (v3 - v1) + x / dx * (v2 + y / dy * (v4 - v2) - (v1 + y / dy * (v3 - v1))) := by
    intro v1 v2 v3 v4
    field_simp
    ring
  rw [e, e]

/-- Opposite or null ends: the segment meets the origin. -/
theorem seg_zero_of {a b : ℂ} (ha : a ≠ 0) (h : ¬ Avoid a b) : ∃ u : ℝ, 0 ≤ u ∧ u ≤ 1 ∧ seg a b u = 0 := by
  have hn := normSq_pos' ha
  rw [avoid_iff] at h
  unfold NotOpposite at h
  rw [not_not] at h
  obtain ⟨h1, h2⟩ := h
  set n := a.re * a.re + a.im * a.im with hnd
  set z := a.re * b.re + a.im * b.im with hz
  have hpos : 0 < n - z := by linarith
  refine ⟨n / (n - z), by positivity, by rw [div_le_one hpos]; linarith, ?_⟩
  have hre : n * b.re = z * a.re := by rw [hnd, hz]; linear_combination a.im * -h1
  have him : n * b.im = z * a.im := by rw [hnd, hz]; linear_combination a.re * h1
  apply Complex.ext
  · rw [seg_re, Complex.zero_re]
    field_simp
    linear_combination hre
  · rw [seg_im, Complex.zero_im]
    field_simp
    linear_combination him

/-- C59 (soundness of the detection): a cell whose sides carry no zero and whose index is not 0 contains a zero of
the interpolated velocity. -/
theorem C59_detected_has_zero {dx dy : ℝ} (hdx : 0 < dx) (hdy : 0 < dy) (h : CleanSides (cellOf vx vy i j))
    (hidx : cellIndex vx vy i j ≠ 0) :
    ∃ x y, InCell dx dy x y ∧ ZeroAt (cellOf vx vy i j) dx dy x y := by
  obtain ⟨h12, h13, h24, h34⟩ := clean_avoid h
  have hp := pi_pos
  by_contra hno
  apply hidx
  have hz : ∀ v ∈ Set.Icc (0 : ℝ) 1, Avoid (seg (q1 (cellOf vx vy i j)) (q3 (cellOf vx vy i j)) v)
      (seg (q2 (cellOf vx vy i j)) (q4 (cellOf vx vy i j)) v) := by
    intro v hv
    by_contra hA
    obtain ⟨u, u0, u1, hu⟩ := seg_zero_of (seg_ne h13 hv.1 hv.2) hA
    apply hno
    refine ⟨u * dx, v * dy, ⟨by positivity, by nlinarith, mul_nonneg hv.1 hdy.le, ?_⟩, ?_⟩
    · have := hv.2; nlinarith
    · rw [zeroAt_iff hdx hdy]
      rw [mul_div_cancel_right₀ _ hdx.ne', mul_div_cancel_right₀ _ hdy.ne']
      exact hu
  have hf := follow (σ := 1) (.inl rfl) h13 h24 (fun v hv => by
    rw [Complex.ofReal_one, one_mul]; exact hz v hv)
  have hi := index_arg h
  simp only [Complex.ofReal_one, one_mul] at hf
  have : cellIndex vx vy i j * (2 * π) = 0 := by rw [hi]; linarith
  rcases mul_eq_zero.mp this with h | h
  · exact h
  · linarith

/-- The turn from left to right side as a polynomial of the height. -/
theorem turn_im (c : Cell ℝ) (v : ℝ) : (turnc (seg (q1 c) (q3 c) v) (seg (q2 c) (q4 c) v)).im =
    c.dd * v ^ 2 - c.num * v + (c.x1 * c.y2 - c.x2 * c.y1) := by
  rw [turnc_im]
  simp only [seg_re, seg_im, q1, q2, q3, q4]
  unfold Cell.dd Cell.num
  ring

/-- Where a segment between non-null ends meets the origin, the turn is a negative real number. -/
theorem turn_neg {a b : ℂ} (ha : a ≠ 0) (hb : b ≠ 0) {u : ℝ} (h0 : 0 ≤ u) (h1 : u ≤ 1) (hu : seg a b u = 0) :
    (turnc a b).im = 0 ∧ (turnc a b).re < 0 := by
  have hre : a.re + u * (b.re - a.re) = 0 := by rw [← seg_re, hu]; rfl
  have him : a.im + u * (b.im - a.im) = 0 := by rw [← seg_im, hu]; rfl
  have hu0 : 0 < u := by
    rcases eq_or_lt_of_le h0 with rfl | h
    · exfalso; apply ha
      apply Complex.ext
      · simpa using hre
      · simpa using him
    · exact h
  have hu1 : 0 < 1 - u := by
    rcases eq_or_lt_of_le h1 with rfl | h
    · exfalso; apply hb
      apply Complex.ext
      · rw [Complex.zero_re]; linarith
      · rw [Complex.zero_im]; linarith
    · linarith
  have hn := normSq_pos' ha
  rw [turnc_re, turnc_im]
  constructor
  · have : u * (a.re * b.im - a.im * b.re) = 0 := by linear_combination a.re * him - a.im * hre
    exact (mul_eq_zero.mp this).resolve_left hu0.ne'
  · have e : u * (a.re * b.re + a.im * b.im) = -((1 - u) * (a.re * a.re + a.im * a.im)) := by
      linear_combination a.re * hre + a.im * him
    have := mul_pos hu1 hn
    by_contra hc
    have := mul_nonneg hu0.le (not_lt.mp hc)
    linarith

/-- C59: in a cell with two zeros the index is 0; so a detected cell has one zero at most. -/
theorem two_zeros_index {dx dy : ℝ} (hdx : 0 < dx) (hdy : 0 < dy) (h : CleanSides (cellOf vx vy i j))
    (hD : (cellOf vx vy i j).dd ≠ 0) (hE : (cellOf vx vy i j).ee ≠ 0) {x y x' y' : ℝ}
    (h1 : InCell dx dy x y) (h2 : InCell dx dy x' y') (z1 : ZeroAt (cellOf vx vy i j) dx dy x y)
    (z2 : ZeroAt (cellOf vx vy i j) dx dy x' y') (hne : ¬ (x' = x ∧ y' = y)) : cellIndex vx vy i j = 0 := by
  obtain ⟨h12, h13, h24, h34⟩ := clean_avoid h
  have hp := pi_pos
  have hi := index_arg h
  set c := cellOf vx vy i j with hc
  obtain ⟨r1, l1⟩ := zero_root hdx.ne' hdy.ne' z1
  obtain ⟨r2, l2⟩ := zero_root hdx.ne' hdy.ne' z2
  have hy : y' ≠ y := by
    intro e
    apply hne
    refine ⟨?_, e⟩
    subst e
    have : (x' - x) * (dy * c.ee) = 0 := by linear_combination l2 - l1
    have := (mul_eq_zero.mp this).resolve_right (mul_ne_zero hdy.ne' hE)
    linarith
  obtain ⟨v1, hv1⟩ : ∃ v, v = y / dy := ⟨_, rfl⟩
  obtain ⟨v2, hv2⟩ : ∃ v, v = y' / dy := ⟨_, rfl⟩
  have y1 : y = v1 * dy := by rw [hv1]; field_simp
  have y2 : y' = v2 * dy := by rw [hv2]; field_simp
  have hv : v1 ≠ v2 := by rintro e; exact hy (by rw [y1, y2, e])
  have hr : ∀ x y, InCell dx dy x y → 0 ≤ x / dx ∧ x / dx ≤ 1 ∧ 0 ≤ y / dy ∧ y / dy ≤ 1 := by
    rintro x y ⟨a, b, c, d⟩
    exact ⟨by positivity, by rw [div_le_one hdx]; exact b, by positivity, by rw [div_le_one hdy]; exact d⟩
  obtain ⟨a1, a2, a3, a4⟩ := hr x y h1
  obtain ⟨b1, b2, b3, b4⟩ := hr x' y' h2
  rw [← hv1] at a3 a4
  rw [← hv2] at b3 b4
  rw [zeroAt_iff hdx hdy, ← hv1] at z1
  rw [zeroAt_iff hdx hdy, ← hv2] at z2
  have n1 := turn_neg (seg_ne h13 a3 a4) (seg_ne h24 a3 a4) a1 a2 z1
  have n2 := turn_neg (seg_ne h13 b3 b4) (seg_ne h24 b3 b4) b1 b2 z2
  have e1 := n1.1; rw [turn_im] at e1
  have e2 := n2.1; rw [turn_im] at e2
  have hsum : c.num = c.dd * (v1 + v2) := by
    have : (v1 - v2) * (c.dd * (v1 + v2) - c.num) = 0 := by linear_combination e1 - e2
    have := (mul_eq_zero.mp this).resolve_left (sub_ne_zero.mpr hv)
    linarith
  have hprod : c.x1 * c.y2 - c.x2 * c.y1 = c.dd * (v1 * v2) := by
    linear_combination e1 + v1 * hsum
  have hfac : ∀ v, (turnc (seg (q1 c) (q3 c) v) (seg (q2 c) (q4 c) v)).im = c.dd * ((v - v1) * (v - v2)) := by
    intro v
    rw [turn_im, hprod, hsum]; ring
  have hz : ∀ v ∈ Set.Icc (0 : ℝ) 1, ((-1 : ℝ) : ℂ) * turnc (seg (q1 c) (q3 c) v) (seg (q2 c) (q4 c) v) ∈
      Complex.slitPlane := by
    intro v _
    rw [Complex.mem_slitPlane_iff]
    by_cases w1 : v = v1
    · left; subst w1; simp; exact n1.2
    · by_cases w2 : v = v2
      · left; subst w2; simp; exact n2.2
      · right
        have : c.dd * ((v - v1) * (v - v2)) ≠ 0 :=
          mul_ne_zero hD (mul_ne_zero (sub_ne_zero.mpr w1) (sub_ne_zero.mpr w2))
        simp only [Complex.ofReal_neg, Complex.ofReal_one, neg_mul, one_mul, Complex.neg_im, ne_eq, neg_eq_zero]
        rw [hfac]; exact this
  have hf := follow (σ := -1) (.inr rfl) h13 h24 hz
  simp only [Complex.ofReal_neg, Complex.ofReal_one, neg_mul, one_mul] at hf
  have hs0 : ∀ a b : ℂ, seg a b 0 = a := by intro a b; simp [seg]
  have hs1 : ∀ a b : ℂ, seg a b 1 = b := by intro a b; simp [seg]
  have i0 := hfac 0
  have i1 := hfac 1
  rw [hs0, hs0] at i0
  rw [hs1, hs1] at i1
  -- the zeros are strictly inside
  have s1 : v1 ≠ 0 := by
    rintro rfl
    rw [hs0, hs0] at n1
    have := avoid_iff.mp h12
    apply this
    rw [← turnc_im, ← turnc_re]
    exact ⟨n1.1, n1.2.le⟩
  have s2 : v2 ≠ 0 := by
    rintro rfl
    rw [hs0, hs0] at n2
    have := avoid_iff.mp h12
    apply this
    rw [← turnc_im, ← turnc_re]
    exact ⟨n2.1, n2.2.le⟩
  have t1 : v1 ≠ 1 := by
    rintro rfl
    rw [hs1, hs1] at n1
    have := avoid_iff.mp h34
    apply this
    rw [← turnc_im, ← turnc_re]
    exact ⟨n1.1, n1.2.le⟩
  have t2 : v2 ≠ 1 := by
    rintro rfl
    rw [hs1, hs1] at n2
    have := avoid_iff.mp h34
    apply this
    rw [← turnc_im, ← turnc_re]
    exact ⟨n2.1, n2.2.le⟩
  have p0 : 0 < (0 - v1) * (0 - v2) := by
    have := mul_pos (lt_of_le_of_ne a3 (Ne.symm s1)) (lt_of_le_of_ne b3 (Ne.symm s2))
    linarith
  have p1 : 0 < (1 - v1) * (1 - v2) :=
    mul_pos (sub_pos.mpr (lt_of_le_of_ne a4 t1)) (sub_pos.mpr (lt_of_le_of_ne b4 t2))
  have hzero : cellIndex vx vy i j * (2 * π) = 0 := by
    rw [hi]
    rcases lt_or_gt_of_ne hD with hneg | hpos
    · have m0 : (turnc (q1 c) (q2 c)).im < 0 := by rw [i0]; exact mul_neg_of_neg_of_pos hneg p0
      have m1 : (turnc (q3 c) (q4 c)).im < 0 := by rw [i1]; exact mul_neg_of_neg_of_pos hneg p1
      rw [Complex.arg_neg_eq_arg_add_pi_of_im_neg m0, Complex.arg_neg_eq_arg_add_pi_of_im_neg m1] at hf
      linarith
    · have m0 : 0 < (turnc (q1 c) (q2 c)).im := by rw [i0]; exact mul_pos hpos p0
      have m1 : 0 < (turnc (q3 c) (q4 c)).im := by rw [i1]; exact mul_pos hpos p1
      rw [Complex.arg_neg_eq_arg_sub_pi_of_im_pos m0, Complex.arg_neg_eq_arg_sub_pi_of_im_pos m1] at hf
      linarith
  rcases mul_eq_zero.mp hzero with h | h
  · exact h
  · linarith

/-- C59 (main statement): let a cell have a non-zero index, no zero on its sides, no corner with `vx + vy = 0`, no null
component and non-degenerate interpolation (`dd`, `ee` not 0).  Then the interpolated velocity has exactly one zero
in the cell, and this is the position returned by the code. -/
theorem C59_detected_partial {x0 x1 y0 y1 dx dy : ℝ} {pos : ℝ × ℝ} (hdx : 0 < dx) (hdy : 0 < dy)
    (hidx : cellIndex vx vy i j ≠ 0) (h : CleanSides (cellOf vx vy i j)) (hs : sumZero (cellOf vx vy i j) = [])
    (hn : ¬ anyZero (cellOf vx vy i j)) (hD : (cellOf vx vy i j).dd ≠ 0) (hE : (cellOf vx vy i j).ee ≠ 0) :
    ∃ x y, InCell dx dy x y ∧ ZeroAt (cellOf vx vy i j) dx dy x y ∧
      (∀ x' y', InCell dx dy x' y' → ZeroAt (cellOf vx vy i j) dx dy x' y' → x' = x ∧ y' = y) ∧
      inCell Real.sqrt (cellOf vx vy i j) x0 x1 y0 y1 dx dy pos = .ok (some (x + x0, y + y0)) := by
  obtain ⟨x, y, hin, hz⟩ := C59_detected_has_zero hdx hdy h hidx
  have hu : ∀ x' y', InCell dx dy x' y' → ZeroAt (cellOf vx vy i j) dx dy x' y' → x' = x ∧ y' = y := by
    intro x' y' hin' hz'
    by_contra hne
    exact hidx (two_zeros_index hdx hdy h hD hE hin hin' hz hz' hne)
  exact ⟨x, y, hin, hz, hu, C59_unique_zero_partial (fun h0 => Real.sq_sqrt h0) hdx hdy hs hn hD hE hin hz hu⟩

end

end IMT.Pbi
