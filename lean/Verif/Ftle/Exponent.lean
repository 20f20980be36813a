import Verif.Ftle.Travel
import Mathlib.Data.List.GetD
import Mathlib.Algebra.Order.Floor.Ring

/-!
C185: the points of `generate_point_field`.  C186: the finite time Lyapunov exponent.
-/

namespace IMT.Ftle

/-! ### C185 -/

theorem delta_pos (dx dy : ℝ) (hx : 0 < dx) : 0 < delta dx dy := by
  unfold delta
  have : 0 < √(dx ^ 2 + dy ^ 2) := Real.sqrt_pos.2 (by positivity)
  linarith

theorem positions_get (a b d : ℝ) (i : ℕ) (hi : i < (positions a b d).length) : (positions a b d).getD i 0 = a + d / 2 + i * d := by
  rw [List.getD_eq_getElem _ _ hi]
  simp [positions, arange]

theorem positions_length (a b d : ℝ) : (positions a b d).length = ⌈(b - (a + d / 2)) / d⌉.toNat := by
  simp [positions, arange]

theorem positions_lt (a b d : ℝ) (hd : 0 < d) (i : ℕ) : i < (positions a b d).length ↔ a + d / 2 + i * d < b := by
  rw [positions_length]
  constructor
  · intro h
    have h1 : ((i : ℕ) : ℤ) < ⌈(b - (a + d / 2)) / d⌉ := by omega
    rw [Int.lt_ceil] at h1
    rw [lt_div_iff₀ hd] at h1
    push_cast at h1
    linarith
  · intro h
    have h1 : ((i : ℕ) : ℤ) < ⌈(b - (a + d / 2)) / d⌉ := by
      rw [Int.lt_ceil, lt_div_iff₀ hd]
      push_cast
      linarith
    omega

/-- **C185** The particles start inside the field: half a spacing from its beginning, then at regular spacing, up to less than one spacing
from its end. -/
theorem C185_points (a b d : ℝ) (hd : 0 < d) :
    (∀ i < (positions a b d).length, (positions a b d).getD i 0 = a + d / 2 + i * d ∧ a < (positions a b d).getD i 0 ∧
      (positions a b d).getD i 0 < b) ∧ b ≤ a + d / 2 + (positions a b d).length * d := by
  refine ⟨fun i hi => ?_, ?_⟩
  · rw [positions_get a b d i hi]
    refine ⟨rfl, ?_, (positions_lt a b d hd i).1 hi⟩
    have : (0 : ℝ) ≤ i * d := by positivity
    linarith
  · by_contra h
    push Not at h
    exact absurd ((positions_lt a b d hd _).2 h) (lt_irrefl _)

/-- **C185** The number of points is not the resolution asked for: in a square field there are more points along each axis than asked. -/
theorem C185_number_violated (a b c L res : ℝ) (hL : 0 < L) (hb : b = a + L) (hc : 0 ≤ res) :
    res < (positions a b (delta (spacing a b res) (spacing c (c + L) res))).length := by
  have hs : spacing a b res = L / (res + 1) := by unfold spacing; rw [hb]; congr 1; ring
  have hs2 : spacing c (c + L) res = L / (res + 1) := by unfold spacing; congr 1; ring
  rw [hs, hs2]
  set s := L / (res + 1) with hsd
  have hr : 0 < res + 1 := by linarith
  have hspos : 0 < s := div_pos hL hr
  have hd : 0 < delta s s := delta_pos s s hspos
  have h2 := (C185_points a b (delta s s) hd).2
  by_contra hcon
  push Not at hcon
  have hlt : delta s s ≤ 3 / 4 * s := by
    unfold delta
    have : √(s ^ 2 + s ^ 2) ≤ 3 / 2 * s := by
      apply Real.sqrt_le_iff.2
      refine ⟨by positivity, ?_⟩
      nlinarith [sq_nonneg s]
    linarith
  have hLs : L = s * (res + 1) := by rw [hsd]; field_simp
  have hk : ((positions a b (delta s s)).length : ℝ) * delta s s ≤ res * (3 / 4 * s) :=
    mul_le_mul hcon hlt hd.le hc
  have hrs : 0 ≤ res * s := mul_nonneg hc hspos.le
  rw [hb, hLs] at h2
  have : s * (res + 1) ≤ 3 / 8 * s + res * (3 / 4 * s) := by
    rw [hb, hLs] at hk
    linarith
  nlinarith

/-! ### C186 -/

theorem eigMax_greatest (a b d : ℝ) :
    IsGreatest {q : ℝ | ∃ u v : ℝ, u ^ 2 + v ^ 2 = 1 ∧ q = a * u ^ 2 + 2 * b * (u * v) + d * v ^ 2} (eigMax a b d) := by
  unfold eigMax
  set r := √((a - d) ^ 2 + 4 * b ^ 2) with hr
  have hr0 : 0 ≤ r := Real.sqrt_nonneg _
  have hr2 : r ^ 2 = (a - d) ^ 2 + 4 * b ^ 2 := Real.sq_sqrt (by positivity)
  constructor
  · by_cases h : r = 0
    · refine ⟨1, 0, by norm_num, ?_⟩
      rw [h] at hr2 ⊢
      have h1 : (a - d) ^ 2 = 0 := by nlinarith [sq_nonneg (a - d), sq_nonneg b]
      have h2 : a - d = 0 := by simpa using h1
      have : a = d := by linarith
      rw [this]; ring
    · have hpos : 0 < r := lt_of_le_of_ne hr0 (Ne.symm h)
      have hC1 : -1 ≤ (a - d) / r := by
        rw [le_div_iff₀ hpos]; nlinarith [sq_nonneg b, abs_le_of_sq_le_sq' (show (a - d) ^ 2 ≤ r ^ 2 by rw [hr2]; nlinarith [sq_nonneg b]) hr0]
      have hC2 : (a - d) / r ≤ 1 := by
        rw [div_le_one hpos]; nlinarith [sq_nonneg b, abs_le_of_sq_le_sq' (show (a - d) ^ 2 ≤ r ^ 2 by rw [hr2]; nlinarith [sq_nonneg b]) hr0]
      set C := (a - d) / r with hC
      set S := 2 * b / r with hS
      have hCS : C ^ 2 + S ^ 2 = 1 := by
        rw [hC, hS, div_pow, div_pow, ← add_div, hr2]
        have : (a - d) ^ 2 + (2 * b) ^ 2 = (a - d) ^ 2 + 4 * b ^ 2 := by ring
        rw [this, div_self]
        rw [← hr2]; positivity
      have hu : √((1 + C) / 2) ^ 2 = (1 + C) / 2 := Real.sq_sqrt (by linarith)
      have hv : √((1 - C) / 2) ^ 2 = (1 - C) / 2 := Real.sq_sqrt (by linarith)
      have huv : √((1 + C) / 2) * √((1 - C) / 2) = |S| / 2 := by
        rw [← Real.sqrt_mul (by linarith)]
        have : (1 + C) / 2 * ((1 - C) / 2) = (|S| / 2) ^ 2 := by
          rw [div_pow, sq_abs]; nlinarith
        rw [this, Real.sqrt_sq (by positivity)]
      have e1 : a - d = r * C := by rw [hC]; field_simp
      have e2 : 2 * b = r * S := by rw [hS]; field_simp
      rcases le_total 0 S with hSs | hSs
      · refine ⟨√((1 + C) / 2), √((1 - C) / 2), by rw [hu, hv]; ring, ?_⟩
        rw [hu, hv, huv, abs_of_nonneg hSs]
        have : a = d + r * C := by linarith
        have hb : b = r * S / 2 := by linarith
        rw [this, hb]
        linear_combination (-r / 2) * hCS
      · refine ⟨√((1 + C) / 2), -√((1 - C) / 2), by rw [neg_sq, hu, hv]; ring, ?_⟩
        rw [neg_sq, hu, hv, mul_neg, huv, abs_of_nonpos hSs]
        have : a = d + r * C := by linarith
        have hb : b = r * S / 2 := by linarith
        rw [this, hb]
        linear_combination (-r / 2) * hCS
  · rintro q ⟨u, v, h1, rfl⟩
    have key : ((a - d) * (u ^ 2 - v ^ 2) + 4 * b * (u * v)) ^ 2 ≤ r ^ 2 := by
      rw [hr2]
      have e : (u ^ 2 - v ^ 2) ^ 2 + 4 * (u * v) ^ 2 = 1 := by
        have : (u ^ 2 - v ^ 2) ^ 2 + 4 * (u * v) ^ 2 = (u ^ 2 + v ^ 2) ^ 2 := by ring
        rw [this, h1]; norm_num
      nlinarith [sq_nonneg ((a - d) * (2 * (u * v)) - 2 * b * (u ^ 2 - v ^ 2))]
    have := (abs_le_of_sq_le_sq' key hr0).2
    have e : a * u ^ 2 + 2 * b * (u * v) + d * v ^ 2 = ((a + d) * (u ^ 2 + v ^ 2) + ((a - d) * (u ^ 2 - v ^ 2) + 4 * b * (u * v))) / 2 := by ring
    rw [e, h1]
    linarith

/-- **C186** The number the exponent is made of is the largest stretching: the largest squared length, after the motion, of a line
of length 1. -/
theorem C186_stretch (xx xy yx yy : ℝ) :
    IsGreatest {q : ℝ | ∃ u v : ℝ, u ^ 2 + v ^ 2 = 1 ∧ q = (xx * u + xy * v) ^ 2 + (yx * u + yy * v) ^ 2} (stretch xx xy yx yy) := by
  have h := eigMax_greatest (xx ^ 2 + yx ^ 2) (xx * xy + yx * yy) (xy ^ 2 + yy ^ 2)
  have e : stretch xx xy yx yy = eigMax (xx ^ 2 + yx ^ 2) (xx * xy + yx * yy) (xy ^ 2 + yy ^ 2) := by
    unfold stretch eigMax
    congr 2
    · ring
    · congr 1; ring
  rw [e]
  convert h using 2
  ext q
  constructor
  · rintro ⟨u, v, h1, rfl⟩
    exact ⟨u, v, h1, by ring⟩
  · rintro ⟨u, v, h1, rfl⟩
    exact ⟨u, v, h1, by ring⟩

theorem gradient_affine (n i : ℕ) (h d c0 c1 : ℝ) (g : ℕ → ℝ)
    (hg : ∀ a ∈ used n i, g a = c0 + c1 * (a * d)) : gradient n h g i = c1 * d / h := by
  unfold gradient
  unfold used at hg
  by_cases h0 : i = 0
  · rw [if_pos h0] at hg ⊢
    rw [hg 1 (by simp), hg 0 (by simp)]
    push_cast
    congr 1
    ring
  · rw [if_neg h0] at hg ⊢
    obtain ⟨m, rfl⟩ : ∃ m, i = m + 1 := ⟨i - 1, by omega⟩
    by_cases h1 : m + 1 + 1 = n
    · rw [if_pos h1] at hg ⊢
      rw [hg (m + 1) (by simp), hg (m + 1 - 1) (by simp)]
      simp only [Nat.add_sub_cancel]
      push_cast
      congr 1
      ring
    · rw [if_neg h1] at hg ⊢
      rw [hg (m + 1 + 1) (by simp), hg (m + 1 - 1) (by simp)]
      simp only [Nat.add_sub_cancel]
      push_cast
      rw [show c0 + c1 * ((↑m + 1 + 1) * d) - (c0 + c1 * (↑m * d)) = 2 * (c1 * d) by ring]
      rw [mul_div_mul_left _ _ two_ne_zero]

theorem used_lt (n i a : ℕ) (hn : 2 ≤ n) (hi : i < n) (ha : a ∈ used n i) : a < n := by
  unfold used at ha
  by_cases h0 : i = 0
  · rw [if_pos h0] at ha
    simp only [List.mem_cons, List.not_mem_nil, or_false] at ha
    omega
  · rw [if_neg h0] at ha
    by_cases h1 : i + 1 = n
    · rw [if_pos h1] at ha
      simp only [List.mem_cons, List.not_mem_nil, or_false] at ha
      omega
    · rw [if_neg h1] at ha
      simp only [List.mem_cons, List.not_mem_nil, or_false] at ha
      omega

/-- An affine motion of the plane. -/
structure Affine where
  cx : ℝ
  cy : ℝ
  xx : ℝ
  xy : ℝ
  yx : ℝ
  yy : ℝ

/-- The place where an affine motion brings a point. -/
def Affine.at (m : Affine) (p : ℂ) : ℂ := ⟨m.cx + m.xx * p.re + m.xy * p.im, m.cy + m.yx * p.re + m.yy * p.im⟩

/-- The point `a, b` where a particle starts. -/
noncomputable def start (k : Box) (sx sy : ℝ) (a b : ℕ) : ℂ :=
  ⟨(positions k.xa k.xb (delta sx sy)).getD a 0, (positions k.ya k.yb (delta sx sy)).getD b 0⟩

/-- **C186** Where one of the particles the exponent is computed with left the field, there is no value, and only there. -/
theorem C186_masked (v : ℂ → ℂ) (k : Box) (dx resX resY dt relErr dampl : ℝ) (n i j : ℕ) (q : Option ℝ) (sx sy : ℝ)
    (hsx : sx = spacing k.xa k.xb resX) (hsy : sy = spacing k.ya k.yb resY)
    (h : getFtle v k dx resX resY dt relErr dampl n i j = .ok q) :
    q = none ↔ (∃ a ∈ used (positions k.xa k.xb (delta sx sy)).length i, ∃ y, particle v k dx sx sy dt relErr dampl n a j = .ok (some (y, true))) ∨
      ∃ b ∈ used (positions k.ya k.yb (delta sx sy)).length j, ∃ y, particle v k dx sx sy dt relErr dampl n i b = .ok (some (y, true)) := by
  have key : ∀ r : Res (Option (ℂ × Bool)), leftOf r = true ↔ ∃ y, r = .ok (some (y, true)) := by
    intro r
    rcases r with e | (_ | ⟨y, l⟩)
    · simp [leftOf]
    · simp [leftOf]
    · simp [leftOf]
  unfold getFtle at h
  rw [← hsx, ← hsy] at h
  by_cases h1 : (positions k.xa k.xb (delta sx sy)).length < 2 ∨ (positions k.ya k.yb (delta sx sy)).length < 2
  · rw [if_pos h1] at h; exact absurd h (by simp)
  rw [if_neg h1] at h
  by_cases h2 : dt = 0 ∨ relErr ≤ 0 ∨ dampl < 0 ∨ dampl > 1
  · rw [if_pos h2] at h; exact absurd h (by simp)
  rw [if_neg h2] at h
  simp only [Except.ok.injEq] at h
  rw [← h]
  unfold ftle
  simp only [← key]
  by_cases hc : ((used (positions k.xa k.xb (delta sx sy)).length i).any
      (fun a => leftOf (particle v k dx sx sy dt relErr dampl n a j)) || (used (positions k.ya k.yb (delta sx sy)).length j).any
      (fun b => leftOf (particle v k dx sx sy dt relErr dampl n i b))) = true
  · rw [if_pos hc]
    simp only [Bool.or_eq_true, List.any_eq_true] at hc
    simpa using hc
  · rw [if_neg hc]
    simp only [Bool.or_eq_true, List.any_eq_true] at hc
    simp only [reduceCtorEq, false_iff]
    exact hc

/-- The exponent around a point whose neighbours are moved by an affine motion. -/
theorem ftle_affine (v : ℂ → ℂ) (k : Box) (dx resX resY dt relErr dampl : ℝ) (n i j : ℕ) (sx sy : ℝ)
    (hsx : sx = spacing k.xa k.xb resX) (hsy : sy = spacing k.ya k.yb resY) (h1 : dt ≠ 0) (h2 : 0 < relErr) (h3 : 0 ≤ dampl) (h4 : dampl ≤ 1)
    (hi : i < (positions k.xa k.xb (delta sx sy)).length) (hj : j < (positions k.ya k.yb (delta sx sy)).length)
    (hnx : 2 ≤ (positions k.xa k.xb (delta sx sy)).length) (hny : 2 ≤ (positions k.ya k.yb (delta sx sy)).length) (m : Affine)
    (hx : ∀ a ∈ used (positions k.xa k.xb (delta sx sy)).length i,
      particle v k dx sx sy dt relErr dampl n a j = .ok (some (m.at (start k sx sy a j), false)))
    (hy : ∀ b ∈ used (positions k.ya k.yb (delta sx sy)).length j,
      particle v k dx sx sy dt relErr dampl n i b = .ok (some (m.at (start k sx sy i b), false))) :
    getFtle v k dx resX resY dt relErr dampl n i j = .ok (some (1 / |dt| * Real.log (√(stretch (m.xx * delta sx sy / sx)
      (m.xy * delta sx sy / sy) (m.yx * delta sx sy / sx) (m.yy * delta sx sy / sy))))) := by
  unfold getFtle
  rw [← hsx, ← hsy, if_neg (by omega), if_neg (by push Not; exact ⟨h1, h2, h3, h4⟩)]
  unfold ftle
  have hc : ¬ ((used (positions k.xa k.xb (delta sx sy)).length i).any
      (fun a => leftOf (particle v k dx sx sy dt relErr dampl n a j)) || (used (positions k.ya k.yb (delta sx sy)).length j).any
      (fun b => leftOf (particle v k dx sx sy dt relErr dampl n i b))) = true := by
    simp only [Bool.or_eq_true, List.any_eq_true, not_or, not_exists, not_and]
    refine ⟨fun a ha => ?_, fun b hb => ?_⟩
    · rw [hx a ha]; simp [leftOf]
    · rw [hy b hb]; simp [leftOf]
  rw [if_neg hc]
  set nx := (positions k.xa k.xb (delta sx sy)).length with hnxd
  set ny := (positions k.ya k.yb (delta sx sy)).length with hnyd
  have px : ∀ a ∈ used nx i, (start k sx sy a j).re = k.xa + delta sx sy / 2 + a * delta sx sy := fun a ha => by
    simp only [start]; exact positions_get _ _ _ a (used_lt nx i a hnx hi ha)
  have py : ∀ b ∈ used ny j, (start k sx sy i b).im = k.ya + delta sx sy / 2 + b * delta sx sy := fun b hb => by
    simp only [start]; exact positions_get _ _ _ b (used_lt ny j b hny hj hb)
  have g1 : gradient nx sx (fun a => (placeOf (particle v k dx sx sy dt relErr dampl n a j)).re) i = m.xx * delta sx sy / sx := by
    refine gradient_affine nx i sx (delta sx sy) (m.cx + m.xx * (k.xa + delta sx sy / 2) + m.xy * (start k sx sy i j).im) m.xx _ ?_
    intro a ha
    simp only [hx a ha, placeOf, Affine.at, px a ha]
    simp only [start]; ring
  have g2 : gradient ny sy (fun b => (placeOf (particle v k dx sx sy dt relErr dampl n i b)).re) j = m.xy * delta sx sy / sy := by
    refine gradient_affine ny j sy (delta sx sy) (m.cx + m.xx * (start k sx sy i j).re + m.xy * (k.ya + delta sx sy / 2)) m.xy _ ?_
    intro b hb
    simp only [hy b hb, placeOf, Affine.at, py b hb]
    simp only [start]; ring
  have g3 : gradient nx sx (fun a => (placeOf (particle v k dx sx sy dt relErr dampl n a j)).im) i = m.yx * delta sx sy / sx := by
    refine gradient_affine nx i sx (delta sx sy) (m.cy + m.yx * (k.xa + delta sx sy / 2) + m.yy * (start k sx sy i j).im) m.yx _ ?_
    intro a ha
    simp only [hx a ha, placeOf, Affine.at, px a ha]
    simp only [start]; ring
  have g4 : gradient ny sy (fun b => (placeOf (particle v k dx sx sy dt relErr dampl n i b)).im) j = m.yy * delta sx sy / sy := by
    refine gradient_affine ny j sy (delta sx sy) (m.cy + m.yx * (start k sx sy i j).re + m.yy * (k.ya + delta sx sy / 2)) m.yy _ ?_
    intro b hb
    simp only [hy b hb, placeOf, Affine.at, py b hb]
    simp only [start]; ring
  rw [g1, g2, g3, g4]

theorem stretch_scale (c xx xy yx yy : ℝ) : stretch (c * xx) (c * xy) (c * yx) (c * yy) = c ^ 2 * stretch xx xy yx yy := by
  unfold stretch eigMax
  have e : ((c * xx) ^ 2 + (c * xy) ^ 2 - ((c * yx) ^ 2 + (c * yy) ^ 2)) ^ 2 + 4 * (c * xx * (c * yx) + c * xy * (c * yy)) ^ 2 =
      (c ^ 2) ^ 2 * ((xx ^ 2 + xy ^ 2 - (yx ^ 2 + yy ^ 2)) ^ 2 + 4 * (xx * yx + xy * yy) ^ 2) := by ring
  rw [e, Real.sqrt_mul (by positivity), Real.sqrt_sq (by positivity)]
  ring

theorem stretch_pos (xx xy yx yy : ℝ) (h : xx ≠ 0 ∨ xy ≠ 0 ∨ yx ≠ 0 ∨ yy ≠ 0) : 0 < stretch xx xy yx yy := by
  unfold stretch eigMax
  have : 0 < xx ^ 2 + xy ^ 2 + (yx ^ 2 + yy ^ 2) := by
    rcases h with h | h | h | h <;> positivity
  have h2 := Real.sqrt_nonneg ((xx ^ 2 + xy ^ 2 - (yx ^ 2 + yy ^ 2)) ^ 2 + 4 * (xx * yx + xy * yy) ^ 2)
  linarith

/-- **C186** With equal spacings asked along x and y, around a point whose neighbours are moved by an affine motion the value is the exponent of
the motion (the logarithm of the largest stretching over the time), minus `log 2 / (2 |dt|)`: the particles are not at the spacing the
gradients are computed with. -/
theorem C186_affine_partial (v : ℂ → ℂ) (k : Box) (dx resX resY dt relErr dampl : ℝ) (n i j : ℕ) (s : ℝ) (hs : 0 < s)
    (hsx : s = spacing k.xa k.xb resX) (hsy : s = spacing k.ya k.yb resY) (h1 : dt ≠ 0) (h2 : 0 < relErr) (h3 : 0 ≤ dampl) (h4 : dampl ≤ 1)
    (hi : i < (positions k.xa k.xb (delta s s)).length) (hj : j < (positions k.ya k.yb (delta s s)).length)
    (hnx : 2 ≤ (positions k.xa k.xb (delta s s)).length) (hny : 2 ≤ (positions k.ya k.yb (delta s s)).length) (m : Affine)
    (hm : m.xx ≠ 0 ∨ m.xy ≠ 0 ∨ m.yx ≠ 0 ∨ m.yy ≠ 0)
    (hx : ∀ a ∈ used (positions k.xa k.xb (delta s s)).length i,
      particle v k dx s s dt relErr dampl n a j = .ok (some (m.at (start k s s a j), false)))
    (hy : ∀ b ∈ used (positions k.ya k.yb (delta s s)).length j,
      particle v k dx s s dt relErr dampl n i b = .ok (some (m.at (start k s s i b), false))) :
    getFtle v k dx resX resY dt relErr dampl n i j =
      .ok (some (Real.log (√(stretch m.xx m.xy m.yx m.yy)) / |dt| - Real.log 2 / (2 * |dt|))) := by
  rw [ftle_affine v k dx resX resY dt relErr dampl n i j s s hsx hsy h1 h2 h3 h4 hi hj hnx hny m hx hy]
  have hd : delta s s = s * (√2 / 2) := by
    unfold delta
    rw [show s ^ 2 + s ^ 2 = s ^ 2 * 2 by ring, Real.sqrt_mul (by positivity), Real.sqrt_sq hs.le]
    ring
  have e : ∀ c : ℝ, c * delta s s / s = √2 / 2 * c := fun c => by rw [hd]; field_simp
  rw [e, e, e, e, stretch_scale]
  have hst := stretch_pos _ _ _ _ hm
  have h2' : (√2 / 2) ^ 2 = 1 / 2 := by
    rw [div_pow, Real.sq_sqrt (by norm_num)]; norm_num
  rw [h2', Real.log_sqrt (by positivity), Real.log_sqrt hst.le, Real.log_mul (by norm_num) hst.ne', Real.log_div one_ne_zero two_ne_zero,
    Real.log_one]
  have : |dt| ≠ 0 := abs_ne_zero.2 h1
  congr 2
  field_simp
  ring

/-- **C186** In a uniform flow nothing is stretched and the exponent is zero; but the value is `log(delta / min(sx, sy)) / |dt|`, whatever the velocity:
not zero, and `-log 2 / (2 |dt|)` for equal spacings. -/
theorem C186_uniform_violated (c : ℂ) (hc : c ≠ 0) (k : Box) (dx : ℝ) (hdx : 0 < dx) (resX resY dt relErr dampl : ℝ) (n i j : ℕ) (sx sy : ℝ)
    (hsx : sx = spacing k.xa k.xb resX) (hsy : sy = spacing k.ya k.yb resY) (hx0 : 0 < sx) (hy0 : 0 < sy)
    (h1 : dt ≠ 0) (h2 : 0 < relErr) (h3 : 0 ≤ dampl) (h4 : dampl < 1) (hn : 3 ≤ n)
    (hi : i < (positions k.xa k.xb (delta sx sy)).length) (hj : j < (positions k.ya k.yb (delta sx sy)).length)
    (hnx : 2 ≤ (positions k.xa k.xb (delta sx sy)).length) (hny : 2 ≤ (positions k.ya k.yb (delta sx sy)).length)
    (hx : ∀ a ∈ used (positions k.xa k.xb (delta sx sy)).length i, ¬ k.out (start k sx sy a j + c * dt))
    (hy : ∀ b ∈ used (positions k.ya k.yb (delta sx sy)).length j, ¬ k.out (start k sx sy i b + c * dt)) :
    getFtle (fun _ => c) k dx resX resY dt relErr dampl n i j = .ok (some (Real.log (delta sx sy / min sx sy) / |dt|)) ∧
      (sx = sy → Real.log (delta sx sy / min sx sy) / |dt| = -(Real.log 2 / (2 * |dt|)) ∧
        Real.log (delta sx sy / min sx sy) / |dt| ≠ 0) := by
  have hd := delta_pos sx sy hx0
  have hin : ∀ a b, a < (positions k.xa k.xb (delta sx sy)).length → b < (positions k.ya k.yb (delta sx sy)).length →
      ¬ k.out (start k sx sy a b) := by
    intro a b ha hb
    obtain ⟨-, p1, p2⟩ := (C185_points k.xa k.xb _ hd).1 a ha
    obtain ⟨-, p3, p4⟩ := (C185_points k.ya k.yb _ hd).1 b hb
    unfold Box.out
    push Not
    exact ⟨p1.le, p2.le, p3.le, p4.le⟩
  have hmove : ∀ a b, a < (positions k.xa k.xb (delta sx sy)).length → b < (positions k.ya k.yb (delta sx sy)).length →
      ¬ k.out (start k sx sy a b + c * dt) → particle (fun _ => c) k dx sx sy dt relErr dampl n a b =
        .ok (some ((⟨c.re * dt, c.im * dt, 1, 0, 0, 1⟩ : Affine).at (start k sx sy a b), false)) := by
    intro a b ha hb ho
    have := (C183_uniform_partial c hc k dx hdx (start k sx sy a b) (hin a b ha hb) dt relErr dampl h1 h2 h3 h4 n hn).1 ho
    unfold particle
    rw [show (⟨(positions k.xa k.xb (delta sx sy)).getD a 0, (positions k.ya k.yb (delta sx sy)).getD b 0⟩ : ℂ) = start k sx sy a b from rfl,
      this]
    congr 3
    apply Complex.ext
    · simp [Affine.at]; ring
    · simp [Affine.at]; ring
  rw [ftle_affine (fun _ => c) k dx resX resY dt relErr dampl n i j sx sy hsx hsy h1 h2 h3 h4.le hi hj hnx hny ⟨c.re * dt, c.im * dt, 1, 0, 0, 1⟩
    (fun a ha => hmove a j (used_lt _ _ _ hnx hi ha) hj (hx a ha)) (fun b hb => hmove i b hi (used_lt _ _ _ hny hj hb) (hy b hb))]
  constructor
  · congr 2
    have e : stretch (1 * delta sx sy / sx) (0 * delta sx sy / sy) (0 * delta sx sy / sx) (1 * delta sx sy / sy) = (delta sx sy / min sx sy) ^ 2 := by
      unfold stretch eigMax
      simp only [one_mul, zero_mul, zero_div, mul_zero, add_zero, zero_add, ne_eq, OfNat.ofNat_ne_zero, not_false_eq_true, zero_pow]
      rw [Real.sqrt_sq_eq_abs]
      rcases le_total sx sy with h | h
      · have : delta sx sy / sy ≤ delta sx sy / sx := div_le_div_of_nonneg_left hd.le hx0 h
        have h0 : 0 ≤ delta sx sy / sy := (div_pos hd hy0).le
        rw [abs_of_nonneg (by nlinarith), min_eq_left h]; ring
      · have : delta sx sy / sx ≤ delta sx sy / sy := div_le_div_of_nonneg_left hd.le hy0 h
        have h0 : 0 ≤ delta sx sy / sx := (div_pos hd hx0).le
        rw [abs_of_nonpos (by nlinarith), min_eq_right h]; ring
    rw [e, Real.sqrt_sq (div_pos hd (lt_min hx0 hy0)).le]
    ring
  · intro he
    subst he
    have hd2 : delta sx sx / min sx sx = √2 / 2 := by
      unfold delta
      rw [min_self, show sx ^ 2 + sx ^ 2 = sx ^ 2 * 2 by ring, Real.sqrt_mul (by positivity), Real.sqrt_sq hx0.le]
      field_simp
    have hab : 0 < |dt| := abs_pos.2 h1
    have hl : Real.log (delta sx sx / min sx sx) / |dt| = -(Real.log 2 / (2 * |dt|)) := by
      rw [hd2, Real.log_div (by positivity) two_ne_zero, Real.log_sqrt (by norm_num)]
      field_simp
      ring
    refine ⟨hl, ?_⟩
    rw [hl]
    have := Real.log_pos (show (1 : ℝ) < 2 by norm_num)
    have : 0 < Real.log 2 / (2 * |dt|) := by positivity
    linarith

/-! ### concrete cases -/

-- C185: spacings are positive
example : 0 < delta (spacing 0 4 3) (spacing 0 4 3) := delta_pos _ _ (by norm_num [spacing])

theorem demo_delta : delta 1 1 = √2 / 2 := by unfold delta; norm_num

theorem demo_sqrt : (7 : ℝ) / 5 ≤ √2 ∧ √2 ≤ 3 / 2 := by
  constructor
  · exact Real.le_sqrt_of_sq_le (by norm_num)
  · exact Real.sqrt_le_iff.2 ⟨by norm_num, by norm_num⟩

-- C186: the field `[0, 4] x [0, 4]` with a spacing of 1 has more than two points along each axis
theorem demo_points : 3 ≤ (positions 0 4 (delta 1 1)).length := by
  have := (positions_lt 0 4 (delta 1 1) (delta_pos 1 1 one_pos) 2).2 (by
    rw [demo_delta]; have := demo_sqrt; push_cast; linarith)
  omega

-- ... and a slow uniform flow keeps the neighbours of the second point inside
example : getFtle (fun _ => 1) demo 1 3 3 (1 / 10) (1 / 100000) (1 / 2) 3 1 1 =
    .ok (some (Real.log (delta 1 1 / min 1 1) / |1 / 10|)) := by
  have hp := demo_points
  have hs := demo_sqrt
  have hd := delta_pos 1 1 one_pos
  have hin : ∀ a ≤ 2, ∀ b ≤ 2, ¬ demo.out (start demo 1 1 a b + 1 * ((1 / 10 : ℝ) : ℂ)) := by
    intro a ha b hb
    have ea := positions_get 0 4 (delta 1 1) a (by omega)
    have eb := positions_get 0 4 (delta 1 1) b (by omega)
    have h1 : (a : ℝ) ≤ 2 := by exact_mod_cast ha
    have h2 : (b : ℝ) ≤ 2 := by exact_mod_cast hb
    have h3 : (0 : ℝ) ≤ a := Nat.cast_nonneg a
    have h4 : (0 : ℝ) ≤ b := Nat.cast_nonneg b
    rw [demo_delta] at hd ea eb
    have er : (start demo 1 1 a b + 1 * ((1 / 10 : ℝ) : ℂ)).re = √2 / 2 / 2 + a * (√2 / 2) + 1 / 10 := by
      rw [Complex.add_re, one_mul, Complex.ofReal_re]
      simp only [start, demo, demo_delta]
      rw [ea]; ring
    have ei : (start demo 1 1 a b + 1 * ((1 / 10 : ℝ) : ℂ)).im = √2 / 2 / 2 + b * (√2 / 2) := by
      rw [Complex.add_im, one_mul, Complex.ofReal_im]
      simp only [start, demo, demo_delta]
      rw [eb]; ring
    unfold Box.out
    rw [er, ei]
    push Not
    simp only [demo]
    refine ⟨by positivity, ?_, by positivity, ?_⟩ <;> nlinarith
  have hu : used (positions 0 4 (delta 1 1)).length 1 = [2, 0] ∨ used (positions 0 4 (delta 1 1)).length 1 = [1, 0] := by
    unfold used
    by_cases h : 1 + 1 = (positions 0 4 (delta 1 1)).length
    · right; simp [h]
    · left; simp [h]
  have hu2 : ∀ a ∈ used (positions 0 4 (delta 1 1)).length 1, a ≤ 2 := by
    intro a ha
    rcases hu with h | h <;> rw [h] at ha <;> simp at ha <;> omega
  exact (C186_uniform_violated 1 one_ne_zero demo 1 one_pos 3 3 (1 / 10) _ _ 3 1 1 1 1 (by norm_num [spacing, demo]) (by norm_num [spacing, demo])
    one_pos one_pos (by norm_num) (by norm_num) (by norm_num) (by norm_num) le_rfl (by simp only [demo]; omega) (by simp only [demo]; omega)
    (by simp only [demo]; omega) (by simp only [demo]; omega) (fun a ha => hin a (hu2 a ha) 1 (by norm_num))
    (fun b hb => hin 1 (by norm_num) b (hu2 b hb))).1

end IMT.Ftle
