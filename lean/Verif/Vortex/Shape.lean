import Verif.Vortex.Model
import Mathlib.Analysis.SpecialFunctions.ExpDeriv
import Mathlib.Analysis.Calculus.Deriv.Slope
import Mathlib.Tactic.Positivity

/-!
C142: the velocity of each analytic vortex, at every point of the plane, is the one of its cartesian formula.
-/

namespace IMT.Vortex

open Real Filter Topology

/-! ### polar coordinates -/

theorem radius_sq (x0 x y0 y : ℝ) : radius x0 x y0 y ^ 2 = (x - x0) ^ 2 + (y - y0) ^ 2 := Real.sq_sqrt (by positivity)

theorem radius_nonneg (x0 x y0 y : ℝ) : 0 ≤ radius x0 x y0 y := Real.sqrt_nonneg _

theorem radius_eq_zero {x0 x y0 y : ℝ} : radius x0 x y0 y = 0 ↔ x = x0 ∧ y = y0 := by
  constructor
  · intro h
    have e := radius_sq x0 x y0 y
    rw [h] at e
    constructor <;> nlinarith [sq_nonneg (x - x0), sq_nonneg (y - y0)]
  · rintro ⟨rfl, rfl⟩
    simp [radius]

private theorem hyp (dx dy : ℝ) (h : dx ≠ 0) : √(dx ^ 2 + dy ^ 2) = |dx| * √(1 + (dy / dx) ^ 2) := by
  rw [← Real.sqrt_sq_eq_abs, ← Real.sqrt_mul (sq_nonneg _)]
  congr 1
  field_simp

private theorem root_pos (dx dy : ℝ) : 0 < √(1 + (dy / dx) ^ 2) := Real.sqrt_pos.mpr (by positivity)

/-- `theta` is the polar angle. -/
theorem radius_cos (x0 x y0 y : ℝ) : radius x0 x y0 y * cos (theta x0 x y0 y) = x - x0 := by
  unfold theta
  split_ifs with h0 h1 h2 h3
  · simp [radius, h0.1, h0.2]
  · simp [h1]
  · rw [show -π / 2 = -(π / 2) by ring, Real.cos_neg, Real.cos_pi_div_two]; simp [h1]
  · rw [radius, hyp _ _ h1, Real.cos_arctan, abs_of_pos h3]
    have := (root_pos (x - x0) (y - y0)).ne'
    field_simp
  · rw [radius, hyp _ _ h1, Real.cos_sub_pi, Real.cos_arctan,
      abs_of_neg (lt_of_le_of_ne (not_lt.mp h3) h1)]
    have := (root_pos (x - x0) (y - y0)).ne'
    field_simp

theorem radius_sin (x0 x y0 y : ℝ) : radius x0 x y0 y * sin (theta x0 x y0 y) = y - y0 := by
  unfold theta
  split_ifs with h0 h1 h2 h3
  · simp [h0.2]
  · rw [Real.sin_pi_div_two, mul_one, radius, h1]
    simp [Real.sqrt_sq h2.le]
  · rw [show -π / 2 = -(π / 2) by ring, Real.sin_neg, Real.sin_pi_div_two, radius, h1]
    simp [Real.sqrt_sq_eq_abs, abs_of_nonpos (not_lt.mp h2)]
  · rw [radius, hyp _ _ h1, Real.sin_arctan, abs_of_pos h3]
    have := (root_pos (x - x0) (y - y0)).ne'
    field_simp
  · rw [radius, hyp _ _ h1, Real.sin_sub_pi, Real.sin_arctan,
      abs_of_neg (lt_of_le_of_ne (not_lt.mp h3) h1)]
    have := (root_pos (x - x0) (y - y0)).ne'
    field_simp

theorem cos_theta {x0 x y0 y : ℝ} (h : radius x0 x y0 y ≠ 0) :
    cos (theta x0 x y0 y) = (x - x0) / radius x0 x y0 y := by
  rw [← radius_cos x0 x y0 y]; field_simp

theorem sin_theta {x0 x y0 y : ℝ} (h : radius x0 x y0 y ≠ 0) :
    sin (theta x0 x y0 y) = (y - y0) / radius x0 x y0 y := by
  rw [← radius_sin x0 x y0 y]; field_simp

theorem sign_mul_abs (s : ℝ) : |s| * sign s = s := by
  unfold sign
  split_ifs with h
  · rw [abs_of_neg h]; ring
  · rw [abs_of_nonneg (not_lt.mp h)]; ring

/-! ### the formulas -/

/-- The velocity turns around `(x0, y0)` at the angular velocity `w r`, counted anticlockwise, and goes away from it at the rate
`g r`, where `r` is the distance to `(x0, y0)`. -/
def Turns (u : ℝ → ℝ → ℝ × ℝ) (x0 y0 : ℝ) (g w : ℝ → ℝ) : Prop :=
  ∀ x y r : ℝ, 0 < r → r ^ 2 = (x - x0) ^ 2 + (y - y0) ^ 2 →
    u x y = (g r * (x - x0) - w r * (y - y0), g r * (y - y0) + w r * (x - x0))

theorem radius_of {x0 x y0 y r : ℝ} (hr : 0 < r) (e : r ^ 2 = (x - x0) ^ 2 + (y - y0) ^ 2) : radius x0 x y0 y = r := by
  have h := radius_sq x0 x y0 y
  rw [← e] at h
  exact (pow_left_inj₀ (radius_nonneg _ _ _ _) hr.le two_ne_zero).mp h

theorem vector_of {v : Vort} {x y r : ℝ} (hr : 0 < r) (e : r ^ 2 = (x - v.x0) ^ 2 + (y - v.y0) ^ 2) :
    v.vector x y = ((polar v.kind v.rot r (theta v.x0 x v.y0 y)).1 * ((x - v.x0) / r) -
        (polar v.kind v.rot r (theta v.x0 x v.y0 y)).2 * ((y - v.y0) / r),
      (polar v.kind v.rot r (theta v.x0 x v.y0 y)).1 * ((y - v.y0) / r) +
        (polar v.kind v.rot r (theta v.x0 x v.y0 y)).2 * ((x - v.x0) / r)) := by
  have e' := radius_of hr e
  have h0 : radius v.x0 x v.y0 y ≠ 0 := by rw [e']; exact hr.ne'
  unfold Vort.vector cart
  simp only [cos_theta h0, sin_theta h0, e']

/-- A solid rotation turns everywhere at the given angular velocity, whatever its sign, and does not move at its centre. -/
theorem C142_solid (x0 y0 omega x y : ℝ) (m : Bool) :
    (mkSolid x0 y0 omega m).vector x y = (-(omega * (y - y0)), omega * (x - x0)) := by
  unfold Vort.vector cart mkSolid polar
  have hc := radius_cos x0 x y0 y
  have hs := radius_sin x0 x y0 y
  have hw := sign_mul_abs omega
  ext
  · show 0 * cos (theta x0 x y0 y) - radius x0 x y0 y * |omega| * sign omega * sin (theta x0 x y0 y) = _
    rw [← hs]
    linear_combination -(radius x0 x y0 y * sin (theta x0 x y0 y)) * hw
  · show 0 * sin (theta x0 x y0 y) + radius x0 x y0 y * |omega| * sign omega * cos (theta x0 x y0 y) = _
    rw [← hc]
    linear_combination radius x0 x y0 y * cos (theta x0 x y0 y) * hw

/-- A free vortex: the angular velocity is the circulation over `2 π r²`, anticlockwise when positive; no velocity at the
centre. -/
theorem C142_free (x0 y0 gamma : ℝ) (m : Bool) :
    Turns (mkFree x0 y0 gamma m).vector x0 y0 (fun _ => 0) (fun r => gamma / (2 * π * r ^ 2)) ∧
    (mkFree x0 y0 gamma m).vector x0 y0 = (0, 0) := by
  constructor
  · intro x y r hr e
    rw [vector_of (v := mkFree x0 y0 gamma m) hr e]
    simp only [mkFree, polar, hr.ne', if_false]
    have hw := sign_mul_abs gamma
    have hpi := Real.pi_ne_zero
    ext
    · simp only
      nth_rw 3 [← hw]
      field_simp
      ring
    · simp only
      nth_rw 3 [← hw]
      field_simp
      ring
  · simp [Vort.vector, cart, mkFree, polar, radius]

/-- A Lamb-Oseen vortex. -/
theorem C142_lamb_oseen (x0 y0 ksi t visc : ℝ) (m : Bool) :
    Turns (mkLambOseen x0 y0 ksi t visc m).vector x0 y0 (fun _ => 0)
      (fun r => ksi / (2 * π * r ^ 2) * (1 - exp (-r ^ 2 / (4 * visc * t)))) ∧
    (mkLambOseen x0 y0 ksi t visc m).vector x0 y0 = (0, 0) := by
  constructor
  · intro x y r hr e
    rw [vector_of (v := mkLambOseen x0 y0 ksi t visc m) hr e]
    simp only [mkLambOseen, polar, hr.ne', if_false]
    have hw := sign_mul_abs ksi
    have hpi := Real.pi_ne_zero
    ext
    · simp only
      nth_rw 3 [← hw]
      field_simp
      ring
    · simp only
      nth_rw 3 [← hw]
      field_simp
      ring
  · simp [Vort.vector, cart, mkLambOseen, polar, radius]

/-- A Burger vortex, with its flow towards the centre. -/
theorem C142_burger (x0 y0 alpha ksi visc : ℝ) (m : Bool) :
    Turns (mkBurger x0 y0 alpha ksi visc m).vector x0 y0 (fun _ => -alpha / 2)
      (fun r => ksi / (2 * π * r ^ 2) * (1 - exp (-alpha * r ^ 2 / (4 * visc)))) ∧
    (mkBurger x0 y0 alpha ksi visc m).vector x0 y0 = (0, 0) := by
  constructor
  · intro x y r hr e
    rw [vector_of (v := mkBurger x0 y0 alpha ksi visc m) hr e]
    simp only [mkBurger, polar, hr.ne', if_false]
    have hw := sign_mul_abs ksi
    have hpi := Real.pi_ne_zero
    rw [show -alpha / (4 * visc) * r ^ 2 = -alpha * r ^ 2 / (4 * visc) by ring]
    ext
    · simp only
      nth_rw 3 [← hw]
      field_simp
    · simp only
      nth_rw 3 [← hw]
      field_simp
  · simp [Vort.vector, cart, mkBurger, polar, radius]

/-- A Rankine vortex: solid rotation up to the radius `rv`, free vortex beyond, the same velocity by both formulas at `rv`. -/
theorem C142_rankine (x0 y0 circ rv : ℝ) (m : Bool) (hv : 0 < rv) :
    Turns (mkRankine x0 y0 circ rv m).vector x0 y0 (fun _ => 0)
      (fun r => if r ≤ rv then circ / (2 * π * rv ^ 2) else circ / (2 * π * r ^ 2)) ∧
    (mkRankine x0 y0 circ rv m).vector x0 y0 = (0, 0) ∧
    (∀ x y, rv ^ 2 = (x - x0) ^ 2 + (y - y0) ^ 2 →
      (mkRankine x0 y0 circ rv m).vector x y = (mkFree x0 y0 circ m).vector x y) := by
  have hw := sign_mul_abs circ
  have hpi := Real.pi_ne_zero
  have key : Turns (mkRankine x0 y0 circ rv m).vector x0 y0 (fun _ => 0)
      (fun r => if r ≤ rv then circ / (2 * π * rv ^ 2) else circ / (2 * π * r ^ 2)) := by
    intro x y r hr e
    rw [vector_of (v := mkRankine x0 y0 circ rv m) hr e]
    simp only [mkRankine, polar]
    split_ifs with h
    · ext
      · simp only
        nth_rw 3 [← hw]
        field_simp
        ring
      · simp only
        nth_rw 3 [← hw]
        field_simp
        ring
    · ext
      · simp only
        nth_rw 3 [← hw]
        field_simp
        ring
      · simp only
        nth_rw 3 [← hw]
        field_simp
        ring
  refine ⟨key, ?_, fun x y e => ?_⟩
  · simp [Vort.vector, cart, mkRankine, polar, radius]
  · rw [key x y rv hv e, (C142_free x0 y0 circ m).1 x y rv hv e]
    simp

/-- A Burger vortex turns as a Lamb-Oseen vortex at the time `1 / alpha`. -/
theorem C142_burger_as_lamb (x0 y0 alpha ksi visc x y : ℝ) (m : Bool) (ha : alpha ≠ 0) :
    (mkBurger x0 y0 alpha ksi visc m).vector x y =
      (mkLambOseen x0 y0 ksi (1 / alpha) visc m).vector x y + (-alpha / 2 * (x - x0), -alpha / 2 * (y - y0)) := by
  by_cases h : radius x0 x y0 y = 0
  · obtain ⟨rfl, rfl⟩ := radius_eq_zero.mp h
    rw [(C142_burger _ _ alpha ksi visc m).2, (C142_lamb_oseen _ _ ksi (1 / alpha) visc m).2]
    simp
  · have hr : 0 < radius x0 x y0 y := lt_of_le_of_ne (radius_nonneg _ _ _ _) (Ne.symm h)
    rw [(C142_burger x0 y0 alpha ksi visc m).1 x y _ hr (radius_sq _ _ _ _),
      (C142_lamb_oseen x0 y0 ksi (1 / alpha) visc m).1 x y _ hr (radius_sq _ _ _ _)]
    have e : -radius x0 x y0 y ^ 2 / (4 * visc * (1 / alpha)) = -alpha * radius x0 x y0 y ^ 2 / (4 * visc) := by
      field_simp
    simp only [e]
    ext <;> simp <;> ring

/-- A `PersoVortex` given its circulation turns as a Burger vortex and flows towards its centre at `node_ratio` times the absolute
tangential velocity. -/
theorem C142_perso (x0 y0 rad circ ratio nu : ℝ) (vm : Option ℝ) (m : Bool) :
    ∃ v, mkPerso x0 y0 rad vm (some circ) ratio nu m = .ok v ∧
      Turns v.vector x0 y0
        (fun r => -ratio * |circ / (2 * π * r ^ 2) * (1 - exp (-(16 * log 2 * nu / rad ^ 2) * r ^ 2 / (4 * nu)))|)
        (fun r => circ / (2 * π * r ^ 2) * (1 - exp (-(16 * log 2 * nu / rad ^ 2) * r ^ 2 / (4 * nu)))) ∧
      v.vector x0 y0 = (0, 0) := by
  refine ⟨⟨.perso circ ratio (16 * log 2 * nu / rad ^ 2) nu, x0, y0, 1, m, 0⟩, rfl, ?_, ?_⟩
  · intro x y r hr e
    rw [vector_of (v := ⟨.perso circ ratio (16 * log 2 * nu / rad ^ 2) nu, x0, y0, 1, m, 0⟩) hr e]
    simp only [polar, hr.ne', if_false, mul_one]
    rw [show -(16 * log 2 * nu / rad ^ 2) / (4 * nu) * r ^ 2 = -(16 * log 2 * nu / rad ^ 2) * r ^ 2 / (4 * nu) by ring]
    generalize exp (-(16 * log 2 * nu / rad ^ 2) * r ^ 2 / (4 * nu)) = E
    have hpi := Real.pi_ne_zero
    have e2 : circ / (2 * π) / r * (1 - E) = circ / (2 * π * r ^ 2) * (1 - E) * r := by field_simp
    rw [e2, abs_mul, abs_of_pos hr]
    generalize circ / (2 * π * r ^ 2) * (1 - E) = w
    ext
    · simp only; field_simp
    · simp only; field_simp
  · simp [Vort.vector, cart, polar, radius]

/-- The fluid of a `PersoVortex` asked with the peak vorticity `w` has twice this vorticity (the limit of the circulation over
the area of smaller and smaller circles) at its centre. -/
theorem C142_perso_vorticity_violated (x0 y0 rad w ratio nu : ℝ) (m : Bool) (hr : rad ≠ 0) (hn : 0 < nu) :
    ∃ v, mkPerso x0 y0 rad (some w) none ratio nu m = .ok v ∧
      Tendsto (fun r => 2 * π * r * (v.vector (x0 + r) y0).2 / (π * r ^ 2)) (𝓝[>] 0) (𝓝 (2 * w)) := by
  set a := 16 * log 2 * nu / rad ^ 2 with ha
  have hlog : 0 < log 2 := Real.log_pos (by norm_num)
  have ha0 : 0 < a := by rw [ha]; positivity
  refine ⟨⟨.perso (2 * w * 4 * π * nu / a) ratio a nu, x0, y0, 1, m, 0⟩, rfl, ?_⟩
  have hd : HasDerivAt (fun s => exp (-a / (4 * nu) * s)) (-a / (4 * nu)) 0 := by
    have h1 : HasDerivAt (fun s : ℝ => -a / (4 * nu) * s) (-a / (4 * nu)) 0 := by
      simpa using (hasDerivAt_id (0 : ℝ)).const_mul (-a / (4 * nu))
    simpa using h1.exp
  have ht := hd.tendsto_slope
  have hsq : Tendsto (fun r : ℝ => r ^ 2) (𝓝[>] 0) (𝓝[≠] 0) := by
    refine tendsto_nhdsWithin_iff.mpr ⟨?_, ?_⟩
    · have : Tendsto (fun r : ℝ => r ^ 2) (𝓝 0) (𝓝 (0 ^ 2)) := (continuous_pow 2).tendsto 0
      rw [zero_pow two_ne_zero] at this
      exact this.mono_left nhdsWithin_le_nhds
    · filter_upwards [self_mem_nhdsWithin] with r hr'
      exact (pow_pos hr' 2).ne'
  have h2 := (ht.comp hsq).const_mul (-(2 * (2 * w * 4 * π * nu / a) / (2 * π)))
  have hpi := Real.pi_ne_zero
  have hlim : -(2 * (2 * w * 4 * π * nu / a) / (2 * π)) * (-a / (4 * nu)) = 2 * w := by
    have := hn.ne'
    have := ha0.ne'
    field_simp
  rw [hlim] at h2
  refine h2.congr' ?_
  filter_upwards [self_mem_nhdsWithin] with r hr'
  have hr0 : (0 : ℝ) < r := hr'
  have e : r ^ 2 = (x0 + r - x0) ^ 2 + (y0 - y0) ^ 2 := by ring
  rw [vector_of (v := ⟨.perso (2 * w * 4 * π * nu / a) ratio a nu, x0, y0, 1, m, 0⟩) hr0 e]
  simp only [polar, hr0.ne', if_false, Function.comp, slope_def_field, mul_zero, exp_zero, sub_zero, mul_one, sub_self, zero_div,
    zero_add, add_sub_cancel_left]
  generalize exp (-a / (4 * nu) * r ^ 2) = E
  have := ha0.ne'
  field_simp
  ring

/-- Outside of a Lamb-Chaplygin dipole, on the axis of its motion, the speed at the distance `r` is `U (r - rv²/r)`: it grows
without bound, where the potential flow `U (1 - rv²/r²)` tends to the given convection velocity. -/
theorem C142_dipole_violated (x0 y0 U rv k : ℝ) (j0 j1 j2 : ℝ → ℝ) (d : ℝ) (m : Bool) (id : Nat) (r : ℝ) (hv : 0 < rv) (hr : rv ≤ r) :
    (⟨.chaplygin U rv k j0 j1 j2, x0, y0, d, m, id⟩ : Vort).vector (x0 + r) y0 = (-U * (r - rv ^ 2 / r), 0) := by
  have hr0 : 0 < r := lt_of_lt_of_le hv hr
  have e : r ^ 2 = (x0 + r - x0) ^ 2 + (y0 - y0) ^ 2 := by ring
  have et : theta x0 (x0 + r) y0 y0 = 0 := by simp [theta, hr0.ne', hr0]
  rw [vector_of (v := ⟨.chaplygin U rv k j0 j1 j2, x0, y0, d, m, id⟩) hr0 e]
  simp only [polar, et, not_lt.mpr hr, if_false, sin_zero, cos_zero]
  ext
  · simp; field_simp
  · simp

example : ∃ rv r : ℝ, 0 < rv ∧ rv ≤ r := ⟨1, 2, by norm_num⟩

/-- The theorems are about points other than the centre: the point `(1, 2)` seen from the origin. -/
example : (mkFree 0 0 (-3) true).vector 1 2 = (3 / (5 * π), -3 / (10 * π)) := by
  have h := (C142_free 0 0 (-3) true).1 1 2 (√5) (by positivity) (by norm_num)
  rw [h]
  have h5 : (√5 : ℝ) ^ 2 = 5 := Real.sq_sqrt (by norm_num)
  ext
  · simp only [h5]; field_simp; ring
  · simp only [h5]; field_simp; ring

end IMT.Vortex
