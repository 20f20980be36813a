import Verif.Bl.Model
import Mathlib.Analysis.SpecialFunctions.Pow.Deriv
import Mathlib.Analysis.SpecialFunctions.Integrals.Basic
import Mathlib.MeasureTheory.Integral.IntervalIntegral.FundThmCalculus
import Mathlib.Analysis.SpecialFunctions.Log.Deriv
import Mathlib.Analysis.Complex.ExponentialBounds
import Mathlib.Analysis.SpecialFunctions.Trigonometric.Bounds

/-!
Properties C170 (Thwaites' method) and C171 (laws of the wall and of the wake).
-/

namespace IMT.Bl

open Set

/-! ### C170: Thwaites -/

/-- The velocity outside is positive and continuous. -/
def Thwaites.Phys (t : Thwaites) : Prop := 0 < t.nu ∧ Continuous t.ue ∧ ∀ x, 0 < t.ue x

theorem Thwaites.pow_continuous {t : Thwaites} (ht : t.Phys) : Continuous t.pow := by
  unfold Thwaites.pow
  exact ht.2.1.rpow_const fun x => Or.inl (ht.2.2 x).ne'

theorem Thwaites.pow_pos {t : Thwaites} (ht : t.Phys) (x : ℝ) : 0 < t.pow x := Real.rpow_pos_of_pos (ht.2.2 x) _

theorem Thwaites.integral_nonneg {t : Thwaites} (ht : t.Phys) {x : ℝ} (hx : 0 ≤ x) : 0 ≤ ∫ s in (0 : ℝ)..x, t.pow s :=
  intervalIntegral.integral_nonneg hx fun s _ => (Thwaites.pow_pos ht s).le

theorem Thwaites.theta_sq {t : Thwaites} (ht : t.Phys) {x : ℝ} (hx : 0 ≤ x) :
    ∃ d, t.theta x = some d ∧ 0 ≤ d ∧ d ^ 2 * t.ue x ^ (5.68 : ℝ) = 0.441 * t.nu * ∫ s in (0 : ℝ)..x, t.pow s := by
  have hp := Real.rpow_pos_of_pos (ht.2.2 x) 5.68
  have h1 := ht.1
  have hi := Thwaites.integral_nonneg ht hx
  refine ⟨_, by rw [Thwaites.theta, if_neg hp.ne'], Real.sqrt_nonneg _, ?_⟩
  rw [Real.sq_sqrt (by positivity)]
  field_simp

/-- C170: Thwaites' equation: for every positive continuous velocity, the momentum thickness starts from zero and obeys
`d(theta^2 u_e^5.68)/dx = 0.441 nu u_e^4.68`. -/
theorem C170_equation {t : Thwaites} (ht : t.Phys) : ∃ theta : ℝ → ℝ, (∀ x, 0 ≤ x → t.theta x = some (theta x) ∧ 0 ≤ theta x) ∧
    theta 0 = 0 ∧ (∀ x, 0 < x → 0 < theta x) ∧
    ∀ x, 0 < x → HasDerivAt (fun s => theta s ^ 2 * t.ue s ^ (5.68 : ℝ)) (0.441 * t.nu * t.ue x ^ (4.68 : ℝ)) x := by
  have h1 := ht.1
  refine ⟨fun x => (t.theta x).getD 0, ?_, ?_, ?_, ?_⟩
  · intro x hx
    obtain ⟨d, h, h0, _⟩ := Thwaites.theta_sq ht hx
    exact ⟨by simp [h], by simp [h, h0]⟩
  · obtain ⟨d, h, h0, h2⟩ := Thwaites.theta_sq ht (le_refl (0 : ℝ))
    simp only [h, Option.getD_some]
    rw [intervalIntegral.integral_same, mul_zero] at h2
    have hp := Real.rpow_pos_of_pos (ht.2.2 0) 5.68
    rcases mul_eq_zero.mp h2 with h3 | h3
    · exact pow_eq_zero_iff (by norm_num) |>.mp h3
    · exact absurd h3 hp.ne'
  · intro x hx
    obtain ⟨d, h, h0, h2⟩ := Thwaites.theta_sq ht hx.le
    simp only [h, Option.getD_some]
    have hi : 0 < ∫ s in (0 : ℝ)..x, t.pow s :=
      intervalIntegral.intervalIntegral_pos_of_pos ((Thwaites.pow_continuous ht).intervalIntegrable _ _)
        (Thwaites.pow_pos ht) hx
    rcases h0.eq_or_lt with h3 | h3
    · rw [← h3] at h2
      have : 0 < 0.441 * t.nu * ∫ s in (0 : ℝ)..x, t.pow s := by positivity
      rw [← h2] at this
      simp at this
    · exact h3
  · intro x hx
    have hd : HasDerivAt (fun s => 0.441 * t.nu * ∫ r in (0 : ℝ)..s, t.pow r) (0.441 * t.nu * t.pow x) x :=
      (intervalIntegral.integral_hasDerivAt_right ((Thwaites.pow_continuous ht).intervalIntegrable _ _)
        ((Thwaites.pow_continuous ht).stronglyMeasurableAtFilter _ _) (Thwaites.pow_continuous ht).continuousAt).const_mul _
    have e : t.pow x = t.ue x ^ (4.68 : ℝ) := by
      unfold Thwaites.pow
      norm_num
    rw [← e]
    refine hd.congr_of_eventuallyEq ?_
    filter_upwards [isOpen_Ioi.mem_nhds (show x ∈ Ioi (0 : ℝ) from hx)] with s hs
    obtain ⟨d, h, h0, h2⟩ := Thwaites.theta_sq ht (le_of_lt hs)
    simp only [h, Option.getD_some]
    exact h2

example : (⟨fun _ => 1, 1e-6⟩ : Thwaites).Phys := ⟨by norm_num, continuous_const, fun _ => by norm_num⟩
example : (⟨fun x => 2 + Real.sin x, 1e-6⟩ : Thwaites).Phys :=
  ⟨by norm_num, by fun_prop, fun x => by have := Real.neg_one_le_sin x; show 0 < 2 + Real.sin x; linarith⟩

/-- C170: along a flat plate, the momentum thickness is `√(0.441 nu x / U)`, as Blasius' within 1 %. -/
theorem C170_plate {t : Thwaites} {U : ℝ} (hU : 0 < U) (hn : 0 < t.nu) (hu : ∀ x, t.ue x = U) {x : ℝ} (hx : 0 ≤ x) :
    ∃ d, t.theta x = some d ∧ 0 ≤ d ∧ d ^ 2 * U = 0.441 * (t.nu * x) := by
  have ht : t.Phys := ⟨hn, by rw [show t.ue = fun _ => U from funext hu]; exact continuous_const, fun x => by rw [hu]; exact hU⟩
  obtain ⟨d, h, h0, h2⟩ := Thwaites.theta_sq ht hx
  refine ⟨d, h, h0, ?_⟩
  have e : ∀ s, t.pow s = U ^ (4.68 : ℝ) := by
    intro s
    unfold Thwaites.pow
    rw [hu]
    norm_num
  simp only [e, hu, intervalIntegral.integral_const, smul_eq_mul, sub_zero] at h2
  have hp := Real.rpow_pos_of_pos hU 4.68
  have e2 : U ^ (5.68 : ℝ) = U ^ (4.68 : ℝ) * U := by
    rw [show (5.68 : ℝ) = 4.68 + 1 by norm_num, Real.rpow_add hU, Real.rpow_one]
  rw [e2] at h2
  have : U ^ (4.68 : ℝ) * (d ^ 2 * U) = U ^ (4.68 : ℝ) * (0.441 * (t.nu * x)) := by linarith
  exact mul_left_cancel₀ hp.ne' this

/-- C170: for an accelerated flow `u_e = c x^m`, `theta^2 u_e (4.68 m + 1) = 0.441 nu x`. -/
theorem C170_power {t : Thwaites} {c m : ℝ} (hc : 0 < c) (hm : 0 ≤ m) (hn : 0 < t.nu) (hu : ∀ x, 0 ≤ x → t.ue x = c * x ^ m)
    {x : ℝ} (hx : 0 < x) : ∃ d, t.theta x = some d ∧ 0 ≤ d ∧ d ^ 2 * t.ue x * (4.68 * m + 1) = 0.441 * (t.nu * x) := by
  have hpos : 0 < t.ue x := by
    rw [hu x hx.le]
    have := Real.rpow_pos_of_pos hx m
    positivity
  have hp := Real.rpow_pos_of_pos hpos 5.68
  have hi : ∫ s in (0 : ℝ)..x, t.pow s = c ^ (4.68 : ℝ) * (x ^ (4.68 * m + 1) / (4.68 * m + 1)) := by
    have e : ∫ s in (0 : ℝ)..x, t.pow s = ∫ s in (0 : ℝ)..x, c ^ (4.68 : ℝ) * s ^ (4.68 * m) := by
      apply intervalIntegral.integral_congr
      intro s hs
      rw [uIcc_of_le hx.le] at hs
      simp only
      unfold Thwaites.pow
      rw [hu s hs.1, show (5.68 - 1 : ℝ) = 4.68 by norm_num, Real.mul_rpow hc.le (Real.rpow_nonneg hs.1 _),
        ← Real.rpow_mul hs.1, mul_comm m]
    rw [e, intervalIntegral.integral_const_mul, integral_rpow (Or.inl (by linarith [show 0 ≤ 4.68 * m by positivity]))]
    rw [Real.zero_rpow (by positivity), sub_zero]
  have hi0 : 0 ≤ ∫ s in (0 : ℝ)..x, t.pow s := by
    rw [hi]
    have := Real.rpow_pos_of_pos hc 4.68
    have := Real.rpow_pos_of_pos hx (4.68 * m + 1)
    positivity
  refine ⟨_, by rw [Thwaites.theta, if_neg hp.ne'], Real.sqrt_nonneg _, ?_⟩
  rw [Real.sq_sqrt (by positivity), hi]
  have e2 : t.ue x ^ (5.68 : ℝ) = t.ue x ^ (4.68 : ℝ) * t.ue x := by
    rw [show (5.68 : ℝ) = 4.68 + 1 by norm_num, Real.rpow_add hpos, Real.rpow_one]
  have e3 : t.ue x ^ (4.68 : ℝ) = c ^ (4.68 : ℝ) * x ^ (4.68 * m) := by
    rw [hu x hx.le, Real.mul_rpow hc.le (Real.rpow_nonneg hx.le _), ← Real.rpow_mul hx.le, mul_comm m]
  have e4 : x ^ (4.68 * m + 1) = x ^ (4.68 * m) * x := by rw [Real.rpow_add hx, Real.rpow_one]
  have hp1 := Real.rpow_pos_of_pos hc 4.68
  have hp2 := Real.rpow_pos_of_pos hx (4.68 * m)
  have hm1 : 0 < 4.68 * m + 1 := by positivity
  rw [e2, e3, e4]
  field_simp

/-- C170: where the flow is at rest there is no thickness. -/
theorem C170_rest {t : Thwaites} {x : ℝ} (h : t.ue x = 0) : t.theta x = none := by
  rw [Thwaites.theta, if_pos (by rw [h, Real.zero_rpow (by norm_num)])]

/-- C170: the shape factor is given exactly for parameters between `-0.1` and `0.1`; it lies between 2.28 and 3.92, and the more
the flow is accelerated the smaller it is. -/
theorem C170_shape {l l' : ℝ} : ((∃ H, shapeOf l = some H) ↔ -0.1 < l ∧ l < 0.1) ∧
    (∀ H, shapeOf l = some H → 2.28 < H ∧ H < 3.92) ∧
    (l < l' → ∀ H H', shapeOf l = some H → shapeOf l' = some H' → H' < H) := by
  have key : ∀ l H, shapeOf l = some H → (0 ≤ l ∧ l < 0.1 ∧ H = 2.61 - 3.75 * l + 5.24 * l ^ 2) ∨
      (l < 0 ∧ -0.1 < l ∧ H = 2.088 + 0.0731 / (l + 0.14)) := by
    intro l H h
    unfold shapeOf at h
    split_ifs at h with h1 h2
    · exact Or.inl ⟨h1.1, h1.2, by simpa using h.symm⟩
    · exact Or.inr ⟨h2.1, h2.2, by simpa using h.symm⟩
  have lower : ∀ l, l < 0 → -0.1 < l → (2.61 : ℝ) < 2.088 + 0.0731 / (l + 0.14) := by
    intro l h1 h2
    have h3 : 0 < l + 0.14 := by linarith
    rw [← sub_lt_iff_lt_add', lt_div_iff₀ h3]
    linarith
  refine ⟨⟨?_, ?_⟩, ?_, ?_⟩
  · rintro ⟨H, h⟩
    rcases key l H h with h | h
    · exact ⟨by linarith, h.2.1⟩
    · exact ⟨h.2.1, by linarith⟩
  · rintro ⟨h1, h2⟩
    unfold shapeOf
    by_cases h3 : 0 ≤ l
    · exact ⟨_, if_pos ⟨h3, h2⟩⟩
    · push Not at h3
      exact ⟨_, by rw [if_neg (by intro h; linarith [h.1]), if_pos ⟨h3, h1⟩]⟩
  · intro H h
    rcases key l H h with ⟨h1, h2, rfl⟩ | ⟨h1, h2, rfl⟩
    · constructor <;> nlinarith
    · have h3 : 0 < l + 0.14 := by linarith
      constructor
      · linarith [lower l h1 h2]
      · rw [← lt_sub_iff_add_lt', div_lt_iff₀ h3]
        linarith
  · intro hl H H' h h'
    rcases key l H h with ⟨h1, h2, rfl⟩ | ⟨h1, h2, rfl⟩ <;> rcases key l' H' h' with ⟨h3, h4, rfl⟩ | ⟨h3, h4, rfl⟩
    · nlinarith
    · linarith
    · have := lower l h1 h2
      nlinarith
    · have h5 : 0 < l + 0.14 := by linarith
      have h6 : l + 0.14 < l' + 0.14 := by linarith
      have := div_lt_div_of_pos_left (show (0 : ℝ) < 0.0731 by norm_num) h5 h6
      linarith

/-- C170: the displacement thickness is the shape factor times the momentum thickness. -/
theorem C170_displacement {t : Thwaites} {xs : List ℝ} {i : ℕ} {l d ds H : ℝ}
    (h : t.properties xs i = (some l, some d, some ds, some H)) : ds = H * d := by
  simp only [Thwaites.properties, Prod.mk.injEq] at h
  obtain ⟨h1, h2, h3, h4⟩ := h
  rw [h1] at h3 h4
  simp only [Option.bind_some] at h3 h4
  rw [h4, h2] at h3
  simpa using h3.symm

/-- C170: the pressure gradient parameter `theta^2 u_e' / nu` is wrong as soon as the positions are not spaced by 1: for positions
spaced by `h` and a velocity of slope `s`, the slope used is `h s`. -/
theorem C170_lambda_violated {t : Thwaites} {x0 h s c : ℝ} (hu : ∀ x, t.ue x = s * x + c) {n i : ℕ} (hi : i < n) (hn : 2 ≤ n) :
    t.lambda ((List.range n).map fun j : ℕ => x0 + j * h) i =
      (t.theta (x0 + i * h)).map fun d => h * (d ^ 2 * s / t.nu) := by
  have hget : ∀ j, j < n → ((List.range n).map fun j : ℕ => x0 + j * h).getD j 0 = x0 + j * h := by
    intro j hj
    simp [List.getD, hj]
  have hget2 : ∀ j, j < n → (((List.range n).map fun j : ℕ => x0 + j * h).map t.ue).getD j 0 = s * (x0 + j * h) + c := by
    intro j hj
    simp [List.getD, hj, hu]
  have hg : gradient (((List.range n).map fun j : ℕ => x0 + j * h).map t.ue) i = s * h := by
    unfold gradient
    by_cases h0 : i = 0
    · rw [if_pos h0, hget2 1 (by omega), hget2 0 (by omega)]
      push_cast
      ring
    · rw [if_neg h0]
      by_cases h1 : i + 1 = (((List.range n).map fun j : ℕ => x0 + j * h).map t.ue).length
      · rw [if_pos h1, hget2 i hi, hget2 (i - 1) (by omega)]
        rw [Nat.cast_sub (by omega)]
        push_cast
        ring
      · rw [if_neg h1]
        simp only [List.length_map, List.length_range] at h1
        rw [hget2 (i + 1) (by omega), hget2 (i - 1) (by omega)]
        rw [Nat.cast_sub (by omega)]
        push_cast
        ring
  unfold Thwaites.lambda
  rw [hg, hget i hi]
  congr 1
  funext d
  ring

/-! ### C171: wall and wake laws -/

/-- The constants make sense, and the wall is sheared. -/
def Wall.Phys (w : Wall) : Prop := 0 < w.tau ∧ 0 < w.rho ∧ 0 < w.nu

theorem Wall.utau_pos {w : Wall} (hw : w.Phys) : 0 < w.utau := by
  have h1 := hw.1
  have h2 := hw.2.1
  exact Real.sqrt_pos.mpr (by positivity)

theorem Wall.plus_pos {w : Wall} (hw : w.Phys) {y : ℝ} (hy : 0 < y) : 0 < w.plus y := by
  have := Wall.utau_pos hw
  have := hw.2.2
  unfold Wall.plus
  positivity

theorem Wall.plus_lt {w : Wall} (hw : w.Phys) {y z : ℝ} : w.plus y < w.plus z ↔ y < z := by
  have h1 := Wall.utau_pos hw
  have h2 := hw.2.2
  unfold Wall.plus
  rw [div_lt_div_iff_of_pos_right h2, mul_lt_mul_iff_of_pos_right h1]

theorem Wall.plus_surj {w : Wall} (hw : w.Phys) (p : ℝ) : w.plus (p * w.nu / w.utau) = p := by
  have h1 := Wall.utau_pos hw
  have h2 := hw.2.2
  unfold Wall.plus
  field_simp

/-- The wake law without wall units. -/
theorem Wall.turb_wake {w : Wall} (hw : w.Phys) (y : ℝ) :
    w.turb .wake (w.plus y) = w.turb .wall (w.plus y) + 2.75 * Real.sin (Real.pi * y / (2 * w.delta)) ^ 2 := by
  have h1 := Wall.utau_pos hw
  have h2 := hw.2.2
  have e1 : w.plus y / w.utau * w.nu = y := by
    unfold Wall.plus
    field_simp
  have e2 : w.utau * y / w.nu = w.plus y := by
    unfold Wall.plus
    ring
  simp only [Wall.turb, e1, e2]
  norm_num

theorem log_lt_26 {p : ℝ} (h0 : 0 < p) (h : p ≤ 11.64) : Real.log p < 2.6 := by
  rw [Real.log_lt_iff_lt_exp h0]
  have h1 : (11.64 : ℝ) ^ 5 < Real.exp 2.6 ^ 5 := by
    rw [← Real.exp_nat_mul]
    have e : ((5 : ℕ) : ℝ) * 2.6 = ((13 : ℕ) : ℝ) * 1 := by norm_num
    rw [e, Real.exp_nat_mul]
    have : (2.7 : ℝ) ^ 13 < Real.exp 1 ^ 13 := by
      have := Real.exp_one_gt_d9
      gcongr
      linarith
    refine lt_trans ?_ this
    norm_num
  exact lt_of_le_of_lt h (lt_of_pow_lt_pow_left₀ 5 (Real.exp_pos _).le h1)

/-- C171: the constructor refuses depths that are not positive and negative stresses, and `get_profile` heights outside of the
water; otherwise there is one velocity for each height, that depends on this height only. -/
theorem C171_domain (h tau delta nu rho : ℝ) (k : Law) (ys : List ℝ) :
    (h ≤ 0 ∨ tau < 0 → Wall.make h tau delta nu rho = .error .valueError) ∧
    (0 < h → 0 ≤ tau → ∃ w, Wall.make h tau delta nu rho = .ok w ∧
      ((∃ y ∈ ys, y < 0 ∨ h < y) → w.profile k ys = .error .valueError) ∧
      ((∀ y ∈ ys, 0 ≤ y ∧ y ≤ h) → ∃ us, w.profile k ys = .ok us ∧
        List.Forall₂ (fun y u => w.profile k [y] = .ok [u]) ys us)) := by
  constructor
  · rintro (h1 | h1)
    · rw [Wall.make, if_pos h1]
    · rw [Wall.make]
      by_cases h2 : h ≤ 0
      · rw [if_pos h2]
      · rw [if_neg h2, if_pos h1]
  · intro h1 h2
    refine ⟨⟨h, tau, delta, nu, rho⟩, by rw [Wall.make, if_neg (not_le.mpr h1), if_neg (not_lt.mpr h2)], ?_, ?_⟩
    · rintro ⟨y, hy, h3 | h3⟩
      · rw [Wall.profile, if_pos ⟨y, hy, h3⟩]
      · rw [Wall.profile]
        by_cases h4 : ∃ y ∈ ys, y < 0
        · rw [if_pos h4]
        · rw [if_neg h4, if_pos ⟨y, hy, h3⟩]
    · intro h3
      have one : ∀ ys : List ℝ, (∀ y ∈ ys, 0 ≤ y ∧ y ≤ h) →
          (⟨h, tau, delta, nu, rho⟩ : Wall).profile k ys = .ok (ys.map ((⟨h, tau, delta, nu, rho⟩ : Wall).velocity k)) := by
        intro ys h3
        rw [Wall.profile, if_neg, if_neg]
        · rintro ⟨y, hy, h4⟩
          exact absurd (h3 y hy).2 (not_le.mpr h4)
        · rintro ⟨y, hy, h4⟩
          exact absurd (h3 y hy).1 (not_le.mpr h4)
      refine ⟨_, one ys h3, ?_⟩
      rw [List.forall₂_map_right_iff, List.forall₂_same]
      intro y hy
      have := one [y] (by simpa using h3 y hy)
      simpa using this

/-- C171: at the wall the fluid is at rest, and the shear there is the given stress: in the viscous sublayer,
`rho nu u = tau y`. -/
theorem C171_sublayer {w : Wall} (hw : w.Phys) (k : Law) {y : ℝ} (hy : 0 ≤ y) (hp : y * √(w.tau / w.rho) / w.nu ≤ 11.63) :
    w.rho * w.nu * w.velocity k y = w.tau * y := by
  have h1 := hw.1
  have h2 := hw.2.1
  have h3 := hw.2.2
  have h4 := Wall.utau_pos hw
  have h5 : ¬ w.plus y < 0 := by
    unfold Wall.plus
    exact not_lt.mpr (by positivity)
  have h6 : w.plus y ≤ 11.63 := hp
  rw [Wall.velocity, if_neg h5, if_pos h6]
  have hs : w.utau ^ 2 = w.tau / w.rho := Real.sq_sqrt (by positivity)
  have e : w.rho * w.nu * (w.plus y * w.utau) = w.rho * y * w.utau ^ 2 := by
    unfold Wall.plus
    field_simp
  rw [e, hs]
  field_simp

/-- C171: above, the velocity follows the logarithmic law: it grows by `utau / 0.4 ln 10` at each decade, `utau^2` being
`tau / rho`. -/
theorem C171_log {w : Wall} (hw : w.Phys) {y z : ℝ} (hy : 11.63 < w.plus y) (hyz : y ≤ z) (hz : z ≤ w.delta ∨ w.plus z ≤ 450) :
    w.velocity .wall z - w.velocity .wall y = √(w.tau / w.rho) / 0.4 * Real.log (z / y) ∧
      w.velocity .wall y ≤ w.velocity .wall z := by
  have h1 := Wall.utau_pos hw
  have h2 := hw.2.2
  have hy0 : 0 < y := by
    by_contra h
    push Not at h
    have : w.plus y ≤ 0 := by
      unfold Wall.plus
      apply div_nonpos_of_nonpos_of_nonneg _ h2.le
      exact mul_nonpos_of_nonpos_of_nonneg h h1.le
    linarith
  have hz0 : 0 < z := lt_of_lt_of_le hy0 hyz
  have val : ∀ v, y ≤ v → (v ≤ w.delta ∨ w.plus v ≤ 450) → w.velocity .wall v = w.turb .wall (w.plus v) * w.utau := by
    intro v hv hd
    have hpv : 11.63 < w.plus v := by
      rcases hv.eq_or_lt with rfl | hv
      · exact hy
      · exact lt_trans hy ((Wall.plus_lt hw).mpr hv)
    rw [Wall.velocity, if_neg (by linarith), if_neg (by linarith)]
    by_cases h450 : w.plus v ≤ 450
    · rw [if_pos h450]
    · rw [if_neg h450, if_pos (hd.resolve_right h450)]
  have hyd : y ≤ w.delta ∨ w.plus y ≤ 450 := by
    rcases hz with h | h
    · exact Or.inl (hyz.trans h)
    · right
      rcases hyz.eq_or_lt with rfl | hv
      · exact h
      · exact ((Wall.plus_lt hw).mpr hv).le.trans h
  have hlog : 0 ≤ Real.log (z / y) := Real.log_nonneg ((one_le_div hy0).mpr hyz)
  have e : w.velocity .wall z - w.velocity .wall y = √(w.tau / w.rho) / 0.4 * Real.log (z / y) := by
    rw [val z hyz hz, val y le_rfl hyd]
    have : z / y = w.plus z / w.plus y := by
      unfold Wall.plus
      field_simp
    rw [this, Real.log_div (Wall.plus_pos hw hz0).ne' (Wall.plus_pos hw hy0).ne']
    simp only [Wall.turb]
    show _ = w.utau / 0.4 * _
    ring
  refine ⟨e, ?_⟩
  have h4 : 0 ≤ √(w.tau / w.rho) / 0.4 * Real.log (z / y) := by positivity
  linarith

/-- C171: outside of the boundary layer the velocity does not change any more: it is the one at the edge, when the edge is beyond
the logarithmic region. -/
theorem C171_outside_partial {w : Wall} (hw : w.Phys) (k : Law) (hd : 450 < w.plus w.delta) {y : ℝ} (hy : w.delta ≤ y) :
    w.velocity k y = w.velocity k w.delta := by
  rcases hy.eq_or_lt with rfl | hy
  · rfl
  · have hp : 450 < w.plus y := lt_trans hd ((Wall.plus_lt hw).mpr hy)
    rw [Wall.velocity, if_neg (by linarith), if_neg (by linarith), if_neg (by linarith), if_neg (by linarith), Wall.velocity,
      if_neg (by linarith), if_neg (by linarith), if_neg (by linarith), if_pos le_rfl]
    rfl

/-- C171: when the edge is closer to the wall, it is not: the velocity goes on growing up to 450 wall units, then falls back to its
value at the edge. -/
theorem C171_edge_violated {w : Wall} (hw : w.Phys) (h1 : 11.63 < w.plus w.delta) (h2 : w.plus w.delta < 450) :
    ∃ y z, w.delta < y ∧ y < z ∧ w.velocity .wall z = w.velocity .wall w.delta ∧ w.velocity .wall z < w.velocity .wall y := by
  have hu := Wall.utau_pos hw
  have e1 := Wall.plus_surj hw 450
  have e2 := Wall.plus_surj hw 451
  have hdy : w.delta < 450 * w.nu / w.utau := by
    rw [← Wall.plus_lt hw, e1]
    exact h2
  have hyz : 450 * w.nu / w.utau < 451 * w.nu / w.utau := by
    rw [← Wall.plus_lt hw, e1, e2]
    norm_num
  have vz : w.velocity .wall (451 * w.nu / w.utau) = w.turb .wall (w.plus w.delta) * w.utau := by
    rw [Wall.velocity, e2, if_neg (by norm_num), if_neg (by norm_num), if_neg (by norm_num),
      if_neg (not_le.mpr (hdy.trans hyz))]
    rfl
  have vd : w.velocity .wall w.delta = w.turb .wall (w.plus w.delta) * w.utau := by
    rw [Wall.velocity, if_neg (by linarith), if_neg (by linarith), if_pos h2.le]
  refine ⟨_, _, hdy, hyz, vz.trans vd.symm, ?_⟩
  rw [vz, Wall.velocity, e1, if_neg (by norm_num), if_neg (by norm_num), if_pos le_rfl]
  have hl : Real.log (w.plus w.delta) < Real.log 450 := Real.log_lt_log (by linarith) h2
  simp only [Wall.turb]
  gcongr

/-- C171: the velocity drops when leaving the viscous sublayer, for every wall: it is not an increasing function of the distance
to the wall. -/
theorem C171_increasing_violated {w : Wall} (hw : w.Phys) :
    ∃ y z, 0 < y ∧ y < z ∧ w.velocity .wall z < w.velocity .wall y := by
  have hu := Wall.utau_pos hw
  have hn := hw.2.2
  have e1 := Wall.plus_surj hw 11.63
  have e2 := Wall.plus_surj hw 11.64
  have hyz : 11.63 * w.nu / w.utau < 11.64 * w.nu / w.utau := by
    rw [← Wall.plus_lt hw, e1, e2]
    norm_num
  refine ⟨_, _, by positivity, hyz, ?_⟩
  rw [Wall.velocity, e2, if_neg (by norm_num), if_neg (by norm_num), if_pos (by norm_num), Wall.velocity, e1,
    if_neg (by norm_num), if_pos le_rfl]
  have hl := log_lt_26 (p := 11.64) (by norm_num) le_rfl
  simp only [Wall.turb]
  have : 1 / 0.4 * Real.log 11.64 + 5.1 < 11.63 := by linarith
  gcongr

/-- C171: inside of the boundary layer, the wake adds `2.75 utau sin^2(pi y / 2 delta)` to the law of the wall: at least nothing,
at most `2.75 utau`, reached at the edge; the sublayer is the same. -/
theorem C171_wake {w : Wall} (hw : w.Phys) {y : ℝ} (hy : y ≤ w.delta) :
    w.velocity .wall y ≤ w.velocity .wake y ∧ w.velocity .wake y ≤ w.velocity .wall y + 2.75 * √(w.tau / w.rho) ∧
    (w.plus y ≤ 11.63 → w.velocity .wake y = w.velocity .wall y) ∧
    (11.63 < w.plus y → w.velocity .wake y =
      w.velocity .wall y + 2.75 * √(w.tau / w.rho) * Real.sin (Real.pi * y / (2 * w.delta)) ^ 2) ∧
    (11.63 < w.plus y → y = w.delta → w.velocity .wake y = w.velocity .wall y + 2.75 * √(w.tau / w.rho)) := by
  have hu := Wall.utau_pos hw
  have hn := hw.2.2
  have same : w.plus y ≤ 11.63 → w.velocity .wake y = w.velocity .wall y := by
    intro h
    rw [Wall.velocity, Wall.velocity]
    by_cases h0 : w.plus y < 0
    · rw [if_pos h0, if_pos h0]
    · rw [if_neg h0, if_neg h0, if_pos h, if_pos h]
  have above : 11.63 < w.plus y → w.velocity .wake y =
      w.velocity .wall y + 2.75 * √(w.tau / w.rho) * Real.sin (Real.pi * y / (2 * w.delta)) ^ 2 := by
    intro h
    have v : ∀ k, w.velocity k y = w.turb k (w.plus y) * w.utau := by
      intro k
      rw [Wall.velocity, if_neg (by linarith), if_neg (by linarith)]
      by_cases h4 : w.plus y ≤ 450
      · rw [if_pos h4]
      · rw [if_neg h4, if_pos hy]
    rw [v, v, Wall.turb_wake hw]
    show _ = _ + 2.75 * w.utau * _
    ring
  have hsn : 0 ≤ √(w.tau / w.rho) := Real.sqrt_nonneg _
  refine ⟨?_, ?_, same, above, ?_⟩
  · by_cases h : w.plus y ≤ 11.63
    · rw [same h]
    · rw [above (not_le.mp h)]
      have : 0 ≤ 2.75 * √(w.tau / w.rho) * Real.sin (Real.pi * y / (2 * w.delta)) ^ 2 := by positivity
      linarith
  · by_cases h : w.plus y ≤ 11.63
    · rw [same h]
      linarith
    · rw [above (not_le.mp h)]
      have h1 : Real.sin (Real.pi * y / (2 * w.delta)) ^ 2 ≤ 1 := Real.sin_sq_le_one _
      nlinarith
  · intro h he
    rw [above h]
    have hy0 : 0 < y := by
      by_contra h0
      push Not at h0
      have : w.plus y ≤ 0 := by
        unfold Wall.plus
        apply div_nonpos_of_nonpos_of_nonneg _ hn.le
        exact mul_nonpos_of_nonpos_of_nonneg h0 hu.le
      linarith
    rw [← he, show Real.pi * y / (2 * y) = Real.pi / 2 by field_simp, Real.sin_pi_div_two]
    norm_num

/-- C171: without stress the fluid is at rest, whatever the height. -/
theorem C171_rest {w : Wall} (h : w.tau = 0) (k : Law) (y : ℝ) : w.velocity k y = 0 := by
  have hu : w.utau = 0 := by
    unfold Wall.utau
    rw [h, zero_div, Real.sqrt_zero]
  have hp : w.plus y = 0 := by
    unfold Wall.plus
    rw [hu, mul_zero, zero_div]
  rw [Wall.velocity, hp, if_neg (lt_irrefl _), if_pos (by norm_num), zero_mul]

/-- Water, 1 Pa, a layer of 10 cm: 3162 wall units. -/
example : (⟨1, 1, 0.1, 1e-6, 1000⟩ : Wall).Phys := ⟨by norm_num, by norm_num, by norm_num⟩

/-- An edge within the logarithmic region, and one beyond. -/
example : (11.63 : ℝ) < (⟨1000, 1, 100, 1, 1⟩ : Wall).plus 100 ∧ (⟨1000, 1, 100, 1, 1⟩ : Wall).plus 100 < 450 ∧
    450 < (⟨1000, 1, 500, 1, 1⟩ : Wall).plus 500 := by
  unfold Wall.plus Wall.utau
  norm_num

end IMT.Bl
