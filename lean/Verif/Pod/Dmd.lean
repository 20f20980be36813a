import Verif.Pod.Model
import Mathlib.Analysis.SpecialFunctions.Complex.Log
import Mathlib.Analysis.SpecialFunctions.Complex.Arctan
import Mathlib.Analysis.SpecialFunctions.Pow.Real
import Mathlib.Tactic.FieldSimp
import Mathlib.Tactic.Linarith

/-!
C153: growth rates, pulsations and evolutions of a dynamic mode decomposition.
-/

namespace IMT.Pod

open Complex

/-- The half angle formula used is the argument. -/
theorem ritzArg_eq_arg {z : ℂ} (hz : z ≠ 0) : ritzArg z = arg z := by
  unfold ritzArg
  have hr : 0 < ‖z‖ := norm_pos_iff.mpr hz
  have hre : ‖z‖ * Real.cos (arg z) = z.re := norm_mul_cos_arg z
  have him : ‖z‖ * Real.sin (arg z) = z.im := norm_mul_sin_arg z
  by_cases h : z.im = 0 ∧ z.re ≤ 0
  · rw [if_pos h]
    symm
    rw [arg_eq_pi_iff]
    refine ⟨lt_of_le_of_ne h.2 ?_, h.1⟩
    intro h0
    exact hz (Complex.ext h0 h.1)
  · rw [if_neg h]
    have hpi : arg z ≠ Real.pi := by
      intro h0
      rw [arg_eq_pi_iff] at h0
      exact h ⟨h0.2, h0.1.le⟩
    have h1 : -(Real.pi / 2) < arg z / 2 := by have := neg_pi_lt_arg z; linarith
    have h2 : arg z / 2 < Real.pi / 2 := by have := lt_of_le_of_ne (arg_le_pi z) hpi; linarith
    have hc : Real.cos (arg z / 2) ≠ 0 := (Real.cos_pos_of_mem_Ioo ⟨h1, h2⟩).ne'
    have e : z.im / (z.re + ‖z‖) = Real.tan (arg z / 2) := by
      rw [← hre, ← him, Real.tan_eq_sin_div_cos]
      have c2 : Real.cos (arg z) = 2 * Real.cos (arg z / 2) ^ 2 - 1 := by
        rw [← Real.cos_two_mul]; congr 1; ring
      have s2 : Real.sin (arg z) = 2 * Real.sin (arg z / 2) * Real.cos (arg z / 2) := by
        rw [← Real.sin_two_mul]; congr 1; ring
      rw [c2, s2]
      rw [show ‖z‖ * (2 * Real.cos (arg z / 2) ^ 2 - 1) + ‖z‖ = ‖z‖ * (2 * Real.cos (arg z / 2) ^ 2) by ring]
      field_simp
    rw [e, Real.arctan_tan h1 h2]
    ring

/-- The growth rate `σ` and the pulsation `ω` of a mode are those for which `exp ((σ + iω) dt)` is its Ritz value, the pulsation
being the smallest one: at most half a turn per time step. -/
theorem C153_rates (z : ℂ) (hz : z ≠ 0) (dt : ℝ) (hdt : 0 < dt) :
    exp (((growth z dt : ℝ) + (pulsation z dt : ℝ) * I) * dt) = z ∧ -Real.pi < pulsation z dt * dt ∧ pulsation z dt * dt ≤ Real.pi := by
  have hp : pulsation z dt * dt = arg z := by
    unfold pulsation
    rw [ritzArg_eq_arg hz]
    field_simp
  refine ⟨?_, by rw [hp]; exact neg_pi_lt_arg z, by rw [hp]; exact arg_le_pi z⟩
  have hg : growth z dt * dt = Real.log ‖z‖ := by
    unfold growth
    field_simp
  have : (((growth z dt : ℝ) : ℂ) + (pulsation z dt : ℝ) * I) * dt = Real.log ‖z‖ + arg z * I := by
    rw [← hg, ← hp]
    push_cast
    ring
  rw [this, exp_add, ← ofReal_exp, Real.exp_log (norm_pos_iff.mpr hz), norm_mul_exp_arg_mul_I]

/-- A mode grows when its Ritz value is outside of the unit circle, and only then. -/
theorem C153_grows (z : ℂ) (hz : z ≠ 0) (dt : ℝ) (hdt : 0 < dt) : 0 < growth z dt ↔ 1 < ‖z‖ := by
  unfold growth
  rw [div_pos_iff_of_pos_right hdt, Real.log_pos_iff (norm_nonneg z)]

/-- The evolution of a mode is right when its Ritz value is real: the `k`-th power. -/
theorem C153_real_partial (z : ℂ) (hz : z.im = 0) (k : Nat) : dmdEvo z k = (z ^ k).re := by
  unfold dmdEvo kept
  have : z = (z.re : ℂ) := Complex.ext rfl (by simpa using hz)
  conv_rhs => rw [this, ← ofReal_pow, ofReal_re]

/-- It is wrong, already at the third field, for all the modes that oscillate: the imaginary part is lost before the power. -/
theorem C153_oscillating_violated (z : ℂ) (hz : z.im ≠ 0) : dmdEvo z 2 ≠ (z ^ 2).re := by
  unfold dmdEvo kept
  rw [pow_two z, mul_re]
  intro h
  have : z.im * z.im = 0 := by nlinarith
  exact hz (mul_self_eq_zero.mp this)

/-- Asking the field `k` alone does not give the coefficients of the evolution, but the ones of the field `k + t0/dt - 1`; they
agree for a mode that grows or decays monotonically only if the first time is one step. -/
theorem C153_shift_violated (z : ℂ) (h0 : 0 < z.re) (h1 : z.re ≠ 1) (dt t0 : ℝ) (hdt : dt ≠ 0) (k : Nat) :
    dmdAt z dt (t0 + k * dt) = dmdEvo z k ↔ t0 = dt := by
  unfold dmdAt dmdEvo kept
  have e : (t0 + k * dt) / dt - 1 = t0 / dt - 1 + k := by field_simp; ring
  rw [e]
  show z.re ^ (t0 / dt - 1 + (k : ℝ)) = _ ↔ _
  rw [Real.rpow_add h0, Real.rpow_natCast]
  have hk : z.re ^ k ≠ 0 := (pow_pos h0 k).ne'
  rw [mul_eq_right₀ hk]
  constructor
  · intro h
    have hl := congrArg Real.log h
    rw [Real.log_rpow h0, Real.log_one, mul_eq_zero] at hl
    rcases hl with hl | hl
    · rw [sub_eq_zero, div_eq_one_iff_eq hdt] at hl
      exact hl
    · exact absurd (Real.eq_one_of_pos_of_log_eq_zero h0 hl) h1
  · rintro rfl
    rw [div_self hdt, sub_self, Real.rpow_zero]

/-- A quarter of a turn per step, growing twice. -/
example : (⟨0, 2⟩ : ℂ) ≠ 0 ∧ (⟨0, 2⟩ : ℂ).im ≠ 0 ∧ (0 : ℝ) < (⟨2, 0⟩ : ℂ).re ∧ (⟨2, 0⟩ : ℂ).re ≠ 1 := by
  refine ⟨?_, by norm_num, by norm_num, by norm_num⟩
  intro h
  have := congrArg Complex.im h
  norm_num at this

end IMT.Pod
