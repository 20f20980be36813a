import Verif.Pod.KappaModel
import Mathlib.Analysis.Complex.ExponentialBounds
import Mathlib.Tactic.Linarith
import Mathlib.Tactic.NormNum
import Mathlib.Tactic.Positivity

/-!
Property C355: the critical value of kappa, and the sign of the temporal coherence.
-/

namespace IMT.Kappa

open Real

/-! ### helper lemmas -/

/-- A power with a rational exponent, from natural powers. -/
theorem rpow_le_of {x y : ℝ} {p q : Nat} (hx : 0 ≤ x) (hy : 0 ≤ y) (hq : q ≠ 0) (h : x ^ p ≤ y ^ q) : x ^ ((p : ℝ) / q) ≤ y := by
  rw [div_eq_mul_inv, rpow_mul hx, rpow_natCast]
  calc (x ^ p) ^ ((q : ℝ)⁻¹) ≤ (y ^ q) ^ ((q : ℝ)⁻¹) := rpow_le_rpow (by positivity) h (by positivity)
    _ = y := pow_rpow_inv_natCast hy hq

theorem le_rpow_of {x y : ℝ} {p q : Nat} (hx : 0 ≤ x) (hy : 0 ≤ y) (hq : q ≠ 0) (h : y ^ q ≤ x ^ p) : y ≤ x ^ ((p : ℝ) / q) := by
  rw [div_eq_mul_inv, rpow_mul hx, rpow_natCast]
  calc y = (y ^ q) ^ ((q : ℝ)⁻¹) := (pow_rpow_inv_natCast hy hq).symm
    _ ≤ (x ^ p) ^ ((q : ℝ)⁻¹) := rpow_le_rpow (by positivity) h (by positivity)

theorem exp_low : 1.98559246 < exp (59 / 86) := by
  have h : exp (59 / 86) ^ 86 = exp 1 ^ 59 := by
    rw [← exp_nat_mul, ← exp_nat_mul]
    norm_num
  refine lt_of_pow_lt_pow_left₀ 86 (exp_pos _).le ?_
  rw [h]
  refine lt_of_lt_of_le ?_ (pow_le_pow_left₀ (by norm_num) exp_one_gt_d9.le 59)
  norm_num

theorem exp_high : exp 0.675 < 1.98559246 := by
  have h : exp 0.675 ^ 40 = exp 1 ^ 27 := by
    rw [← exp_nat_mul, ← exp_nat_mul]
    norm_num
  refine lt_of_pow_lt_pow_left₀ 40 (by norm_num) ?_
  rw [h]
  refine lt_of_le_of_lt (pow_le_pow_left₀ (exp_pos _).le exp_one_lt_d9.le 27) ?_
  norm_num

theorem pow17 : (17 : ℝ) ^ (0.92940704 : ℝ) ≤ 13.95 := by
  calc (17 : ℝ) ^ (0.92940704 : ℝ) ≤ 17 ^ (((93 : Nat) : ℝ) / (100 : Nat)) := rpow_le_rpow_of_exponent_le (by norm_num) (by norm_num)
    _ ≤ 13.95 := rpow_le_of (by norm_num) (by norm_num) (by norm_num) (by norm_num)

theorem pow18 : (14.2 : ℝ) ≤ 18 ^ (0.92940704 : ℝ) := by
  calc (14.2 : ℝ) ≤ 18 ^ (((23 : Nat) : ℝ) / (25 : Nat)) := le_rpow_of (by norm_num) (by norm_num) (by norm_num) (by norm_num)
    _ ≤ 18 ^ (0.92940704 : ℝ) := rpow_le_rpow_of_exponent_le (by norm_num) (by norm_num)

/-! ### C355 -/

/-- C355: the critical value decreases with the number of times. -/
theorem C355_decreasing {m n : ℝ} (hm : 0 < m) (h : m < n) : critical n < critical m := by
  unfold critical
  have h1 : m ^ (0.92940704 : ℝ) < n ^ (0.92940704 : ℝ) := rpow_lt_rpow hm.le h (by norm_num)
  have h2 : 0 < m ^ (0.92940704 : ℝ) := rpow_pos_of_pos hm _
  have := exp_lt_exp.mpr (div_lt_div_of_pos_left (show (0 : ℝ) < 9.57253208 by norm_num) h2 h1)
  linarith

/-- C355: so does that of a field, along each axis. -/
theorem C355_field_decreasing {m n k : ℝ} (hm : 0 < m) (h : m < n) : critical2 n k < critical2 m k ∧ critical2 k n < critical2 k m := by
  unfold critical2
  have h1 : m ^ (1.552608 : ℝ) < n ^ (1.552608 : ℝ) := rpow_lt_rpow hm.le h (by norm_num)
  have h2 : 0 < m ^ (1.552608 : ℝ) := rpow_pos_of_pos hm _
  have := exp_lt_exp.mpr (div_lt_div_of_pos_left (show (0 : ℝ) < 22.885989 by norm_num) h2 h1)
  constructor <;> linarith

/-- C355: the critical value is positive. -/
theorem C355_positive {n : ℝ} (hn : 0 < n) : 0 < critical n := by
  unfold critical
  have : 0 < 9.57253208 / n ^ (0.92940704 : ℝ) := div_pos (by norm_num) (rpow_pos_of_pos hn _)
  have := one_lt_exp_iff.mpr this
  linarith

/-- It is less than one from eighteen times on, and more before. -/
theorem critical_lt_one {n : ℝ} (hn : 18 ≤ n) : critical n < 1 := by
  unfold critical
  have h1 : (18 : ℝ) ^ (0.92940704 : ℝ) ≤ n ^ (0.92940704 : ℝ) := rpow_le_rpow (by norm_num) hn (by norm_num)
  have h2 : 9.57253208 / n ^ (0.92940704 : ℝ) ≤ 0.675 := by
    rw [div_le_iff₀ (by linarith [pow18])]
    linarith [pow18]
  have := exp_le_exp.mpr h2
  linarith [exp_high]

theorem one_lt_critical {n : ℝ} (h0 : 0 < n) (hn : n ≤ 17) : 1 < critical n := by
  unfold critical
  have h1 : n ^ (0.92940704 : ℝ) ≤ (17 : ℝ) ^ (0.92940704 : ℝ) := rpow_le_rpow h0.le hn (by norm_num)
  have h2 : 59 / 86 ≤ 9.57253208 / n ^ (0.92940704 : ℝ) := by
    rw [le_div_iff₀ (rpow_pos_of_pos h0 _)]
    linarith [pow17]
  have := exp_le_exp.mpr h2
  linarith [exp_low]

/-- C355, with eighteen times at least: the coherence of a mode is positive when its kappa is above the critical value, negative when it is below,
and larger when the kappa is. -/
theorem C355_sign_partial {n : Nat} (hn : 18 ≤ n) (v : ℝ) :
    (0 < temporal n v ↔ critical n < v) ∧ (temporal n v < 0 ↔ v < critical n) ∧ ∀ w, v < w → temporal n v < temporal n w := by
  have hk : 0 < 1 - critical n := by
    have := critical_lt_one (n := n) (by exact_mod_cast hn)
    linarith
  unfold temporal normalized
  refine ⟨?_, ?_, fun w hw => ?_⟩
  · rw [div_pos_iff_of_pos_right hk, sub_pos]
  · rw [div_neg_iff]
    constructor
    · rintro (⟨_, h⟩ | ⟨h, _⟩) <;> linarith
    · exact fun h => .inr ⟨by linarith, hk⟩
  · exact div_lt_div_of_pos_right (by linarith) hk

/-- C355 fails with fewer times: the coherence is positive when the kappa is below the critical value, negative when it is above, and smaller when the
kappa is larger. -/
theorem C355_few_violated {n : Nat} (h0 : 0 < n) (hn : n ≤ 17) (v : ℝ) :
    (0 < temporal n v ↔ v < critical n) ∧ (temporal n v < 0 ↔ critical n < v) ∧ ∀ w, v < w → temporal n w < temporal n v := by
  have hk : 1 - critical n < 0 := by
    have := one_lt_critical (n := n) (by exact_mod_cast h0) (by exact_mod_cast hn)
    linarith
  unfold temporal normalized
  refine ⟨?_, ?_, fun w hw => ?_⟩
  · rw [div_pos_iff]
    constructor
    · rintro (⟨_, h⟩ | ⟨h, _⟩) <;> linarith
    · exact fun h => .inr ⟨by linarith, hk⟩
  · rw [div_neg_iff]
    constructor
    · rintro (⟨h, _⟩ | ⟨_, h⟩) <;> linarith
    · exact fun h => .inl ⟨by linarith, hk⟩
  · exact (div_lt_div_right_of_neg hk).mpr (by linarith)

example : 0 < temporal 20 (critical 20 + 1) := (C355_sign_partial (by norm_num) _).1.mpr (by norm_num)

example : temporal 10 (critical 10 + 1) < 0 := (C355_few_violated (by norm_num) (by norm_num) _).2.1.mpr (by norm_num)

end IMT.Kappa
