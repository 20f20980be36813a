import Verif.Profile.SpectrumModel
import Mathlib.Algebra.BigOperators.Field
import Mathlib.Algebra.BigOperators.Intervals
import Mathlib.Algebra.Order.BigOperators.Ring.Finset
import Mathlib.Tactic.Ring
import Mathlib.Tactic.Linarith
import Mathlib.Tactic.LinearCombination
import Mathlib.Tactic.FieldSimp
import Mathlib.Tactic.NormNum

/-! C343, C344: the spectrum of a profile and its spectral filtering. -/

namespace IMT.Spectrum

open Real Finset

/-! ### Specification -/

/-- The sum of the squared distances of the `n` values to the line `a + b m`. -/
noncomputable def away (n : ℕ) (y : ℕ → ℝ) (a b : ℝ) : ℝ := ∑ m ∈ range n, (y m - a - b * m) ^ 2

/-- `a + b m` is the best line through the values, in the sense of least squares. -/
def BestLine (n : ℕ) (y : ℕ → ℝ) (a b : ℝ) : Prop := ∀ a' b', away n y a b ≤ away n y a' b'

/-! ### The best line -/

theorem spread_ne {n : ℕ} (hn : 2 ≤ n) : ∑ m ∈ range n, ((m : ℝ) - mean n fun k => (k : ℝ)) ^ 2 ≠ 0 := by
  intro h
  rw [sum_eq_zero_iff_of_nonneg fun i _ => sq_nonneg _] at h
  have h0 := h 0 (mem_range.2 (by omega))
  have h1 := h 1 (mem_range.2 (by omega))
  rw [sq_eq_zero_iff] at h0 h1
  push_cast at h0 h1
  linarith

theorem mean_add {n : ℕ} (y z : ℕ → ℝ) : mean n (fun m => y m + z m) = mean n y + mean n z := by
  unfold mean; rw [sum_add_distrib, add_div]

theorem mean_const {n : ℕ} (hn : 1 ≤ n) (a : ℝ) : mean n (fun _ => a) = a := by
  unfold mean
  have : (n : ℝ) ≠ 0 := by positivity
  rw [sum_const, card_range, nsmul_eq_mul, mul_comm, mul_div_assoc, div_self this, mul_one]

theorem mean_smul {n : ℕ} (b : ℝ) (y : ℕ → ℝ) : mean n (fun m => b * y m) = b * mean n y := by
  unfold mean; rw [← mul_sum, mul_div_assoc]

theorem mean_line {n : ℕ} (hn : 1 ≤ n) (y : ℕ → ℝ) (a b : ℝ) :
    mean n (fun m => y m + a + b * m) = mean n y + a + b * mean n fun k => (k : ℝ) := by
  rw [mean_add (fun m => y m + a) (fun m => b * (m : ℝ)), mean_add y (fun _ => a), mean_const hn, mean_smul]

theorem sum_off {n : ℕ} (hn : 1 ≤ n) (y : ℕ → ℝ) : ∑ m ∈ range n, (y m - mean n y) = 0 := by
  rw [sum_sub_distrib, sum_const, card_range, nsmul_eq_mul]
  unfold mean
  have : (n : ℝ) ≠ 0 := by positivity
  rw [mul_div_assoc', mul_div_cancel_left₀ _ this, sub_self]

theorem slope_line {n : ℕ} (hn : 2 ≤ n) (y : ℕ → ℝ) (a b : ℝ) : slope n (fun m => y m + a + b * m) = slope n y + b := by
  unfold slope
  rw [mean_line (by omega), div_add' _ _ _ (spread_ne hn)]
  congr 1
  rw [mul_sum, ← sum_add_distrib]
  exact sum_congr rfl fun m _ => by ring

/-- Adding a line does not change what is left by the best line. -/
theorem linear_line {n : ℕ} (hn : 2 ≤ n) (y : ℕ → ℝ) (a b : ℝ) : linear n (fun m => y m + a + b * m) = linear n y := by
  funext m
  unfold linear
  rw [slope_line hn, mean_line (by omega)]
  ring

theorem linear_sum {n : ℕ} (hn : 1 ≤ n) (y : ℕ → ℝ) : ∑ m ∈ range n, linear n y m = 0 := by
  unfold linear
  rw [sum_sub_distrib, ← mul_sum, sum_off hn, sum_off hn fun k => (k : ℝ), mul_zero, sub_zero]

theorem linear_moment {n : ℕ} (hn : 2 ≤ n) (y : ℕ → ℝ) : ∑ m ∈ range n, linear n y m * m = 0 := by
  have h1 : ∑ m ∈ range n, linear n y m * ((m : ℝ) - mean n fun k => (k : ℝ)) = 0 := by
    have e : ∀ m ∈ range n, linear n y m * ((m : ℝ) - mean n fun k => (k : ℝ)) =
        ((m : ℝ) - mean n fun k => (k : ℝ)) * (y m - mean n y) - slope n y * ((m : ℝ) - mean n fun k => (k : ℝ)) ^ 2 :=
      fun m _ => by unfold linear; ring
    rw [sum_congr rfl e, sum_sub_distrib, ← mul_sum]
    unfold slope
    rw [div_mul_cancel₀ _ (spread_ne hn), sub_self]
  have h2 := linear_sum (n := n) (by omega) y
  have e : ∀ m ∈ range n, linear n y m * m =
      linear n y m * ((m : ℝ) - mean n fun k => (k : ℝ)) + (mean n fun k => (k : ℝ)) * linear n y m := fun m _ => by ring
  rw [sum_congr rfl e, sum_add_distrib, ← mul_sum, h1, h2]
  ring

theorem best_line {n : ℕ} (hn : 2 ≤ n) (y : ℕ → ℝ) :
    ∃ a b, BestLine n y a b ∧ ∑ m ∈ range n, linear n y m ^ 2 = away n y a b := by
  have key : ∀ a' b', away n y a' b' = ∑ m ∈ range n, linear n y m ^ 2 +
      ∑ m ∈ range n, ((mean n y - slope n y * mean n (fun k => (k : ℝ)) - a') + (slope n y - b') * m) ^ 2 := by
    intro a' b'
    set α := mean n y - slope n y * mean n (fun k => (k : ℝ)) - a'
    set β := slope n y - b'
    have e : ∀ m ∈ range n, (y m - a' - b' * m) ^ 2 =
        linear n y m ^ 2 + (α + β * m) ^ 2 + 2 * α * linear n y m + 2 * β * (linear n y m * m) := fun m _ => by
      simp only [linear, α, β]; ring
    unfold away
    rw [sum_congr rfl e, sum_add_distrib, sum_add_distrib, sum_add_distrib, ← mul_sum, ← mul_sum, linear_sum (by omega), linear_moment hn]
    ring
  refine ⟨mean n y - slope n y * mean n (fun k => (k : ℝ)), slope n y, ?_, ?_⟩
  · intro a' b'
    rw [key a' b', key]
    simp only [sub_self, zero_mul, add_zero, ne_eq, OfNat.ofNat_ne_zero, not_false_eq_true, zero_pow, sum_const_zero]
    exact le_add_of_nonneg_right (sum_nonneg fun m _ => sq_nonneg _)
  · rw [key]
    simp

/-! ### Parseval -/

theorem cos_sum {n : ℕ} {d : ℤ} (hd : d ≠ 0) (h1 : -(n : ℤ) < d) (h2 : d < n) :
    ∑ k ∈ range n, cos (2 * π * k * d / n) = 0 := by
  have hn : (0 : ℝ) < n := by
    have : 0 < (n : ℤ) := by omega
    exact_mod_cast this
  have hs : sin (π * d / n) ≠ 0 := by
    intro h
    rw [sin_eq_zero_iff] at h
    obtain ⟨z, hz⟩ := h
    have hp := pi_pos
    have e : (z : ℝ) * n = d := by
      field_simp at hz
      exact hz
    have e' : z * (n : ℤ) = d := by exact_mod_cast e
    have hz0 : z ≠ 0 := by rintro rfl; simp at e'; exact hd e'.symm
    rcases lt_or_gt_of_ne hz0 with h | h
    · have : z ≤ -1 := by omega
      nlinarith
    · have : 1 ≤ z := by omega
      nlinarith
  have tel : ∀ N : ℕ, (∑ k ∈ range N, cos (2 * π * k * d / n)) * (2 * sin (π * d / n)) = sin ((2 * N - 1) * (π * d / n)) + sin (π * d / n) := by
    intro N
    induction N with
    | zero => simp
    | succ N ih =>
      rw [sum_range_succ, add_mul, ih]
      push_cast
      have e1 : (2 * ((N : ℝ) + 1) - 1) * (π * d / n) = 2 * π * N * d / n + π * d / n := by ring
      have e2 : (2 * (N : ℝ) - 1) * (π * d / n) = 2 * π * N * d / n - π * d / n := by ring
      rw [e1, e2, sin_add, sin_sub]
      ring
  have := tel n
  have e : (2 * (n : ℝ) - 1) * (π * d / n) = d * (2 * π) - π * d / n := by field_simp
  rw [e, sin_int_mul_two_pi_sub, neg_add_cancel] at this
  rcases mul_eq_zero.1 this with h | h
  · exact h
  · exact absurd h (mul_ne_zero two_ne_zero hs)

theorem power_expand (n : ℕ) (y : ℕ → ℝ) (k : ℕ) :
    power n y k = ∑ m ∈ range n, ∑ p ∈ range n, y m * y p * cos (2 * π * k * ((m : ℤ) - p : ℤ) / n) := by
  unfold power
  rw [sq, sq, sum_mul_sum, sum_mul_sum, ← sum_add_distrib]
  refine sum_congr rfl fun m _ => ?_
  rw [← sum_add_distrib]
  refine sum_congr rfl fun p _ => ?_
  have : 2 * π * k * (((m : ℤ) - p : ℤ) : ℝ) / n = 2 * π * k * m / n - 2 * π * k * p / n := by push_cast; ring
  rw [this, cos_sub]
  ring

theorem parseval {n : ℕ} (y : ℕ → ℝ) : ∑ k ∈ range n, power n y k = n * ∑ m ∈ range n, y m ^ 2 := by
  simp only [power_expand]
  rw [sum_comm, mul_sum]
  refine sum_congr rfl fun m hm => ?_
  rw [sum_comm, sum_eq_single_of_mem m hm]
  · simp
    left
    ring
  · intro p hp hne
    rw [← mul_sum, cos_sum, mul_zero]
    · omega
    · have := mem_range.1 hp; omega
    · have := mem_range.1 hm; omega

theorem power_mirror {n : ℕ} (y : ℕ → ℝ) {k : ℕ} (hk : k ≤ n) (h0 : 0 < n) : power n y (n - k) = power n y k := by
  have hn : (n : ℝ) ≠ 0 := by positivity
  have e : ∀ m : ℕ, 2 * π * ((n - k : ℕ) : ℝ) * m / n = m * (2 * π) - 2 * π * k * m / n := fun m => by
    rw [Nat.cast_sub hk]; field_simp
  unfold power
  simp only [e, cos_nat_mul_two_pi_sub, sin_nat_mul_two_pi_sub, mul_neg, sum_neg_distrib, neg_sq]

theorem fold_sum {n : ℕ} (hn : 1 ≤ n) (P : ℕ → ℝ) (hP : ∀ k, k ≤ n → P (n - k) = P k) :
    ∑ k ∈ range (n / 2 + 1), twice n k * P k = ∑ k ∈ range n, P k := by
  rcases Nat.even_or_odd' n with ⟨h, rfl | rfl⟩
  · obtain ⟨g, rfl⟩ : ∃ g, h = g + 1 := ⟨h - 1, by omega⟩
    rw [show 2 * (g + 1) / 2 + 1 = g + 1 + 1 by omega, sum_range_succ, sum_range_succ']
    have e0 : twice (2 * (g + 1)) 0 = 1 := by simp [twice]
    have e1 : twice (2 * (g + 1)) (g + 1) = 1 := by simp [twice]
    have e2 : ∀ k ∈ range g, twice (2 * (g + 1)) (k + 1) * P (k + 1) = 2 * P (k + 1) := fun k hk => by
      have := mem_range.1 hk
      unfold twice
      rw [if_neg (by omega)]
    rw [e0, e1, sum_congr rfl e2]
    rw [show 2 * (g + 1) = (g + 2) + g by ring, sum_range_add, sum_range_succ, sum_range_succ' _ g]
    have e3 : ∑ x ∈ range g, P (g + 2 + x) = ∑ x ∈ range g, P (x + 1) := by
      rw [← sum_range_reflect]
      refine sum_congr rfl fun j hj => ?_
      have := mem_range.1 hj
      rw [← hP (j + 1) (by omega)]
      congr 1
      omega
    rw [e3, ← mul_sum]
    ring
  · rw [show (2 * h + 1) / 2 + 1 = h + 1 by omega, sum_range_succ']
    have e0 : twice (2 * h + 1) 0 = 1 := by simp [twice]
    have e2 : ∀ k ∈ range h, twice (2 * h + 1) (k + 1) * P (k + 1) = 2 * P (k + 1) := fun k hk => by
      unfold twice
      rw [if_neg (by omega)]
    rw [e0, sum_congr rfl e2, show 2 * h + 1 = (h + 1) + h by ring, sum_range_add, sum_range_succ' _ h]
    have e3 : ∑ x ∈ range h, P (h + 1 + x) = ∑ x ∈ range h, P (x + 1) := by
      rw [← sum_range_reflect]
      refine sum_congr rfl fun j hj => ?_
      have := mem_range.1 hj
      rw [← hP (j + 1) (by omega)]
      congr 1
      omega
    rw [e3, ← mul_sum]
    ring

theorem energy {n : ℕ} (hn : 1 ≤ n) (y : ℕ → ℝ) :
    ∑ k ∈ range (n / 2 + 1), twice n k * power n y k = n * ∑ m ∈ range n, y m ^ 2 := by
  rw [fold_sum hn _ fun k hk => power_mirror y hk hn, parseval]

theorem list_sum (n : ℕ) (g : ℕ → ℝ) : ((List.range n).map g).sum = ∑ k ∈ range n, g k := by
  induction n with
  | zero => simp
  | succ n ih => rw [List.range_succ, List.map_append, List.sum_append, ih, sum_range_succ]; simp

theorem twice_pos (n k : ℕ) : 0 < twice n k := by unfold twice; split <;> norm_num

theorem power_nonneg (n : ℕ) (y : ℕ → ℝ) (k : ℕ) : 0 ≤ power n y k := by unfold power; positivity

/-- Without the method of Welch, the detrending has no effect: it is done again. -/
theorem detrended_linear {n : ℕ} (hn : 2 ≤ n) (y : ℕ → ℝ) {d : Trend} {v : ℕ → ℝ} (h : detrended d n (constant n y) = .ok v) :
    linear n v = linear n y := by
  have hc : linear n (constant n y) = linear n y := by
    rw [← linear_line hn y (-mean n y) 0]
    congr 1
    funext m
    unfold constant
    ring
  unfold detrended at h
  cases d with
  | constant =>
    obtain rfl := Except.ok.inj h
    rw [← hc, ← linear_line hn (constant n y) (-mean n (constant n y)) 0]
    congr 1
    funext m
    simp only [constant]
    ring
  | linear =>
    obtain rfl := Except.ok.inj h
    have e : linear n (constant n y) = fun m => constant n y m +
        (-mean n (constant n y) + slope n (constant n y) * mean n fun k => (k : ℝ)) + -slope n (constant n y) * m := by
      funext m; unfold linear; ring
    exact (congrArg (linear n) e).trans ((linear_line hn _ _ _).trans hc)
  | none =>
    obtain rfl := Except.ok.inj h
    exact hc
  | other => cases h

theorem periodogram_eq {n : ℕ} {y z : ℕ → ℝ} (h : linear n y = linear n z) (s : Scaling) (fs : ℝ) :
    periodogram s n fs y = periodogram s n fs z := by
  cases s <;> simp only [periodogram, h]

/-- The periodogram branch. -/
theorem spectrum_eq {n : ℕ} (hn : 2 ≤ n) (welch : Scaling → ℕ → ℝ → (ℕ → ℝ) → Res (List (ℝ × ℝ))) (w : Option (ℝ × ℝ)) (s : Scaling) (d : Trend)
    (hd : d ≠ .other) (seglen : Option ℕ) (hl : ∀ l, seglen = some l → n ≤ l) (x y : ℕ → ℝ) (ux uy : Sym) :
    getSpectrum welch w seglen s d n x y ux uy =
      match periodogram s n (1 / (x 1 - x 0)) y with
      | .error e => .error e
      | .ok r => .ok (r, units s ux uy) := by
  obtain ⟨v, hv⟩ : ∃ v, detrended d n (constant n y) = .ok v := by
    cases d with
    | other => exact absurd rfl hd
    | _ => exact ⟨_, rfl⟩
  unfold getSpectrum
  rw [hv]
  simp only
  rw [if_neg (by omega), periodogram_eq (detrended_linear hn y hv)]
  cases seglen with
  | none => rfl
  | some l => simp only [ge_iff_le, if_pos (hl l rfl)]; rfl

/-! ### Theorems -/

/-- C343: for `n` points and no segments, the spectrum has the frequencies `k / (n dx)`, `k ≤ n / 2`, `dx` being the first step, and
the magnitudes 'spectrum' add up to the mean square of the values once the best line is removed; the magnitudes 'base' are their
square roots, and the integral of the 'density' is the same. -/
theorem C343_energy_partial {n : ℕ} (hn : 2 ≤ n) (welch : Scaling → ℕ → ℝ → (ℕ → ℝ) → Res (List (ℝ × ℝ))) (w : Option (ℝ × ℝ)) (d : Trend)
    (hd : d ≠ .other) (seglen : Option ℕ) (hl : ∀ l, seglen = some l → n ≤ l) (x y : ℕ → ℝ) (hx : x 0 < x 1) (ux uy : Sym) :
    ∃ (g : ℕ → ℝ) (a b : ℝ), BestLine n y a b ∧ (∀ k, 0 ≤ g k) ∧ ∑ k ∈ range (n / 2 + 1), g k = away n y a b / n ∧
      getSpectrum welch w seglen .spectrum d n x y ux uy =
        .ok ((List.range (n / 2 + 1)).map fun k : ℕ => (k / (n * (x 1 - x 0)), g k), Sym.one.div ux, uy.mul uy) ∧
      getSpectrum welch w seglen .base d n x y ux uy =
        .ok ((List.range (n / 2 + 1)).map fun k : ℕ => (k / (n * (x 1 - x 0)), √(g k)), Sym.one.div ux, uy) ∧
      getSpectrum welch w seglen .density d n x y ux uy =
        .ok ((List.range (n / 2 + 1)).map fun k : ℕ => (k / (n * (x 1 - x 0)), g k / (1 / (n * (x 1 - x 0)))), Sym.one.div ux,
          (uy.mul uy).mul ux) := by
  obtain ⟨a, b, hb, he⟩ := best_line hn y
  have hn0 : (n : ℝ) ≠ 0 := by positivity
  have hdx : x 1 - x 0 ≠ 0 := by linarith
  refine ⟨fun k => twice n k * power n (linear n y) k / (n : ℝ) ^ 2, a, b, hb, fun k => ?_, ?_, ?_, ?_, ?_⟩
  · exact div_nonneg (mul_nonneg (twice_pos n k).le (power_nonneg n _ k)) (sq_nonneg _)
  · rw [← sum_div, energy (by omega), he]
    field_simp
  · rw [spectrum_eq hn welch w _ d hd seglen hl]
    simp only [periodogram, units]
    congr 2
    refine List.map_congr_left fun k _ => ?_
    congr 1
    field_simp
  · rw [spectrum_eq hn welch w _ d hd seglen hl]
    simp only [periodogram, units]
    congr 2
    refine List.map_congr_left fun k _ => ?_
    congr 1
    field_simp
  · rw [spectrum_eq hn welch w _ d hd seglen hl]
    simp only [periodogram, units]
    congr 2
    refine List.map_congr_left fun k _ => ?_
    congr 1
    · field_simp
    · field_simp

/-- C343: the asked detrending has no effect without segments, and a line added to the values is always removed. -/
theorem C343_trend_violated {n : ℕ} (hn : 2 ≤ n) (welch : Scaling → ℕ → ℝ → (ℕ → ℝ) → Res (List (ℝ × ℝ))) (w : Option (ℝ × ℝ)) (s : Scaling)
    (d d' : Trend) (hd : d ≠ .other) (hd' : d' ≠ .other) (x y : ℕ → ℝ) (ux uy : Sym) (a b : ℝ) :
    getSpectrum welch w none s d n x (fun m => y m + a + b * m) ux uy = getSpectrum welch w none s d' n x y ux uy := by
  rw [spectrum_eq hn welch w s d hd none (fun l h => by cases h), spectrum_eq hn welch w s d' hd' none (fun l h => by cases h),
    periodogram_eq (linear_line hn y a b)]

/-- C343: the interval `wanted_x` has no effect. -/
theorem C343_interval_violated (welch : Scaling → ℕ → ℝ → (ℕ → ℝ) → Res (List (ℝ × ℝ))) (w w' : Option (ℝ × ℝ)) (seglen : Option ℕ)
    (s : Scaling) (d : Trend) (n : ℕ) (x y : ℕ → ℝ) (ux uy : Sym) :
    getSpectrum welch w seglen s d n x y ux uy = getSpectrum welch w' seglen s d n x y ux uy := rfl

/-- C343: the abscissas beyond the first two are not looked at: a profile with other points there, regular or not, has the same
spectrum. -/
theorem C343_irregular_violated (welch : Scaling → ℕ → ℝ → (ℕ → ℝ) → Res (List (ℝ × ℝ))) (w : Option (ℝ × ℝ)) (seglen : Option ℕ)
    (s : Scaling) (d : Trend) (n : ℕ) (x x' y : ℕ → ℝ) (ux uy : Sym) (h0 : x 0 = x' 0) (h1 : x 1 = x' 1) :
    getSpectrum welch w seglen s d n x y ux uy = getSpectrum welch w seglen s d n x' y ux uy := by
  unfold getSpectrum
  rw [h0, h1]

/-- C343: wrong arguments. -/
theorem C343_arguments (welch : Scaling → ℕ → ℝ → (ℕ → ℝ) → Res (List (ℝ × ℝ))) (w : Option (ℝ × ℝ)) (seglen : Option ℕ)
    (s : Scaling) (n : ℕ) (x y : ℕ → ℝ) (ux uy : Sym) :
    getSpectrum welch w seglen s .other n x y ux uy = .error .valueError ∧
      (2 ≤ n → ∀ d, d ≠ .other → getSpectrum welch w none .other d n x y ux uy = .error .valueError) := by
  refine ⟨rfl, fun hn d hd => ?_⟩
  rw [spectrum_eq hn welch w _ d hd none (fun l h => by cases h)]
  rfl

example : BestLine 2 (fun m => 3 * m + 1) 1 3 := fun a' b' => by
  have : away 2 (fun m : ℕ => 3 * (m : ℝ) + 1) 1 3 = 0 := by simp [away]
  rw [this]
  exact sum_nonneg fun m _ => sq_nonneg _

/-- C344: the filtering of a sum is the sum of the filterings, for a filter that has that property. -/
theorem C344_sum_partial (filt : ℕ → ℝ → ℝ → (ℕ → ℝ) → Res (ℕ → ℝ)) {lo hi : ℝ} {order n : ℕ} (x y z : ℕ → ℝ) {r t : ℕ → ℝ}
    (hf : ∀ u v l h r t, filt order l h u = .ok r → filt order l h v = .ok t → filt order l h (fun m => u m + v m) = .ok fun m => r m + t m)
    (hr : filtering filt (some lo) (some hi) order n x y = .ok r) (ht : filtering filt (some lo) (some hi) order n x z = .ok t) :
    filtering filt (some lo) (some hi) order n x (fun m => y m + z m) = .ok fun m => r m + t m := by
  unfold filtering at hr ht ⊢
  simp only at hr ht ⊢
  have e : constant n (fun m => y m + z m) = fun m => constant n y m + constant n z m := by
    funext m
    simp only [constant, mean_add]
    ring
  rw [e]
  split at hr
  · cases hr
  · next r' h1 =>
    split at ht
    · cases ht
    · next t' h2 =>
      obtain rfl := Except.ok.inj hr
      obtain rfl := Except.ok.inj ht
      rw [hf _ _ _ _ _ _ h1 h2]
      simp only [mean_add]
      congr 1
      funext m
      ring

/-- C344: a constant added to the values is kept. -/
theorem C344_offset (filt : ℕ → ℝ → ℝ → (ℕ → ℝ) → Res (ℕ → ℝ)) {lo hi : ℝ} {order n : ℕ} (hn : 1 ≤ n) (x y : ℕ → ℝ) {r : ℕ → ℝ} (c : ℝ)
    (hr : filtering filt (some lo) (some hi) order n x y = .ok r) :
    filtering filt (some lo) (some hi) order n x (fun m => y m + c) = .ok fun m => r m + c := by
  unfold filtering at hr ⊢
  simp only at hr ⊢
  have e : constant n (fun m => y m + c) = constant n y := by
    funext m
    simp only [constant, mean_add y fun _ => c, mean_const hn]
    ring
  rw [e]
  split at hr
  · cases hr
  · next r' h1 =>
    obtain rfl := Except.ok.inj hr
    simp only [mean_add y fun _ => c, mean_const hn]
    congr 1
    funext m
    ring

/-- C344: on a regular axis of step `dx`, the filter is not the one for the asked frequencies: they are multiplied by `(n - 1) / n`
before being compared to the highest one that can be seen, `1 / (2 dx)`. -/
theorem C344_cutoff_violated (filt : ℕ → ℝ → ℝ → (ℕ → ℝ) → Res (ℕ → ℝ)) (lo hi : ℝ) (order : ℕ) {n : ℕ} (hn : 2 ≤ n) (x0 : ℝ) {dx : ℝ}
    (hdx : 0 < dx) (y : ℕ → ℝ) :
    ∃ q : ℝ, q = (n - 1) / n ∧ q < 1 ∧ filtering filt (some lo) (some hi) order n (fun m => x0 + m * dx) y =
      (match filt order (q * lo / (1 / (2 * dx))) (q * hi / (1 / (2 * dx))) (constant n y) with
        | .error e => .error e
        | .ok r => .ok fun m => r m + mean n y) := by
  have hn0 : (0 : ℝ) < n := by positivity
  have hn1 : (0 : ℝ) < n - 1 := by
    have : (2 : ℝ) ≤ n := by exact_mod_cast hn
    linarith
  have key : ∀ f : ℝ, f / (0.5 * (n / ((x0 + ((n - 1 : ℕ) : ℝ) * dx) - (x0 + ((0 : ℕ) : ℝ) * dx)))) = (n - 1) / n * f / (1 / (2 * dx)) := by
    intro f
    rw [Nat.cast_sub (by omega)]
    push_cast
    have : x0 + ((n : ℝ) - 1) * dx - (x0 + 0 * dx) = (n - 1) * dx := by ring
    rw [this]
    field_simp
    ring
  refine ⟨_, rfl, ?_, ?_⟩
  · rw [div_lt_one hn0]; linarith
  · unfold filtering
    simp only [key]
    rfl

/-- C344: no highpass or lowpass filter: `TypeError` without `fmin` or without `fmax`. -/
theorem C344_one_violated (filt : ℕ → ℝ → ℝ → (ℕ → ℝ) → Res (ℕ → ℝ)) (fmin fmax : Option ℝ) (order n : ℕ) (x y : ℕ → ℝ)
    (h : fmin = none ∨ fmax = none) : filtering filt fmin fmax order n x y = .error .typeError := by
  rcases h with rfl | rfl
  · rfl
  · cases fmin <;> rfl

example : filtering (fun _ _ _ v => .ok v) (some 1) (some 2) 2 3 (fun m => m) (fun m => m ^ 2) = .ok fun m : ℕ => constant 3 (fun m => (m : ℝ) ^ 2) m + mean 3 fun m => (m : ℝ) ^ 2 :=
  rfl

end IMT.Spectrum
