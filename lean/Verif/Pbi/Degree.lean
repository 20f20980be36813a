import Mathlib.Analysis.SpecialFunctions.Complex.Arg
import Mathlib.Analysis.SpecialFunctions.Complex.Circle
import Mathlib.Topology.Order.IntermediateValue
import Verif.Pbi.Theta
import Verif.Pbi.Cell

/-! Helper lemmas relating the index of a cell to the zeros of the interpolated velocity: velocities are complex
numbers, and arguments are followed continuously along the cell. -/

namespace IMT.Pbi

open Real

/-- The velocity as a complex number. -/
noncomputable def cx (a b : ℝ) : ℂ := ⟨a, b⟩

/-- `conj a * b`: its argument is the angle from `a` to `b`. -/
noncomputable def turnc (a b : ℂ) : ℂ := (starRingEnd ℂ) a * b

theorem turnc_re (a b : ℂ) : (turnc a b).re = a.re * b.re + a.im * b.im := by
  simp [turnc]

theorem turnc_im (a b : ℂ) : (turnc a b).im = a.re * b.im - a.im * b.re := by
  simp [turnc]; ring

/-- The segment from `a` to `b` avoids the origin. -/
def Avoid (a b : ℂ) : Prop := turnc a b ∈ Complex.slitPlane

theorem Avoid.left {a b : ℂ} (h : Avoid a b) : a ≠ 0 := by
  rintro rfl
  simp [Avoid, turnc] at h

theorem Avoid.right {a b : ℂ} (h : Avoid a b) : b ≠ 0 := by
  rintro rfl
  simp [Avoid, turnc] at h

/-- A point of the segment from `a` to `b`. -/
noncomputable def seg (a b : ℂ) (t : ℝ) : ℂ := a + (t : ℂ) * (b - a)

theorem seg_re (a b : ℂ) (t : ℝ) : (seg a b t).re = a.re + t * (b.re - a.re) := by simp [seg]
theorem seg_im (a b : ℂ) (t : ℝ) : (seg a b t).im = a.im + t * (b.im - a.im) := by simp [seg]

theorem normSq_pos' {a : ℂ} (h : a ≠ 0) : 0 < a.re * a.re + a.im * a.im := by
  have := Complex.normSq_pos.mpr h
  rwa [Complex.normSq_apply] at this

theorem avoid_seg {a b : ℂ} (h : Avoid a b) {t : ℝ} (h0 : 0 ≤ t) (h1 : t ≤ 1) : Avoid a (seg a b t) := by
  have hn := normSq_pos' h.left
  unfold Avoid at h ⊢
  rw [Complex.mem_slitPlane_iff, turnc_re, turnc_im] at h ⊢
  rw [seg_re, seg_im]
  by_cases him : a.re * b.im - a.im * b.re = 0
  · have hre : 0 < a.re * b.re + a.im * b.im := h.resolve_right (by simpa using him)
    left
    have e : a.re * (a.re + t * (b.re - a.re)) + a.im * (a.im + t * (b.im - a.im)) =
        (1 - t) * (a.re * a.re + a.im * a.im) + t * (a.re * b.re + a.im * b.im) := by ring
    rw [e]
    rcases eq_or_lt_of_le h0 with rfl | ht
    · simpa using hn
    · have := mul_pos ht hre
      have := mul_nonneg (sub_nonneg.mpr h1) hn.le
      linarith
  · rcases eq_or_lt_of_le h0 with rfl | ht
    · left; simpa using hn
    · right
      have e : a.re * (a.im + t * (b.im - a.im)) - a.im * (a.re + t * (b.re - a.re)) =
        t * (a.re * b.im - a.im * b.re) := by ring
      rw [e]
      exact mul_ne_zero ht.ne' him

theorem seg_ne {a b : ℂ} (h : Avoid a b) {t : ℝ} (h0 : 0 ≤ t) (h1 : t ≤ 1) : seg a b t ≠ 0 :=
  (avoid_seg h h0 h1).right

theorem exp_arg {z : ℂ} (hz : z ≠ 0) : Complex.exp ((z.arg : ℂ) * Complex.I) = z / (‖z‖ : ℂ) := by
  have h := Complex.norm_mul_exp_arg_mul_I z
  have hn : (‖z‖ : ℂ) ≠ 0 := by simpa using hz
  field_simp
  rw [mul_comm]
  exact h

/-- A function continuous on `[0, 1]` with values in `c + 2πℤ` is constant. -/
theorem const_of_mod {h : ℝ → ℝ} (hc : ContinuousOn h (Set.Icc 0 1))
    (hm : ∀ v ∈ Set.Icc (0 : ℝ) 1, ∃ n : ℤ, h v = h 0 + 2 * π * n) : h 1 = h 0 := by
  have hp := pi_pos
  have no : ∀ v ∈ Set.Icc (0 : ℝ) 1, ∀ m : ℤ, h v ≠ h 0 + π * (2 * m + 1) := by
    intro v hv m hcon
    obtain ⟨n, hn⟩ := hm v hv
    have : π * (2 * n - (2 * m + 1)) = 0 := by linarith
    have h2 := (mul_eq_zero.mp this).resolve_left hp.ne'
    have h3 : (2 * n - (2 * m + 1) : ℤ) = 0 := by exact_mod_cast h2
    omega
  obtain ⟨n, hn⟩ := hm 1 (by simp)
  rcases lt_trichotomy n 0 with hneg | rfl | hpos
  · exfalso
    have hle : (n : ℝ) ≤ -1 := by exact_mod_cast (by omega : n ≤ -1)
    have hmem : h 0 - π ∈ Set.Icc (h 1) (h 0) := ⟨by rw [hn]; nlinarith, by linarith⟩
    obtain ⟨v, hv, he⟩ := intermediate_value_Icc' (zero_le_one) hc hmem
    exact no v hv (-1) (by rw [he]; push_cast; ring)
  · simpa using hn
  · exfalso
    have hle : (1 : ℝ) ≤ n := by exact_mod_cast (by omega : 1 ≤ n)
    have hmem : h 0 + π ∈ Set.Icc (h 0) (h 1) := ⟨by linarith, by rw [hn]; nlinarith⟩
    obtain ⟨v, hv, he⟩ := intermediate_value_Icc (zero_le_one) hc hmem
    exact no v hv 0 (by rw [he]; push_cast; ring)

theorem seg_continuous (a b : ℂ) : Continuous (seg a b) := by
  unfold seg; fun_prop

theorem turnc_continuous {f g : ℝ → ℂ} (hf : Continuous f) (hg : Continuous g) :
    Continuous fun v => turnc (f v) (g v) := by
  unfold turnc
  exact (Complex.continuous_conj.comp hf).mul hg

theorem unit_turn {a b : ℂ} (ha : a ≠ 0) (hb : b ≠ 0) :
    turnc a b / (‖turnc a b‖ : ℂ) = (starRingEnd ℂ) (a / ‖a‖) * (b / ‖b‖) := by
  unfold turnc
  rw [norm_mul, RCLike.norm_conj, map_div₀, Complex.conj_ofReal, Complex.ofReal_mul]
  have h1 : (‖a‖ : ℂ) ≠ 0 := by simpa using ha
  have h2 : (‖b‖ : ℂ) ≠ 0 := by simpa using hb
  field_simp

theorem unit_conj {a : ℂ} (ha : a ≠ 0) : (starRingEnd ℂ) (a / ‖a‖) * (a / ‖a‖) = 1 := by
  rw [map_div₀, Complex.conj_ofReal]
  have h1 : (‖a‖ : ℂ) ≠ 0 := by simpa using ha
  have h2 : (starRingEnd ℂ) a * a = (‖a‖ : ℂ) ^ 2 := Complex.conj_mul' a
  field_simp
  exact h2

/-- Following the arguments along the cell: `σ = 1` or `-1`; if `σ` times the turn from the left side to the right
side never meets the cut, the turns around the cell add up. -/
theorem follow {p1 p2 p3 p4 : ℂ} {σ : ℝ} (hσ : σ = 1 ∨ σ = -1) (hl : Avoid p1 p3) (hr : Avoid p2 p4)
    (hz : ∀ v ∈ Set.Icc (0 : ℝ) 1, (σ : ℂ) * turnc (seg p1 p3 v) (seg p2 p4 v) ∈ Complex.slitPlane) :
    ((σ : ℂ) * turnc p3 p4).arg + (turnc p1 p3).arg - (turnc p2 p4).arg = ((σ : ℂ) * turnc p1 p2).arg := by
  let h : ℝ → ℝ := fun v => ((σ : ℂ) * turnc (seg p1 p3 v) (seg p2 p4 v)).arg + (turnc p1 (seg p1 p3 v)).arg -
    (turnc p2 (seg p2 p4 v)).arg
  have hs0 : ∀ a b : ℂ, seg a b 0 = a := by intro a b; simp [seg]
  have hs1 : ∀ a b : ℂ, seg a b 1 = b := by intro a b; simp [seg]
  have hself : ∀ a : ℂ, (turnc a a).arg = 0 := by
    intro a
    unfold turnc
    rw [Complex.conj_mul']
    rw [← Complex.ofReal_pow]
    exact Complex.arg_ofReal_of_nonneg (by positivity)
  have hcont : ContinuousOn h (Set.Icc 0 1) := by
    have c1 : ContinuousOn (fun v => ((σ : ℂ) * turnc (seg p1 p3 v) (seg p2 p4 v)).arg) (Set.Icc 0 1) := by
      intro v hv
      have hcm : ContinuousAt (fun v => (σ : ℂ) * turnc (seg p1 p3 v) (seg p2 p4 v)) v :=
        (continuous_const.mul (turnc_continuous (seg_continuous p1 p3) (seg_continuous p2 p4))).continuousAt
      exact ((Complex.continuousAt_arg (hz v hv)).comp (f := fun v => (σ : ℂ) * turnc (seg p1 p3 v) (seg p2 p4 v))
        hcm).continuousWithinAt
    have cside : ∀ a b : ℂ, Avoid a b → ContinuousOn (fun v => (turnc a (seg a b v)).arg) (Set.Icc 0 1) := by
      intro a b hab v hv
      have hcm : ContinuousAt (fun v => turnc a (seg a b v)) v :=
        (turnc_continuous continuous_const (seg_continuous a b)).continuousAt
      exact ((Complex.continuousAt_arg (avoid_seg hab hv.1 hv.2)).comp (f := fun v => turnc a (seg a b v))
        hcm).continuousWithinAt
    exact (c1.add (cside _ _ hl)).sub (cside _ _ hr)
  have hexp : ∀ v ∈ Set.Icc (0 : ℝ) 1, Complex.exp ((h v : ℂ) * Complex.I) =
      (σ : ℂ) * ((starRingEnd ℂ) (p1 / ‖p1‖) * (p2 / ‖p2‖)) := by
    intro v hv
    have ha := seg_ne hl hv.1 hv.2
    have hb := seg_ne hr hv.1 hv.2
    have hσ0 : (σ : ℂ) ≠ 0 := by rcases hσ with rfl | rfl <;> norm_num
    have hσn : (‖(σ : ℂ)‖ : ℂ) = 1 := by rcases hσ with rfl | rfl <;> simp
    have ht : turnc (seg p1 p3 v) (seg p2 p4 v) ≠ 0 := by
      have := Complex.slitPlane_ne_zero (hz v hv)
      exact fun h => this (by rw [h, mul_zero])
    have e : ((h v : ℂ) * Complex.I) =
        ((((σ : ℂ) * turnc (seg p1 p3 v) (seg p2 p4 v)).arg : ℂ) * Complex.I) +
        (((turnc p1 (seg p1 p3 v)).arg : ℂ) * Complex.I) - (((turnc p2 (seg p2 p4 v)).arg : ℂ) * Complex.I) := by
      simp only [h]; push_cast; ring
    have hl' := avoid_seg hl hv.1 hv.2
    have hr' := avoid_seg hr hv.1 hv.2
    rw [e, Complex.exp_sub, Complex.exp_add, exp_arg (mul_ne_zero hσ0 ht),
      exp_arg (Complex.slitPlane_ne_zero hl'), exp_arg (Complex.slitPlane_ne_zero hr'), norm_mul,
      Complex.ofReal_mul, hσn, one_mul, mul_div_assoc (σ : ℂ), unit_turn ha hb, unit_turn hl.left ha, unit_turn hr.left hb]
    have u1 := unit_conj ha
    have u2 := unit_conj hr.left
    have hne : (starRingEnd ℂ) (p2 / ‖p2‖) * (seg p2 p4 v / ‖seg p2 p4 v‖) ≠ 0 := by
      apply mul_ne_zero
      · rw [map_ne_zero]; exact div_ne_zero hr.left (by simpa using hr.left)
      · exact div_ne_zero hb (by simpa using hb)
    rw [div_eq_iff hne]
    linear_combination (σ : ℂ) * (starRingEnd ℂ) (p1 / ‖p1‖) * (seg p2 p4 v / ‖seg p2 p4 v‖) * u1 -
      (σ : ℂ) * (starRingEnd ℂ) (p1 / ‖p1‖) * (seg p2 p4 v / ‖seg p2 p4 v‖) * u2
  have hmod : ∀ v ∈ Set.Icc (0 : ℝ) 1, ∃ n : ℤ, h v = h 0 + 2 * π * n := by
    intro v hv
    have := (hexp v hv).trans (hexp 0 (by simp)).symm
    rw [Complex.exp_eq_exp_iff_exists_int] at this
    obtain ⟨n, hn⟩ := this
    refine ⟨n, ?_⟩
    have hI : Complex.I ≠ 0 := Complex.I_ne_zero
    have h2 : (h v : ℂ) = (h 0 : ℂ) + 2 * π * n := by
      apply mul_right_cancel₀ hI
      rw [hn]; ring
    exact_mod_cast h2
  have := const_of_mod hcont hmod
  simp only [h, hs0, hs1, hself] at this
  linarith

end IMT.Pbi
