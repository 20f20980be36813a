import Verif.Panel.Model
import Mathlib.MeasureTheory.Integral.IntervalIntegral.FundThmCalculus
import Mathlib.MeasureTheory.Integral.IntervalIntegral.Basic
import Mathlib.Analysis.SpecialFunctions.Trigonometric.ArctanDeriv
import Mathlib.Analysis.SpecialFunctions.Log.Deriv
import Mathlib.MeasureTheory.Integral.DominatedConvergence
import Mathlib.Tactic.FieldSimp
import Mathlib.Tactic.Linarith
import Mathlib.Tactic.LinearCombination

/-!
C154, C155: the flow around the panels: what happens at a wall, and far away.
-/

namespace IMT.Panel

open Filter Topology Classical

/-! ### geometry of a panel -/

/-- A panel: its ends differ. -/
def Seg.Real (p : Seg) : Prop := p.xa ≠ p.xb ∨ p.ya ≠ p.yb

/-- The point of the panel at the distance `s` of its first end. -/
noncomputable def Seg.at (p : Seg) (s : ℝ) : ℝ × ℝ := (p.xa + s * ((p.xb - p.xa) / p.length), p.ya + s * ((p.yb - p.ya) / p.length))

theorem length_sq (p : Seg) : p.length ^ 2 = (p.xb - p.xa) ^ 2 + (p.yb - p.ya) ^ 2 := Real.sq_sqrt (by positivity)

theorem length_pos {p : Seg} (h : p.Real) : 0 < p.length := by
  apply Real.sqrt_pos.mpr
  rcases h with h | h
  · have : p.xb - p.xa ≠ 0 := sub_ne_zero.mpr h.symm
    positivity
  · have : p.yb - p.ya ≠ 0 := sub_ne_zero.mpr h.symm
    positivity

theorem ratio_sq {p : Seg} (h : p.Real) : ((p.xb - p.xa) / p.length) ^ 2 + ((p.yb - p.ya) / p.length) ^ 2 = 1 := by
  have := length_pos h
  rw [div_pow, div_pow, ← add_div, ← length_sq, div_self (by positivity)]

/-- The normal of a panel is on the right hand side of the direction from its first to its second end. -/
theorem normal {p : Seg} (h : p.Real) : p.cosb = (p.yb - p.ya) / p.length ∧ p.sinb = -((p.xb - p.xa) / p.length) := by
  have hL := length_pos h
  have hr := ratio_sq h
  have h1 : -1 ≤ (p.yb - p.ya) / p.length := by nlinarith [sq_nonneg ((p.xb - p.xa) / p.length)]
  have h2 : (p.yb - p.ya) / p.length ≤ 1 := by nlinarith [sq_nonneg ((p.xb - p.xa) / p.length)]
  unfold Seg.cosb Seg.sinb Seg.beta
  by_cases c : p.xb - p.xa ≤ 0
  · rw [if_pos c, Real.cos_arccos h1 h2, Real.sin_arccos]
    refine ⟨rfl, ?_⟩
    rw [show 1 - ((p.yb - p.ya) / p.length) ^ 2 = (-((p.xb - p.xa) / p.length)) ^ 2 by linarith]
    exact Real.sqrt_sq (neg_nonneg.mpr (div_nonpos_of_nonpos_of_nonneg c hL.le))
  · rw [if_neg c, add_comm Real.pi, Real.cos_add_pi, Real.sin_add_pi, neg_div, Real.arccos_neg, Real.cos_pi_sub, Real.sin_pi_sub,
      Real.cos_arccos h1 h2, Real.sin_arccos]
    refine ⟨neg_neg _, ?_⟩
    rw [show 1 - ((p.yb - p.ya) / p.length) ^ 2 = ((p.xb - p.xa) / p.length) ^ 2 by linarith]
    rw [Real.sqrt_sq (div_nonneg (by linarith) hL.le)]

/-- The influence of a panel, from its points. -/
theorem integral_at {p : Seg} (h : p.Real) (x y dx dy : ℝ) :
    integral x y p dx dy = ∫ s in (0 : ℝ)..p.length,
      ((x - (p.at s).1) * dx + (y - (p.at s).2) * dy) / ((x - (p.at s).1) ^ 2 + (y - (p.at s).2) ^ 2) := by
  obtain ⟨hc, hs⟩ := normal h
  unfold integral
  congr 1
  funext s
  simp only [Seg.at, hc, hs]
  congr 1 <;> ring

/-- A point which is not on the panel. -/
def Seg.Off (p : Seg) (q : ℝ × ℝ) : Prop := ∀ s, 0 ≤ s → s ≤ p.length → p.at s ≠ q

theorem at_cont (p : Seg) : Continuous p.at := by unfold Seg.at; fun_prop

theorem off_pos {p : Seg} {x y : ℝ} (h : p.Off (x, y)) {s : ℝ} (h0 : 0 ≤ s) (h1 : s ≤ p.length) :
    0 < (x - (p.at s).1) ^ 2 + (y - (p.at s).2) ^ 2 := by
  by_contra hc
  have e1 : (x - (p.at s).1) ^ 2 = 0 := by nlinarith [sq_nonneg (x - (p.at s).1), sq_nonneg (y - (p.at s).2)]
  have e2 : (y - (p.at s).2) ^ 2 = 0 := by nlinarith [sq_nonneg (x - (p.at s).1), sq_nonneg (y - (p.at s).2)]
  apply h s h0 h1
  have e1 := sq_eq_zero_iff.mp e1
  have e2 := sq_eq_zero_iff.mp e2
  ext <;> simp <;> linarith

theorem integrable {p : Seg} {x y : ℝ} (h : p.Off (x, y)) (hr : p.Real) (dx dy : ℝ) :
    IntervalIntegrable (fun s => ((x - (p.at s).1) * dx + (y - (p.at s).2) * dy) / ((x - (p.at s).1) ^ 2 + (y - (p.at s).2) ^ 2))
      MeasureTheory.volume 0 p.length := by
  apply ContinuousOn.intervalIntegrable
  have hc := at_cont p
  apply ContinuousOn.div
  · fun_prop
  · fun_prop
  · intro s hs
    rw [Set.uIcc_of_le (length_pos hr).le] at hs
    exact (off_pos h hs.1 hs.2).ne'

/-- The influence is linear in the direction. -/
theorem integral_dir {p : Seg} {x y : ℝ} (h : p.Off (x, y)) (hr : p.Real) (dx dy : ℝ) :
    integral x y p dx dy = dx * integral x y p 1 0 + dy * integral x y p 0 1 := by
  rw [integral_at hr, integral_at hr, integral_at hr, ← intervalIntegral.integral_const_mul, ← intervalIntegral.integral_const_mul,
    ← intervalIntegral.integral_add ((integrable h hr 1 0).const_mul dx) ((integrable h hr 0 1).const_mul dy)]
  congr 1
  funext s
  ring

/-- The influence of a panel depends continuously on the point, off the panel. -/
theorem integral_cont {p : Seg} {x y : ℝ} (h : p.Off (x, y)) (hr : p.Real) (nx ny dx dy : ℝ) :
    Tendsto (fun t => integral (x + t * nx) (y + t * ny) p dx dy) (𝓝 0) (𝓝 (integral x y p dx dy)) := by
  have hc := at_cont p
  set D : ℝ × ℝ → ℝ := fun q => (x + q.1 * nx - (p.at q.2).1) ^ 2 + (y + q.1 * ny - (p.at q.2).2) ^ 2 with hD
  have hDc : Continuous D := by rw [hD]; fun_prop
  obtain ⟨s0, hs0, hmin⟩ := (isCompact_Icc (a := (0 : ℝ)) (b := p.length)).exists_isMinOn ⟨0, le_rfl, (length_pos hr).le⟩
    (f := fun s => D (0, s)) (by fun_prop)
  have hm : 0 < D (0, s0) := by simpa [hD] using off_pos h hs0.1 hs0.2
  have hev : ∀ᶠ t in 𝓝 (0 : ℝ), ∀ s ∈ Set.Icc 0 p.length, D (0, s0) / 2 < D (t, s) := by
    apply (isCompact_Icc (a := (0 : ℝ)) (b := p.length)).eventually_forall_of_forall_eventually
    intro s hs
    have h1 : D (0, s0) / 2 < D (0, s) := lt_of_lt_of_le (by linarith) (isMinOn_iff.mp hmin s hs)
    exact hDc.continuousAt.eventually_const_lt h1 |>.mono fun q hq => hq
  have hcont : Continuous fun t : ℝ => ∫ s in (0 : ℝ)..p.length,
      ((x + t * nx - (p.at s).1) * dx + (y + t * ny - (p.at s).2) * dy) / max (D (0, s0) / 2) (D (t, s)) := by
    apply intervalIntegral.continuous_parametric_intervalIntegral_of_continuous'
    rw [Function.uncurry_def]
    apply Continuous.div
    · fun_prop
    · exact continuous_const.max hDc
    · intro q
      exact (lt_of_lt_of_le (by linarith) (le_max_left _ _)).ne'
  have hEq : ∀ᶠ t in 𝓝 (0 : ℝ), (∫ s in (0 : ℝ)..p.length,
      ((x + t * nx - (p.at s).1) * dx + (y + t * ny - (p.at s).2) * dy) / max (D (0, s0) / 2) (D (t, s))) =
        integral (x + t * nx) (y + t * ny) p dx dy := by
    filter_upwards [hev] with t ht
    rw [integral_at hr]
    apply intervalIntegral.integral_congr
    intro s hs
    rw [Set.uIcc_of_le (length_pos hr).le] at hs
    simp only
    rw [max_eq_right (ht s hs).le]
  have h0 := hcont.continuousAt (x := 0)
  have e0 := hEq.self_of_nhds
  have := h0.tendsto
  rw [e0] at this
  simp only [zero_mul, add_zero] at this
  exact this.congr' hEq

/-! ### near the centre of a panel -/

theorem own {p : Seg} (hr : p.Real) {t : ℝ} (ht : 0 < t) (dx dy : ℝ) :
    integral (p.xc + t * p.cosb) (p.yc + t * p.sinb) p dx dy = 2 * Real.arctan (p.length / 2 / t) * (p.cosb * dx + p.sinb * dy) := by
  have hL := length_pos hr
  have hratio := ratio_sq hr
  obtain ⟨hc, hs⟩ := normal hr
  rw [integral_at hr]
  set ex := (p.xb - p.xa) / p.length with hex
  set ey := (p.yb - p.ya) / p.length with hey
  have hxc : p.xc = p.xa + p.length / 2 * ex := by rw [hex]; unfold Seg.xc; field_simp; ring
  have hyc : p.yc = p.ya + p.length / 2 * ey := by rw [hey]; unfold Seg.yc; field_simp; ring
  have hat : ∀ s, p.at s = (p.xa + s * ex, p.ya + s * ey) := fun s => rfl
  have hden : ∀ s, (p.xc + t * p.cosb - (p.at s).1) ^ 2 + (p.yc + t * p.sinb - (p.at s).2) ^ 2 = (s - p.length / 2) ^ 2 + t ^ 2 := by
    intro s
    rw [hat, hxc, hyc, hc, hs]
    simp only
    linear_combination ((s - p.length / 2) ^ 2 + t ^ 2) * hratio
  have hderiv : ∀ s ∈ Set.uIcc 0 p.length, HasDerivAt
      (fun s => Real.arctan ((s - p.length / 2) / t) * (p.cosb * dx + p.sinb * dy) - 1 / 2 * Real.log ((s - p.length / 2) ^ 2 + t ^ 2) * (ex * dx + ey * dy))
      (((p.xc + t * p.cosb - (p.at s).1) * dx + (p.yc + t * p.sinb - (p.at s).2) * dy) /
        ((p.xc + t * p.cosb - (p.at s).1) ^ 2 + (p.yc + t * p.sinb - (p.at s).2) ^ 2)) s := by
    intro s _
    have hd0 : (s - p.length / 2) ^ 2 + t ^ 2 ≠ 0 := by positivity
    have d1 : HasDerivAt (fun s : ℝ => (s - p.length / 2) / t) (1 / t) s := ((hasDerivAt_id s).sub_const _).div_const t
    have d2 : HasDerivAt (fun s : ℝ => (s - p.length / 2) ^ 2 + t ^ 2) (2 * (s - p.length / 2)) s := by
      have := (((hasDerivAt_id s).sub_const (p.length / 2)).pow 2).add_const (t ^ 2)
      simpa using this
    have d3 := ((d1.arctan).mul_const (p.cosb * dx + p.sinb * dy)).sub (((d2.log hd0).const_mul (1 / 2)).mul_const (ex * dx + ey * dy))
    refine d3.congr_deriv ?_
    rw [hden, hat, hxc, hyc, hc, hs]
    have hd1 : 1 + ((s - p.length / 2) / t) ^ 2 ≠ 0 := by positivity
    have e1 : 1 / (1 + ((s - p.length / 2) / t) ^ 2) * (1 / t) = t / ((s - p.length / 2) ^ 2 + t ^ 2) := by
      field_simp
      ring
    rw [e1]
    field_simp
    ring
  rw [intervalIntegral.integral_eq_sub_of_hasDerivAt hderiv]
  · have e1 : (0 - p.length / 2) ^ 2 = (p.length - p.length / 2) ^ 2 := by ring
    have e2 : (0 - p.length / 2) / t = -(p.length / 2 / t) := by ring
    have e3 : (p.length - p.length / 2) / t = p.length / 2 / t := by ring
    rw [e1, e2, e3, Real.arctan_neg]
    ring
  · apply ContinuousOn.intervalIntegrable
    have hcc := at_cont p
    apply ContinuousOn.div
    · fun_prop
    · fun_prop
    · intro s _
      rw [hden]
      positivity

theorem own_limit {p : Seg} (hr : p.Real) (dx dy : ℝ) :
    Tendsto (fun t => integral (p.xc + t * p.cosb) (p.yc + t * p.sinb) p dx dy) (𝓝[>] 0) (𝓝 (Real.pi * (p.cosb * dx + p.sinb * dy))) := by
  have hL := length_pos hr
  have h1 : Tendsto (fun t : ℝ => p.length / 2 / t) (𝓝[>] 0) atTop := by
    have := tendsto_inv_nhdsGT_zero (𝕜 := ℝ) |>.const_mul_atTop (by positivity : 0 < p.length / 2)
    simpa [div_eq_mul_inv] using this
  have h2 : Tendsto (fun t : ℝ => Real.arctan (p.length / 2 / t)) (𝓝[>] 0) (𝓝 (Real.pi / 2)) :=
    (tendsto_nhdsWithin_iff.mp (Real.tendsto_arctan_atTop)).1.comp h1
  have h3 := (h2.const_mul 2).mul_const (p.cosb * dx + p.sinb * dy)
  rw [show 2 * (Real.pi / 2) = Real.pi by ring] at h3
  refine h3.congr' ?_
  filter_upwards [self_mem_nhdsWithin] with t ht
  exact (own hr ht dx dy).symm

/-! ### specification -/

/-- The sources are such that no fluid crosses the centres: the contributions of the other panels, half the own source and the free
stream cancel along each normal; the tangential velocities are what is left. -/
structure Solved (u alpha : ℝ) (l : List Src) : Prop where
  across : ∀ i, ∑ j, matA l i j * l[j].sigma = rhs u alpha l i
  along : ∀ i, l[i].vt = tang u alpha l (fun j => l[j].sigma) i

/-- The panels are panels, and no centre is on another panel. -/
structure Apart (l : List Src) : Prop where
  real : ∀ i : Fin l.length, l[i].seg.Real
  off : ∀ i j : Fin l.length, i ≠ j → l[j].seg.Off (l[i].seg.xc, l[i].seg.yc)

theorem sum_fin (l : List Src) (f : Src → ℝ) : (l.map f).sum = ∑ j : Fin l.length, f l[j] := by
  rw [← Fin.sum_univ_fun_getElem]
  rfl

theorem flow_limit {l : List Src} (A : Apart l) (i : Fin l.length) (dx dy : ℝ) :
    Tendsto (fun t => ∑ j : Fin l.length, l[j].sigma * integral (l[i].seg.xc + t * l[i].seg.cosb) (l[i].seg.yc + t * l[i].seg.sinb) l[j].seg dx dy)
      (𝓝[>] 0) (𝓝 (∑ j : Fin l.length, l[j].sigma *
        (if i = j then Real.pi * (l[i].seg.cosb * dx + l[i].seg.sinb * dy) else integral l[i].seg.xc l[i].seg.yc l[j].seg dx dy))) := by
  apply tendsto_finsetSum
  intro j _
  apply Tendsto.const_mul
  by_cases h : i = j
  · subst h
    rw [if_pos rfl]
    exact own_limit (A.real i) dx dy
  · rw [if_neg h]
    exact (integral_cont (A.off i j h) (A.real j) _ _ dx dy).mono_left nhdsWithin_le_nhds

/-- Coming to the centre of a panel from the side of its normal, the velocity tends to the vector of the panel, which is along the
panel: no fluid goes through, and the velocity given on the panel is the one of the fluid next to it. -/
theorem C154_wall (u alpha : ℝ) (l : List Src) (A : Apart l) (S : Solved u alpha l) (i : Fin l.length) :
    Tendsto (fun t => flow u alpha l (l[i].seg.xc + t * l[i].seg.cosb) (l[i].seg.yc + t * l[i].seg.sinb)) (𝓝[>] 0) (𝓝 l[i].vector) ∧
      l[i].vector.1 * (l[i].seg.yb - l[i].seg.ya) - l[i].vector.2 * (l[i].seg.xb - l[i].seg.xa) = 0 := by
  have hL := length_pos (A.real i)
  obtain ⟨hc, hs⟩ := normal (A.real i)
  have hcs : l[i].seg.cosb ^ 2 + l[i].seg.sinb ^ 2 = 1 := Real.cos_sq_add_sin_sq _
  constructor
  · have hx := (flow_limit A i 1 0).const_mul (1 / 2 / Real.pi) |>.const_add (u * Real.cos alpha)
    have hy := (flow_limit A i 0 1).const_mul (1 / 2 / Real.pi) |>.const_add (u * Real.sin alpha)
    have hxy := hx.prodMk_nhds hy
    have hfun : (fun t => flow u alpha l (l[i].seg.xc + t * l[i].seg.cosb) (l[i].seg.yc + t * l[i].seg.sinb)) = fun t =>
        (u * Real.cos alpha + 1 / 2 / Real.pi * ∑ j : Fin l.length, l[j].sigma * integral (l[i].seg.xc + t * l[i].seg.cosb) (l[i].seg.yc + t * l[i].seg.sinb) l[j].seg 1 0,
         u * Real.sin alpha + 1 / 2 / Real.pi * ∑ j : Fin l.length, l[j].sigma * integral (l[i].seg.xc + t * l[i].seg.cosb) (l[i].seg.yc + t * l[i].seg.sinb) l[j].seg 0 1) := by
      funext t
      unfold flow
      rw [sum_fin, sum_fin]
    rw [hfun]
    convert hxy using 2
    set vx := u * Real.cos alpha + 1 / 2 / Real.pi * ∑ j : Fin l.length, l[j].sigma *
        (if i = j then Real.pi * (l[i].seg.cosb * 1 + l[i].seg.sinb * 0) else integral l[i].seg.xc l[i].seg.yc l[j].seg 1 0) with hvx
    set vy := u * Real.sin alpha + 1 / 2 / Real.pi * ∑ j : Fin l.length, l[j].sigma *
        (if i = j then Real.pi * (l[i].seg.cosb * 0 + l[i].seg.sinb * 1) else integral l[i].seg.xc l[i].seg.yc l[j].seg 0 1) with hvy
    have hn : vx * l[i].seg.cosb + vy * l[i].seg.sinb = 0 := by
      have h1 := S.across i
      unfold rhs at h1
      have e : vx * l[i].seg.cosb + vy * l[i].seg.sinb = u * Real.cos (alpha - l[i].seg.beta) + ∑ j, matA l i j * l[j].sigma := by
        rw [hvx, hvy, Real.cos_sub, add_mul, add_mul, mul_assoc _ (Finset.sum _ _), mul_assoc _ (Finset.sum _ _), Finset.sum_mul, Finset.sum_mul,
          Finset.mul_sum, Finset.mul_sum]
        rw [show ∀ a b c d : ℝ, a + b + (c + d) = (a + c) + (b + d) by intros; ring, ← Finset.sum_add_distrib]
        congr 1
        · show _ = u * (Real.cos alpha * l[i].seg.cosb + Real.sin alpha * l[i].seg.sinb)
          ring
        · apply Finset.sum_congr rfl
          intro j _
          unfold matA
          by_cases h : i = j
          · subst h
            simp only [if_pos]
            have hpi := Real.pi_ne_zero
            field_simp
            linear_combination l[i].sigma * hcs
          · rw [if_neg h, if_neg h, if_neg h, integral_dir (A.off i j h) (A.real j) l[i].seg.cosb]
            ring
      rw [e, h1]
      ring
    have ht : -vx * l[i].seg.sinb + vy * l[i].seg.cosb = l[i].vt := by
      have h1 := S.along i
      unfold tang at h1
      rw [h1, hvx, hvy, Real.sin_sub, neg_add, add_mul, add_mul, neg_mul (1 / 2 / Real.pi * _), mul_assoc _ (Finset.sum _ _), mul_assoc _ (Finset.sum _ _), Finset.sum_mul, Finset.sum_mul,
          Finset.mul_sum, Finset.mul_sum, ← Finset.sum_neg_distrib]
      rw [show ∀ a b c d : ℝ, a + b + (c + d) = (b + d) + (a + c) by intros; ring, ← Finset.sum_add_distrib]
      congr 1
      · apply Finset.sum_congr rfl
        intro j _
        unfold matT
        by_cases h : i = j
        · subst h
          simp only [if_pos]
          ring
        · rw [if_neg h, if_neg h, if_neg h, integral_dir (A.off i j h) (A.real j) (-Real.sin l[i].seg.beta)]
          show _ = 1 / 2 / Real.pi * (-l[i].seg.sinb * _ + l[i].seg.cosb * _) * _
          ring
      · show _ = u * (Real.sin alpha * l[i].seg.cosb - Real.cos alpha * l[i].seg.sinb)
        ring
    unfold Src.vector
    show (-l[i].vt * l[i].seg.sinb, l[i].vt * l[i].seg.cosb) = _
    rw [← ht]
    ext
    · simp only
      linear_combination vx * hcs - l[i].seg.cosb * hn
    · simp only
      linear_combination vy * hcs - l[i].seg.sinb * hn
  · unfold Src.vector
    have e1 : Real.sin l[i].seg.beta = -((l[i].seg.xb - l[i].seg.xa) / l[i].seg.length) := hs
    have e2 : Real.cos l[i].seg.beta = (l[i].seg.yb - l[i].seg.ya) / l[i].seg.length := hc
    simp only [e1, e2]
    ring

/-- One panel across a vertical stream. -/
example : Apart [⟨⟨0, 0, 1, 0⟩, 2, 0⟩] ∧ Solved 1 (Real.pi / 2) [⟨⟨0, 0, 1, 0⟩, 2, 0⟩] := by
  have hr : (⟨0, 0, 1, 0⟩ : Seg).Real := Or.inl (by norm_num)
  have hlen : (⟨0, 0, 1, 0⟩ : Seg).length = 1 := by unfold Seg.length; simp
  obtain ⟨hc, hs⟩ := normal hr
  rw [hlen] at hc hs
  have hc' : Real.cos (⟨0, 0, 1, 0⟩ : Seg).beta = 0 := by have : Real.cos (⟨0, 0, 1, 0⟩ : Seg).beta = _ := hc; rw [this]; norm_num
  have hs' : Real.sin (⟨0, 0, 1, 0⟩ : Seg).beta = -1 := by have : Real.sin (⟨0, 0, 1, 0⟩ : Seg).beta = _ := hs; rw [this]; norm_num
  refine ⟨⟨?_, ?_⟩, ⟨?_, ?_⟩⟩
  · intro i
    have : i = ⟨0, by simp⟩ := Fin.ext (by have h1 : i.1 < 1 := i.2; show i.1 = 0; omega)
    subst this
    exact hr
  · intro i j hij
    exact absurd (Fin.ext (by have h1 : i.1 < 1 := i.2; have h2 : j.1 < 1 := j.2; omega)) hij
  · intro i
    have : i = ⟨0, by simp⟩ := Fin.ext (by have h1 : i.1 < 1 := i.2; show i.1 = 0; omega)
    subst this
    show ∑ j : Fin 1, _ = _
    rw [Fin.sum_univ_one]
    show (1 : ℝ) / 2 * 2 = -1 * Real.cos (Real.pi / 2 - (⟨0, 0, 1, 0⟩ : Seg).beta)
    rw [Real.cos_sub, hc', hs']
    simp
  · intro i
    have : i = ⟨0, by simp⟩ := Fin.ext (by have h1 : i.1 < 1 := i.2; show i.1 = 0; omega)
    subst this
    show (0 : ℝ) = ∑ j : Fin 1, _ + 1 * Real.sin (Real.pi / 2 - (⟨0, 0, 1, 0⟩ : Seg).beta)
    rw [Fin.sum_univ_one, Real.sin_sub, hc', hs']
    show (0 : ℝ) = 0 * 2 + _
    simp

/-! ### on the panels -/

theorem distLine_at {p : Seg} (hr : p.Real) (s : ℝ) : p.distLine (p.at s).1 (p.at s).2 = 0 := by
  have hL := length_pos hr
  unfold Seg.distLine Seg.at Seg.xc Seg.yc
  by_cases h1 : p.xa = p.xb
  · rw [if_pos h1, ← h1]; simp
  · rw [if_neg h1]
    by_cases h2 : p.ya = p.yb
    · rw [if_pos h2, ← h2]; simp
    · rw [if_neg h2]
      have h3 : p.xb - p.xa ≠ 0 := sub_ne_zero.mpr (Ne.symm h1)
      have : (p.yb - p.ya) / (p.xb - p.xa) * (p.xa + s * ((p.xb - p.xa) / p.length)) - (p.ya + s * ((p.yb - p.ya) / p.length)) +
          (p.yb - (p.yb - p.ya) / (p.xb - p.xa) * p.xb) = 0 := by
        field_simp
        ring
      simp only [this, abs_zero, zero_div]

theorem dist_at {p : Seg} (hr : p.Real) (s : ℝ) : (p.xc - (p.at s).1) ^ 2 + (p.yc - (p.at s).2) ^ 2 = (s - p.length / 2) ^ 2 := by
  have hL := length_pos hr
  have hratio := ratio_sq hr
  have e1 : p.xc - (p.at s).1 = (p.length / 2 - s) * ((p.xb - p.xa) / p.length) := by
    unfold Seg.xc Seg.at; field_simp; ring
  have e2 : p.yc - (p.at s).2 = (p.length / 2 - s) * ((p.yb - p.ya) / p.length) := by
    unfold Seg.yc Seg.at; field_simp; ring
  rw [e1, e2]
  linear_combination (p.length / 2 - s) ^ 2 * hratio

theorem find_first {α : Type} {l : List α} {q : α → Bool} (i : Fin l.length) (hi : q l[i] = true) (hb : ∀ j : Fin l.length, j < i → q l[j] = false) :
    l.find? q = some l[i] := by
  rw [List.find?_eq_some_iff_getElem]
  refine ⟨hi, i.1, i.2, rfl, ?_⟩
  intro j hj
  have := hb ⟨j, by have := i.2; omega⟩ hj
  simpa using this

/-- The velocity asked anywhere on a panel is the vector of this panel, unless the point is also found on a panel added before. -/
theorem C154_on (u alpha : ℝ) (l : List Src) (i : Fin l.length) (hr : l[i].seg.Real) (s : ℝ) (h0 : 0 ≤ s) (h1 : s ≤ l[i].seg.length)
    (hb : ∀ j : Fin l.length, j < i → ¬ l[j].seg.onPanel (l[i].seg.at s).1 (l[i].seg.at s).2) :
    velocity u alpha l (l[i].seg.at s).1 (l[i].seg.at s).2 = l[i].vector := by
  have hL := length_pos hr
  unfold velocity
  rw [find_first i]
  · rw [decide_eq_true_eq]
    unfold Seg.onPanel
    rw [distLine_at hr, dist_at hr]
    refine ⟨?_, by norm_num⟩
    have : (s - l[i].seg.length / 2) ^ 2 ≤ (l[i].seg.length / 2) ^ 2 := by
      apply sq_le_sq'
      · linarith
      · linarith
    nlinarith
  · intro j hj
    simpa using hb j hj

/-- The distance to the line of the panel is attained at the foot of the perpendicular. -/
theorem distLine_foot {p : Seg} (hr : p.Real) (x y : ℝ) :
    ∃ t, (x - (p.at t).1) ^ 2 + (y - (p.at t).2) ^ 2 = p.distLine x y ^ 2 := by
  have hL := length_pos hr
  have hratio := ratio_sq hr
  refine ⟨(x - p.xa) * ((p.xb - p.xa) / p.length) + (y - p.ya) * ((p.yb - p.ya) / p.length), ?_⟩
  have e : p.distLine x y ^ 2 = ((x - p.xa) * ((p.yb - p.ya) / p.length) - (y - p.ya) * ((p.xb - p.xa) / p.length)) ^ 2 := by
    have hl2 : p.length ^ 2 = (p.xb - p.xa) ^ 2 + (p.yb - p.ya) ^ 2 := by
      unfold Seg.length
      exact Real.sq_sqrt (by positivity)
    unfold Seg.distLine Seg.xc Seg.yc
    by_cases h1 : p.xa = p.xb
    · have : (p.yb - p.ya) ^ 2 = p.length ^ 2 := by rw [hl2, h1]; ring
      rw [if_pos h1, sq_abs, ← h1]
      have hd : ((p.yb - p.ya) / p.length) ^ 2 = 1 := by rw [div_pow, this]; field_simp
      rw [sub_self, zero_div, mul_zero, sub_zero, mul_pow, hd]
      ring
    · rw [if_neg h1]
      by_cases h2 : p.ya = p.yb
      · rw [if_pos h2, sq_abs, ← h2]
        have : (p.xb - p.xa) ^ 2 = p.length ^ 2 := by rw [hl2, h2]; ring
        have hd : ((p.xb - p.xa) / p.length) ^ 2 = 1 := by rw [div_pow, this]; field_simp
        rw [sub_self, zero_div, mul_zero, zero_sub, neg_sq, mul_pow, hd]
        ring
      · rw [if_neg h2]
        have h3 : p.xb - p.xa ≠ 0 := sub_ne_zero.mpr (Ne.symm h1)
        rw [div_pow, sq_abs, Real.sq_sqrt (by positivity)]
        have h4 : 1 + ((p.yb - p.ya) / (p.xb - p.xa)) ^ 2 = p.length ^ 2 / (p.xb - p.xa) ^ 2 := by
          rw [hl2]
          field_simp
        rw [h4]
        field_simp
        ring
  rw [e]
  unfold Seg.at
  simp only
  linear_combination (((x - p.xa) * ((p.xb - p.xa) / p.length) + (y - p.ya) * ((p.yb - p.ya) / p.length)) ^ 2 - (x - p.xa) ^ 2 -
    (y - p.ya) ^ 2) * hratio

theorem velocity_off (u alpha : ℝ) (l : List Src) (x y : ℝ) (h : ∀ p ∈ l, ¬ p.seg.onPanel x y)
    (h1 : |(flow u alpha l x y).1| ≤ 10 ^ 30) (h2 : |(flow u alpha l x y).2| ≤ 10 ^ 30) : velocity u alpha l x y = flow u alpha l x y := by
  unfold velocity
  have : (l.find? fun p => decide (p.seg.onPanel x y)) = none := by
    rw [List.find?_eq_none]
    intro p hp
    simpa using h p hp
  rw [this]
  simp only
  rw [if_neg]
  rintro (h3 | h3)
  · exact absurd h3 (not_lt.mpr h1)
  · exact absurd h3 (not_lt.mpr h2)

/-- Off the panels, the velocity is the free stream with the sources (at most `1e30`).  A point is off a panel when it is
`1e-4` away from its line, or further from its centre than `1/√2` times its length. -/
theorem C154_off (u alpha : ℝ) (l : List Src) (x y : ℝ)
    (h : ∀ p ∈ l, p.seg.Real ∧ ((∀ t, (1 / 10000) ^ 2 ≤ (x - (p.seg.at t).1) ^ 2 + (y - (p.seg.at t).2) ^ 2) ∨
      p.seg.length ^ 2 / 2 < (x - p.seg.xc) ^ 2 + (y - p.seg.yc) ^ 2))
    (h1 : |(flow u alpha l x y).1| ≤ 10 ^ 30) (h2 : |(flow u alpha l x y).2| ≤ 10 ^ 30) : velocity u alpha l x y = flow u alpha l x y := by
  refine velocity_off u alpha l x y (fun p hp => ?_) h1 h2
  rintro ⟨h3, h4⟩
  obtain ⟨hr, h5 | h5⟩ := h p hp
  · obtain ⟨t, ht⟩ := distLine_foot hr x y
    have h6 := h5 t
    rw [ht] at h6
    have h7 : 0 ≤ p.seg.distLine x y := by
      unfold Seg.distLine
      split_ifs <;> positivity
    nlinarith
  · apply h3
    nlinarith

/-- Half a unit above the middle of a panel of length 1, the point is off the panel. -/
example : ∀ t, ((1 : ℝ) / 10000) ^ 2 ≤ (1 / 2 - ((⟨0, 0, 1, 0⟩ : Seg).at t).1) ^ 2 + (1 / 2 - ((⟨0, 0, 1, 0⟩ : Seg).at t).2) ^ 2 := by
  intro t
  have e : ((⟨0, 0, 1, 0⟩ : Seg).at t).2 = 0 := by unfold Seg.at; simp
  rw [e]
  nlinarith [sq_nonneg (1 / 2 - ((⟨0, 0, 1, 0⟩ : Seg).at t).1)]

/-- Beyond the ends of a panel, up to a fifth of its length, points that are off the panel are found on it and get its vector. -/
theorem C154_extent_violated (u alpha : ℝ) (p : Src) (l : List Src) (hr : p.seg.Real) (s : ℝ) (h1 : p.seg.length < s) (h2 : s ≤ 6 / 5 * p.seg.length) :
    p.seg.Off (p.seg.at s) ∧ velocity u alpha (p :: l) (p.seg.at s).1 (p.seg.at s).2 = p.vector := by
  have hL := length_pos hr
  constructor
  · intro t ht0 ht1 he
    have d1 := dist_at hr t
    rw [he, dist_at hr s] at d1
    have : (s - p.seg.length / 2 - (t - p.seg.length / 2)) * (s - p.seg.length / 2 + (t - p.seg.length / 2)) = 0 := by linear_combination d1
    rcases mul_eq_zero.mp this with h | h <;> linarith
  · unfold velocity
    rw [List.find?_cons_of_pos]
    rw [decide_eq_true_eq]
    unfold Seg.onPanel
    rw [distLine_at hr, dist_at hr]
    refine ⟨?_, by norm_num⟩
    nlinarith

/-! ### C155: far away -/

theorem unit_bound {a b d : ℝ} (hd : 0 < d) (h : d ^ 2 ≤ a ^ 2 + b ^ 2) : |a| / (a ^ 2 + b ^ 2) ≤ 1 / d := by
  have hp : 0 < a ^ 2 + b ^ 2 := lt_of_lt_of_le (by positivity) h
  rw [div_le_div_iff₀ hp hd, one_mul]
  have h1 : |a| ^ 2 ≤ a ^ 2 + b ^ 2 := by rw [sq_abs]; nlinarith [sq_nonneg b]
  have h2 : (|a| * d) ^ 2 ≤ (a ^ 2 + b ^ 2) ^ 2 := by
    rw [mul_pow, pow_two (a ^ 2 + b ^ 2)]
    exact mul_le_mul h1 h (by positivity) hp.le
  exact (abs_le_of_sq_le_sq' h2 hp.le).2

theorem integral_bound {p : Seg} (hr : p.Real) {x y d : ℝ} (hd : 0 < d)
    (h : ∀ s, 0 ≤ s → s ≤ p.length → d ^ 2 ≤ (x - (p.at s).1) ^ 2 + (y - (p.at s).2) ^ 2) :
    |integral x y p 1 0| ≤ p.length / d ∧ |integral x y p 0 1| ≤ p.length / d := by
  have hL := length_pos hr
  rw [integral_at hr, integral_at hr]
  have key : ∀ f : ℝ → ℝ, (∀ s, 0 ≤ s → s ≤ p.length → |f s| ≤ 1 / d) → |∫ s in (0 : ℝ)..p.length, f s| ≤ p.length / d := by
    intro f hf
    have := intervalIntegral.norm_integral_le_of_norm_le_const (a := 0) (b := p.length) (f := f) (C := 1 / d) (by
      intro s hs
      rw [Set.uIoc_of_le hL.le] at hs
      exact hf s hs.1.le hs.2)
    rw [Real.norm_eq_abs, sub_zero, abs_of_pos hL] at this
    calc _ ≤ 1 / d * p.length := this
      _ = p.length / d := by ring
  constructor
  · apply key
    intro s h0 h1
    rw [mul_one, mul_zero, add_zero, abs_div, abs_of_nonneg (a := _ ^ 2 + _ ^ 2) (by positivity)]
    exact unit_bound hd (h s h0 h1)
  · apply key
    intro s h0 h1
    rw [mul_one, mul_zero, zero_add, abs_div, abs_of_nonneg (a := _ ^ 2 + _ ^ 2) (by positivity), add_comm]
    exact unit_bound hd (by rw [add_comm]; exact h s h0 h1)

/-- At distance `d` of all the panels, the velocity differs from the free stream by at most the strengths of the panels over `2πd`:
the disturbance vanishes far away. -/
theorem C155_far (u alpha : ℝ) (l : List Src) (hr : ∀ p ∈ l, p.seg.Real) (x y d : ℝ) (hd : 0 < d)
    (h : ∀ p ∈ l, ∀ s, 0 ≤ s → s ≤ p.seg.length → d ^ 2 ≤ (x - (p.seg.at s).1) ^ 2 + (y - (p.seg.at s).2) ^ 2) :
    |(flow u alpha l x y).1 - u * Real.cos alpha| ≤ (l.map fun p => |p.sigma| * p.seg.length).sum / (2 * Real.pi * d) ∧
    |(flow u alpha l x y).2 - u * Real.sin alpha| ≤ (l.map fun p => |p.sigma| * p.seg.length).sum / (2 * Real.pi * d) := by
  have hpi := Real.pi_pos
  have key : ∀ f : Src → ℝ, (∀ p ∈ l, |f p| ≤ p.seg.length / d) →
      |1 / 2 / Real.pi * (l.map fun p => p.sigma * f p).sum| ≤ (l.map fun p => |p.sigma| * p.seg.length).sum / (2 * Real.pi * d) := by
    intro f hf
    have h1 : |(l.map fun p => p.sigma * f p).sum| ≤ (l.map fun p => |p.sigma| * p.seg.length).sum / d := by
      clear h hr
      induction l with
      | nil => simp
      | cons p l ih =>
        simp only [List.map_cons, List.sum_cons]
        have i1 := ih fun q hq => hf q (by simp [hq])
        have i2 := hf p (by simp)
        calc _ ≤ |p.sigma * f p| + |(l.map fun p => p.sigma * f p).sum| := abs_add_le _ _
          _ ≤ |p.sigma| * (p.seg.length / d) + (l.map fun p => |p.sigma| * p.seg.length).sum / d := by
            rw [abs_mul]
            exact add_le_add (mul_le_mul_of_nonneg_left i2 (abs_nonneg _)) i1
          _ = _ := by ring
    rw [abs_mul, abs_of_pos (by positivity)]
    calc _ ≤ 1 / 2 / Real.pi * ((l.map fun p => |p.sigma| * p.seg.length).sum / d) := mul_le_mul_of_nonneg_left h1 (by positivity)
      _ = _ := by field_simp
  unfold flow
  simp only [add_sub_cancel_left]
  exact ⟨key (fun p => integral x y p.seg 1 0) fun p hp => (integral_bound (hr p hp) hd (h p hp)).1,
    key (fun p => integral x y p.seg 0 1) fun p hp => (integral_bound (hr p hp) hd (h p hp)).2⟩

/-- The velocities are proportional to the free stream: if the sources solve the problem for one speed, `k` times these sources solve
it for `k` times the speed, and the velocity is everywhere `k` times as large. -/
theorem C155_proportional (u alpha k : ℝ) (l : List Src) (S : Solved u alpha l) (x y : ℝ) :
    Solved (k * u) alpha (l.map fun p => ⟨p.seg, k * p.sigma, k * p.vt⟩) ∧
    flow (k * u) alpha (l.map fun p => ⟨p.seg, k * p.sigma, k * p.vt⟩) x y = (k * (flow u alpha l x y).1, k * (flow u alpha l x y).2) := by
  constructor
  · have hlen : (l.map fun p => (⟨p.seg, k * p.sigma, k * p.vt⟩ : Src)).length = l.length := by simp
    have hre : ∀ f : Fin (l.map fun p => (⟨p.seg, k * p.sigma, k * p.vt⟩ : Src)).length → ℝ, ∑ j, f j = ∑ j, f (Fin.cast hlen.symm j) := by
      intro f
      exact (Equiv.sum_comp (finCongr hlen.symm) f).symm
    constructor
    · intro i
      have h1 := S.across (Fin.cast hlen i)
      rw [hre]
      have e : ∀ j : Fin l.length, matA (l.map fun p => (⟨p.seg, k * p.sigma, k * p.vt⟩ : Src)) i (Fin.cast hlen.symm j) *
          (l.map fun p => (⟨p.seg, k * p.sigma, k * p.vt⟩ : Src))[Fin.cast hlen.symm j].sigma = k * (matA l (Fin.cast hlen i) j * l[j].sigma) := by
        intro j
        have : (i = Fin.cast hlen.symm j) ↔ (Fin.cast hlen i = j) := by
          constructor
          · rintro rfl; rfl
          · rintro rfl; rfl
        unfold matA
        by_cases hij : Fin.cast hlen i = j
        · rw [if_pos hij, if_pos (this.mpr hij)]
          simp
          ring
        · rw [if_neg hij, if_neg (fun h => hij (this.mp h))]
          simp
          ring
      rw [Finset.sum_congr rfl fun j _ => e j, ← Finset.mul_sum, h1]
      unfold rhs
      simp
      ring
    · intro i
      have h1 := S.along (Fin.cast hlen i)
      unfold tang at h1 ⊢
      rw [hre]
      have e : ∀ j : Fin l.length, matT (l.map fun p => (⟨p.seg, k * p.sigma, k * p.vt⟩ : Src)) i (Fin.cast hlen.symm j) *
          (l.map fun p => (⟨p.seg, k * p.sigma, k * p.vt⟩ : Src))[Fin.cast hlen.symm j].sigma = k * (matT l (Fin.cast hlen i) j * l[j].sigma) := by
        intro j
        have : (i = Fin.cast hlen.symm j) ↔ (Fin.cast hlen i = j) := by
          constructor
          · rintro rfl; rfl
          · rintro rfl; rfl
        unfold matT
        by_cases hij : Fin.cast hlen i = j
        · rw [if_pos hij, if_pos (this.mpr hij)]
          simp
        · rw [if_neg hij, if_neg (fun h => hij (this.mp h))]
          simp
          ring
      rw [Finset.sum_congr rfl fun j _ => e j, ← Finset.mul_sum]
      have h2 : (l.map fun p => (⟨p.seg, k * p.sigma, k * p.vt⟩ : Src))[i].vt = k * l[Fin.cast hlen i].vt := by simp
      rw [h2, h1]
      simp
      ring
  · unfold flow
    have e : ∀ dx dy : ℝ, ((l.map fun p => (⟨p.seg, k * p.sigma, k * p.vt⟩ : Src)).map fun p => p.sigma * integral x y p.seg dx dy).sum =
        k * (l.map fun p => p.sigma * integral x y p.seg dx dy).sum := by
      intro dx dy
      rw [List.map_map, ← List.sum_map_mul_left]
      congr 1
      apply List.map_congr_left
      intro p _
      simp only [Function.comp]
      ring
    rw [e, e]
    ext <;> simp only <;> ring

end IMT.Panel
