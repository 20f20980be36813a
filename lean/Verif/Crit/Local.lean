import Verif.Crit.LocalModel
import Verif.Crit.Gamma
import Mathlib.Tactic.FieldSimp
import Mathlib.Analysis.Real.Sqrt

/-!
Properties C135 (residual and shear vorticity), C136 (Q and Nk), C137 (Delta), C138 (lambda2, swirling strength, agreement of the
criteria).
-/

namespace IMT.Crit

set_option linter.unusedSectionVars false

/-! ### specification -/

section
variable {K : Type} [Field K] [LinearOrder K] [IsStrictOrderedRing K]

/-- The gradient of the same flow seen in axes turned by the angle of cosine `c` and sine `s`. -/
def Jac.turn (c s : K) (J : Jac K) : Jac K :=
  { xx := c * (c * J.xx - s * J.yx) - s * (c * J.xy - s * J.yy)
    xy := s * (c * J.xx - s * J.yx) + c * (c * J.xy - s * J.yy)
    yx := c * (s * J.xx + c * J.yx) - s * (s * J.xy + c * J.yy)
    yy := s * (s * J.xx + c * J.yx) + c * (s * J.xy + c * J.yy) }

/-- The gradient of a velocity `k` times larger. -/
def Jac.scale (k : K) (J : Jac K) : Jac K := ⟨k * J.xx, k * J.xy, k * J.yx, k * J.yy⟩

/-- `l` is a real eigenvalue of the matrix `[[a, b], [c, d]]`. -/
def Eigen (a b c d l : K) : Prop := ∃ p q : K, (p ≠ 0 ∨ q ≠ 0) ∧ a * p + b * q = l * p ∧ c * p + d * q = l * q

/-- Sum of the squares of the terms of the antisymmetric part of the gradient. -/
def rotNorm2 (J : Jac K) : K := ((J.xy - J.yx) / 2) ^ 2 + ((J.yx - J.xy) / 2) ^ 2
/-- Sum of the squares of the terms of the symmetric part of the gradient. -/
def shearNorm2 (J : Jac K) : K := J.xx ^ 2 + ((J.xy + J.yx) / 2) ^ 2 + ((J.yx + J.xy) / 2) ^ 2 + J.yy ^ 2

/-! ### lemmas -/

variable {sq : K → K}

theorem sq_zero (h : IsSqrt sq) : sq 0 = 0 := by
  have h1 := (h 0 le_rfl).2
  exact pow_eq_zero_iff (two_ne_zero) |>.mp h1

theorem strain_nonneg (h : IsSqrt sq) (J : Jac K) : 0 ≤ strain sq J := by
  unfold strain
  exact div_nonneg (h _ (by positivity)).1 (by norm_num)

theorem strain_sq (h : IsSqrt sq) (J : Jac K) : (2 * strain sq J) ^ 2 = 4 * J.xx ^ 2 + (J.xy + J.yx) ^ 2 := by
  unfold strain
  rw [mul_div_cancel₀ _ (two_ne_zero)]
  exact (h _ (by positivity)).2

/-- The strain compared with the vorticity. -/
theorem strain_lt (h : IsSqrt sq) (J : Jac K) :
    strain sq J < |omega J| ↔ 4 * J.xx ^ 2 + (J.xy + J.yx) ^ 2 < (J.yx - J.xy) ^ 2 := by
  have h1 := strain_sq h J
  have h0 := strain_nonneg h J
  have h2 : (J.yx - J.xy) ^ 2 = (2 * |omega J|) ^ 2 := by
    rw [mul_pow, sq_abs]; unfold omega; ring
  rw [← h1, h2]
  constructor
  · intro hlt
    exact pow_lt_pow_left₀ (by linarith) (by linarith) two_ne_zero
  · intro hlt
    have := lt_of_pow_lt_pow_left₀ 2 (by positivity) hlt
    linarith

theorem residual_pos {J : Jac K} (h : IsSqrt sq) (hs : strain sq J < |omega J|) :
    residual sq J = omega J - omega J / |omega J| * strain sq J := by
  have hpos : 0 < |omega J| := lt_of_le_of_lt (strain_nonneg h J) hs
  unfold residual
  rw [if_pos hs, if_neg hpos.ne']
  field_simp

/-! ### C135 -/

/-- C135: the vorticity is split: at every point the residual and shear parts add up to it (half of the curl, as `get_vorticity`
gives it), and so do their sizes: neither has the sign opposite to it. -/
theorem C135_split (h : IsSqrt sq) (J : Jac K) :
    residual sq J + shear sq J = (J.yx - J.xy) / 2 ∧ |residual sq J| + |shear sq J| = |(J.yx - J.xy) / 2| := by
  by_cases hs : strain sq J < |omega J|
  · have hpos : 0 < |omega J| := lt_of_le_of_lt (strain_nonneg h J) hs
    have h0 := strain_nonneg h J
    have e1 := residual_pos h hs
    have e2 : shear sq J = omega J / |omega J| * strain sq J := by unfold shear; rw [if_pos hs]
    have hw : omega J ≠ 0 := abs_pos.mp hpos
    refine ⟨by rw [e1, e2]; unfold omega; ring, ?_⟩
    have e3 : residual sq J = omega J / |omega J| * (|omega J| - strain sq J) := by
      rw [e1]; field_simp
    have e4 : |(omega J / |omega J|)| = 1 := by rw [abs_div, abs_abs, div_self hpos.ne']
    rw [e3, e2, abs_mul, abs_mul, e4, abs_of_pos (sub_pos.mpr hs), abs_of_nonneg h0]
    unfold omega; ring
  · unfold residual shear
    rw [if_neg hs, if_neg hs]
    refine ⟨by unfold omega; ring, by rw [abs_zero]; unfold omega; ring⟩

/-- C135: a solid rotation of rate `w` is residual vorticity only. -/
theorem C135_rotation (h : IsSqrt sq) (w : K) : residual sq ⟨0, -w, w, 0⟩ = w ∧ shear sq ⟨0, -w, w, 0⟩ = 0 := by
  have hs : strain sq (⟨0, -w, w, 0⟩ : Jac K) = 0 := by
    unfold strain
    have : (4 * (0 : K) ^ 2 + (-w + w) ^ 2) = 0 := by ring
    simp only [this, sq_zero h, zero_div]
  have hw : omega (⟨0, -w, w, 0⟩ : Jac K) = w := by unfold omega; ring
  have hsum := (C135_split h (⟨0, -w, w, 0⟩ : Jac K)).1
  have h2 : shear sq (⟨0, -w, w, 0⟩ : Jac K) = 0 := by
    unfold shear
    rw [hs, hw]
    split
    · ring
    · next hn => exact abs_eq_zero.mp (le_antisymm (not_lt.mp hn) (abs_nonneg _))
  refine ⟨?_, h2⟩
  rw [h2] at hsum
  linear_combination hsum

/-- C135: a simple shear of rate `k`, along either axis, has no residual vorticity. -/
theorem C135_shear (h : IsSqrt sq) (k : K) : residual sq ⟨0, k, 0, 0⟩ = 0 ∧ residual sq ⟨0, 0, k, 0⟩ = 0 := by
  constructor
  · unfold residual
    rw [if_neg]
    rw [strain_lt h]
    simp
  · unfold residual
    rw [if_neg]
    rw [strain_lt h]
    simp

/-- C135: for a gradient without divergence, the residual and shear vorticities do not depend on the axes chosen: they are the same in
axes turned by any angle.
Partial: not for gradients with a divergence (`C135_turned_violated`). -/
theorem C135_turned_partial (h : IsSqrt sq) (J : Jac K) (hd : J.xx + J.yy = 0) (c s : K) (hcs : c ^ 2 + s ^ 2 = 1) :
    residual sq (J.turn c s) = residual sq J ∧ shear sq (J.turn c s) = shear sq J := by
  have hyy : J.yy = -J.xx := by linear_combination hd
  have e1 : omega (J.turn c s) = omega J := by
    unfold omega Jac.turn
    linear_combination (J.yx - J.xy) / 2 * hcs
  have e2 : strain sq (J.turn c s) = strain sq J := by
    unfold strain
    congr 2
    simp only [Jac.turn, hyy]
    linear_combination (4 * J.xx ^ 2 + (J.xy + J.yx) ^ 2) * (c ^ 2 + s ^ 2 + 1) * hcs
  unfold residual shear
  rw [e1, e2]
  exact ⟨rfl, rfl⟩

/-- C135 fails in general: if the rates of stretching along x and y have different sizes, the residual vorticity, where it is not zero,
is changed by turning the axes by a quarter turn. -/
theorem C135_turned_violated (h : IsSqrt sq) (J : Jac K) (hne : J.xx ^ 2 ≠ J.yy ^ 2) (hr : residual sq J ≠ 0) :
    residual sq (J.turn 0 1) ≠ residual sq J := by
  have hs : strain sq J < |omega J| := by
    by_contra hn
    exact hr (by unfold residual; rw [if_neg hn])
  have e1 : omega (J.turn 0 1) = omega J := by
    unfold omega Jac.turn; ring
  have e2 : strain sq (J.turn 0 1) ≠ strain sq J := by
    intro he
    have h1 := strain_sq h J
    have h2 := strain_sq h (J.turn 0 1)
    rw [he, h1] at h2
    apply hne
    simp only [Jac.turn] at h2
    linear_combination h2 / 4
  intro he
  by_cases hs' : strain sq (J.turn 0 1) < |omega (J.turn 0 1)|
  · rw [residual_pos h hs, residual_pos h hs', e1] at he
    have hpos : 0 < |omega J| := lt_of_le_of_lt (strain_nonneg h J) hs
    have hw : omega J ≠ 0 := abs_pos.mp hpos
    have h3 : omega J / |omega J| * strain sq (J.turn 0 1) = omega J / |omega J| * strain sq J := by linear_combination -he
    exact e2 (mul_left_cancel₀ (div_ne_zero hw hpos.ne') h3)
  · apply hr
    rw [← he]
    unfold residual
    rw [if_neg hs']

/-- C135 fails in general: a rotation together with an expansion equal in all directions has no shear, yet part of its vorticity,
as large as the rate of expansion if the rotation is faster, is taken for shear. -/
theorem C135_expansion_violated (h : IsSqrt sq) (w a : K) (hw : |a| < |w|) :
    |residual sq ⟨a, -w, w, a⟩| = |w| - |a| ∧ |shear sq ⟨a, -w, w, a⟩| = |a| := by
  have hs : strain sq (⟨a, -w, w, a⟩ : Jac K) = |a| := by
    unfold strain
    rw [sq_unique h (y := 2 * |a|) (by positivity) (by rw [mul_pow, sq_abs]; ring)]
    ring
  have ho : omega (⟨a, -w, w, a⟩ : Jac K) = w := by unfold omega; ring
  have hlt : strain sq (⟨a, -w, w, a⟩ : Jac K) < |omega (⟨a, -w, w, a⟩ : Jac K)| := by rw [hs, ho]; exact hw
  have hpos : 0 < |w| := lt_of_le_of_lt (abs_nonneg a) hw
  have h2 : |shear sq (⟨a, -w, w, a⟩ : Jac K)| = |a| := by
    unfold shear
    rw [if_pos hlt, hs, ho, abs_mul, abs_div, abs_abs, abs_abs, div_self hpos.ne', one_mul]
  refine ⟨?_, h2⟩
  have h3 := (C135_split h (⟨a, -w, w, a⟩ : Jac K)).2
  rw [h2] at h3
  have h4 : |(w - -w) / 2| = |w| := by rw [sub_neg_eq_add, add_self_div_two]
  simp only at h3
  rw [h4] at h3
  linarith

/-! ### C136 -/

/-- C136: the two norms are those of the antisymmetric and of the symmetric part. -/
theorem norms (J : Jac K) : rot2 J = rotNorm2 J ∧ shear2 J = shearNorm2 J := by
  unfold rot2 shear2 rotNorm2 shearNorm2
  constructor <;> ring

theorem shearNorm2_zero (J : Jac K) : shearNorm2 J = 0 ↔ J.xx = 0 ∧ J.yy = 0 ∧ J.xy = -J.yx := by
  unfold shearNorm2
  constructor
  · intro h
    have h1 := sq_nonneg J.xx
    have h2 := sq_nonneg ((J.xy + J.yx) / 2)
    have h3 := sq_nonneg J.yy
    have h4 := sq_nonneg ((J.yx + J.xy) / 2)
    refine ⟨pow_eq_zero_iff two_ne_zero |>.mp (by linarith), pow_eq_zero_iff two_ne_zero |>.mp (by linarith), ?_⟩
    have := pow_eq_zero_iff two_ne_zero |>.mp (show ((J.xy + J.yx) / 2) ^ 2 = 0 by linarith)
    linarith
  · rintro ⟨h1, h2, h3⟩
    rw [h1, h2, h3]; ring

/-- C136: what Q does give: it is positive only where the rotation is stronger than the strain, it does not depend on the axes, it is
multiplied by `k²` with a velocity `k` times larger, and for a solid rotation it is the documented half of the squared norm.
Partial: it is not the documented `(|rotation|² - |strain|²) / 2` (`C136_q_violated`). -/
theorem C136_q_partial (J : Jac K) :
    (0 < qCrit J → shearNorm2 J < rotNorm2 J) ∧
    (∀ c s : K, c ^ 2 + s ^ 2 = 1 → qCrit (J.turn c s) = qCrit J) ∧ (∀ k : K, qCrit (J.scale k) = k ^ 2 * qCrit J) ∧
    (shearNorm2 J = 0 → qCrit J = 1 / 2 * (rotNorm2 J - shearNorm2 J)) := by
  have hr : 0 ≤ rotNorm2 J := by unfold rotNorm2; positivity
  refine ⟨?_, ?_, ?_, ?_⟩
  · intro h
    unfold qCrit at h
    rw [(norms J).1, (norms J).2] at h
    linarith
  · intro c s hcs
    unfold qCrit rot2 shear2 Jac.turn
    linear_combination ((1 / 4 * (J.xy - J.yx) ^ 2) - (J.xx ^ 2 + 1 / 2 * (J.xy + J.yx) ^ 2 + J.yy ^ 2)) * (c ^ 2 + s ^ 2 + 1) * hcs
  · intro k
    unfold qCrit rot2 shear2 Jac.scale
    ring
  · intro h
    unfold qCrit
    rw [(norms J).1, (norms J).2, h]; ring

/-- C136 fails for Q: the half applies to the rotation only.  The value returned is the documented one at no point where there is any
strain. -/
theorem C136_q_violated (J : Jac K) : qCrit J = 1 / 2 * (rotNorm2 J - shearNorm2 J) ↔ shearNorm2 J = 0 := by
  unfold qCrit
  rw [(norms J).1, (norms J).2]
  constructor
  · intro h; linarith
  · intro h; rw [h]; ring

/-- C136 fails for Q: every point where the squared rotation lies between the squared strain and twice it belongs to a vortex by the
documented criterion (positive Q), but the value returned is not positive. -/
theorem C136_missed_violated (J : Jac K) (h1 : shearNorm2 J < rotNorm2 J) (h2 : rotNorm2 J ≤ 2 * shearNorm2 J) :
    0 < 1 / 2 * (rotNorm2 J - shearNorm2 J) ∧ qCrit J ≤ 0 := by
  unfold qCrit
  rw [(norms J).1, (norms J).2]
  constructor <;> linarith

/-- C136: Nk, where there is some strain, is the ratio of the norms of rotation and strain: its square is the ratio of their squares, and
it is not negative; it is above 1 exactly where the rotation is the stronger. -/
theorem C136_nk (h : IsSqrt sq) (J : Jac K) (hs : shearNorm2 J ≠ 0) :
    ∃ v, nk sq J = some v ∧ 0 ≤ v ∧ v ^ 2 = rotNorm2 J / shearNorm2 J ∧ (1 < v ↔ shearNorm2 J < rotNorm2 J) := by
  have hpos : 0 < shearNorm2 J := lt_of_le_of_ne (by unfold shearNorm2; positivity) (Ne.symm hs)
  have hsq := (h _ hpos.le).2
  have hge : 0 ≤ sq (shear2 J) := (h _ (by rw [(norms J).2]; exact hpos.le)).1
  have hne : sq (shear2 J) ≠ 0 := by
    rw [(norms J).2]
    intro h0
    rw [h0] at hsq
    exact hs (by rw [← hsq]; ring)
  have h2 := (h 2 (by norm_num)).2
  have h0 : 0 ≤ 1 / sq 2 * |J.xy - J.yx| / sq (shear2 J) :=
    div_nonneg (mul_nonneg (div_nonneg zero_le_one (h 2 (by norm_num)).1) (abs_nonneg _)) hge
  have hv : (1 / sq 2 * |J.xy - J.yx| / sq (shear2 J)) ^ 2 = rotNorm2 J / shearNorm2 J := by
    rw [div_pow, mul_pow, div_pow, sq_abs, h2, (norms J).2, hsq]
    unfold rotNorm2
    congr 1
    ring
  refine ⟨_, by unfold nk; rw [if_neg hne], h0, hv, ?_⟩
  rw [← one_lt_div hpos, ← hv]
  constructor
  · intro h1
    exact one_lt_pow₀ h1 two_ne_zero
  · intro h1
    by_contra hn
    exact absurd (pow_le_one₀ h0 (not_lt.mp hn) (n := 2)) (not_le.mpr h1)

/-- C136: Nk is the same for a velocity any number of times larger, and in axes turned by any angle. -/
theorem C136_nk_invariant (h : IsSqrt sq) (J : Jac K) :
    (∀ k : K, k ≠ 0 → nk sq (J.scale k) = nk sq J) ∧ ∀ c s : K, c ^ 2 + s ^ 2 = 1 → nk sq (J.turn c s) = nk sq J := by
  constructor
  · intro k hk
    have e1 : sq (shear2 (J.scale k)) = |k| * sq (shear2 J) := by
      have hp : 0 ≤ shear2 J := by unfold shear2; positivity
      apply sq_unique h (mul_nonneg (abs_nonneg k) (h _ hp).1)
      rw [mul_pow, sq_abs, (h _ hp).2]
      unfold shear2 Jac.scale; ring
    have e2 : |(J.scale k).xy - (J.scale k).yx| = |k| * |J.xy - J.yx| := by
      rw [← abs_mul]; congr 1; unfold Jac.scale; ring
    have hk' : |k| ≠ 0 := abs_ne_zero.mpr hk
    unfold nk
    rw [e1, e2]
    by_cases h0 : sq (shear2 J) = 0
    · rw [if_pos (by rw [h0, mul_zero]), if_pos h0]
    · rw [if_neg (mul_ne_zero hk' h0), if_neg h0]
      congr 1
      field_simp
  · intro c s hcs
    have e1 : shear2 (J.turn c s) = shear2 J := by
      unfold shear2 Jac.turn
      linear_combination (J.xx ^ 2 + 1 / 2 * (J.xy + J.yx) ^ 2 + J.yy ^ 2) * (c ^ 2 + s ^ 2 + 1) * hcs
    have e2 : (J.turn c s).xy - (J.turn c s).yx = J.xy - J.yx := by
      unfold Jac.turn
      linear_combination (J.xy - J.yx) * hcs
    unfold nk
    rw [e1, e2]

/-- C136: Nk has no value exactly where there is no strain: at the centre of every solid rotation. -/
theorem C136_nk_undefined (h : IsSqrt sq) (J : Jac K) : nk sq J = none ↔ J.xx = 0 ∧ J.yy = 0 ∧ J.xy = -J.yx := by
  rw [← shearNorm2_zero]
  constructor
  · intro h1
    by_contra h2
    obtain ⟨v, hv, _⟩ := C136_nk h J h2
    rw [h1] at hv; cases hv
  · intro h1
    unfold nk
    rw [(norms J).2, h1, sq_zero h, if_pos rfl]

/-! ### C137 -/

theorem eigen_poly {a b c d l : K} (h : Eigen a b c d l) : (2 * l - (a + d)) ^ 2 = (a - d) ^ 2 + 4 * b * c := by
  obtain ⟨p, q, hpq, e1, e2⟩ := h
  have k1 : p * ((a - l) * (d - l) - b * c) = 0 := by linear_combination (d - l) * e1 - b * e2
  have k2 : q * ((a - l) * (d - l) - b * c) = 0 := by linear_combination (a - l) * e2 - c * e1
  have k : (a - l) * (d - l) - b * c = 0 := by
    cases hpq with
    | inl hp => exact (mul_eq_zero.mp k1).resolve_left hp
    | inr hq => exact (mul_eq_zero.mp k2).resolve_left hq
  linear_combination 4 * k

theorem poly_eigen {a b c d l : K} (h : (2 * l - (a + d)) ^ 2 = (a - d) ^ 2 + 4 * b * c) : Eigen a b c d l := by
  have k : (a - l) * (d - l) = b * c := by linear_combination h / 4
  by_cases hb : b = 0
  · by_cases hal : a = l
    · by_cases hc : c = 0
      · exact ⟨1, 0, .inl one_ne_zero, by rw [hal]; ring, by rw [hc]; ring⟩
      · exact ⟨l - d, c, .inr hc, by rw [hal, hb]; ring, by ring⟩
    · have hdl : d = l := by
        rw [hb, zero_mul] at k
        have := (mul_eq_zero.mp k).resolve_left (sub_ne_zero.mpr hal)
        linear_combination this
      exact ⟨0, 1, .inr one_ne_zero, by rw [hb]; ring, by rw [hdl]; ring⟩
  · exact ⟨b, l - a, .inl hb, by ring, by linear_combination -k⟩

theorem discr_eigen (h : IsSqrt sq) (a b c d : K) : 0 ≤ (a - d) ^ 2 + 4 * b * c ↔ ∃ l, Eigen a b c d l := by
  constructor
  · intro h0
    refine ⟨(a + d + sq ((a - d) ^ 2 + 4 * b * c)) / 2, poly_eigen ?_⟩
    have := (h _ h0).2
    linear_combination this
  · rintro ⟨l, hl⟩
    rw [← eigen_poly hl]
    exact sq_nonneg _

/-- C137: Delta is masked exactly where the gradient has a real eigenvalue, that is where some straight line through the point is
followed by the flow: the shown points are those around which the streamlines turn. -/
theorem C137_masked (h : IsSqrt sq) (J : Jac K) : delta J = none ↔ ∃ l, Eigen J.xx J.xy J.yx J.yy l := by
  rw [← discr_eigen h]
  unfold delta discr
  split <;> simp_all

/-- C137 fails for the sign: "negative values of Delta mean that the local streamline pattern is closed or spiraled"; the value is
positive at every shown point where Q is not negative, in particular at every solid rotation. -/
theorem C137_sign_violated (J : Jac K) (hq : 0 ≤ qCrit J) {d : K} (hd : delta J = some d) : 0 < d := by
  unfold delta at hd
  split at hd
  · cases hd
  · next hn =>
    have hdis : discr J < 0 := not_le.mp hn
    have hdet : 0 < J.xx * J.yy - J.xy * J.yx := by
      unfold discr at hdis
      nlinarith [sq_nonneg (J.xx + J.yy)]
    have e := Option.some.inj hd
    rw [← e]
    have h1 : 0 ≤ (qCrit J / 3) ^ 3 := pow_nonneg (div_nonneg hq (by norm_num)) 3
    have h2 : 0 < (-(J.xx * J.yy - J.xy * J.yx) / 2) ^ 2 := by
      apply pow_pos_of_ne
      intro h0
      linarith
    linarith
where
  pow_pos_of_ne {K : Type} [Field K] [LinearOrder K] [IsStrictOrderedRing K] {a : K} (h : a ≠ 0) : 0 < a ^ 2 := by positivity

/-- C137, the rotation: shown and positive. -/
theorem C137_rotation_violated (w : K) (hw : w ≠ 0) : ∃ d, delta (⟨0, -w, w, 0⟩ : Jac K) = some d ∧ 0 < d := by
  have hw2 : 0 < w ^ 2 := by positivity
  have hdis : ¬0 ≤ discr (⟨0, -w, w, 0⟩ : Jac K) := by
    unfold discr
    simp only
    nlinarith
  refine ⟨_, by unfold delta; rw [if_neg hdis], ?_⟩
  apply C137_sign_violated (⟨0, -w, w, 0⟩ : Jac K)
  · unfold qCrit rot2 shear2
    simp only
    nlinarith
  · unfold delta; rw [if_neg hdis]

/-- C137 fails for the unit: the value is given the unit of the sixth power of a velocity gradient, but for a velocity `k` times larger
it is never multiplied by `k⁶`: values given in two systems of units disagree. -/
theorem C137_unit_violated (J : Jac K) {d : K} (hd : delta J = some d) (k : K) (hk : k ≠ 0) (hk1 : k ^ 2 ≠ 1) :
    ∃ d', delta (J.scale k) = some d' ∧ d' ≠ k ^ 6 * d := by
  unfold delta at hd
  split at hd
  · cases hd
  · next hn =>
    have hk2 : 0 < k ^ 2 := by positivity
    have hdis : discr J < 0 := not_le.mp hn
    have hdet : 0 < J.xx * J.yy - J.xy * J.yx := by
      unfold discr at hdis
      nlinarith [sq_nonneg (J.xx + J.yy)]
    have hdis' : ¬0 ≤ discr (J.scale k) := by
      have : discr (J.scale k) = k ^ 2 * discr J := by unfold discr Jac.scale; ring
      rw [this, not_le]
      exact mul_neg_of_pos_of_neg hk2 hdis
    refine ⟨_, by unfold delta; rw [if_neg hdis'], ?_⟩
    rw [(C136_q_partial J).2.2.1 k, ← Option.some.inj hd]
    intro he
    have h1 : (J.xx * J.yy - J.xy * J.yx) ^ 2 * k ^ 4 * (k ^ 2 - 1) = 0 := by
      unfold Jac.scale at he
      linear_combination (-4) * he
    have h2 := mul_ne_zero (mul_ne_zero (pow_ne_zero 2 hdet.ne') (pow_ne_zero 4 hk)) (sub_ne_zero.mpr hk1)
    exact h2 h1

/-! ### C138 -/

/-- C138: lambda2 is an eigenvalue of the sum of the squared symmetric and antisymmetric parts of the gradient, and no eigenvalue is
smaller. -/
theorem C138_lambda2 (h : IsSqrt sq) (J : Jac K) (a b d : K)
    (ha : a = (J.xx * J.xx + (J.xy + J.yx) / 2 * ((J.yx + J.xy) / 2)) + (J.xy - J.yx) / 2 * ((J.yx - J.xy) / 2))
    (hb : b = J.xx * ((J.xy + J.yx) / 2) + (J.xy + J.yx) / 2 * J.yy)
    (hd : d = ((J.yx + J.xy) / 2 * ((J.xy + J.yx) / 2) + J.yy * J.yy) + (J.yx - J.xy) / 2 * ((J.xy - J.yx) / 2)) :
    Eigen a b b d (lambda2 sq J) ∧ ∀ l, Eigen a b b d l → lambda2 sq J ≤ l := by
  have e1 : m11 J = a := by rw [ha]; unfold m11; ring
  have e2 : m22 J = d := by rw [hd]; unfold m22; ring
  have e3 : m12 J = b := by rw [hb]; unfold m12; ring
  have hp : 0 ≤ (a - d) ^ 2 + 4 * b ^ 2 := by positivity
  have hsq := (h _ hp).2
  unfold lambda2
  rw [e1, e2, e3]
  refine ⟨poly_eigen (by linear_combination hsq), ?_⟩
  intro l hl
  have h1 := eigen_poly hl
  have h2 : (2 * l - (a + d)) ^ 2 = sq ((a - d) ^ 2 + 4 * b ^ 2) ^ 2 := by rw [hsq, h1]; ring
  have h3 := abs_le_of_sq_le_sq h2.le (h _ hp).1
  linarith [(abs_le.mp h3).1]

/-- C138: the swirling strength is zero exactly where there is a real eigenvalue; elsewhere it is the positive imaginary part of an
eigenvalue: `r + i w` is a root of the characteristic polynomial, real and imaginary parts apart. -/
theorem C138_swirl (h : IsSqrt sq) (J : Jac K) :
    (swirl sq J = 0 ↔ ∃ l, Eigen J.xx J.xy J.yx J.yy l) ∧ 0 ≤ swirl sq J ∧
    (swirl sq J ≠ 0 → ∃ r : K, r ^ 2 - swirl sq J ^ 2 - (J.xx + J.yy) * r + (J.xx * J.yy - J.xy * J.yx) = 0 ∧
      2 * r * swirl sq J - (J.xx + J.yy) * swirl sq J = 0) := by
  rw [← discr_eigen h]
  by_cases hd : 0 ≤ discr J
  · have e : swirl sq J = 0 := by unfold swirl; rw [if_pos hd]
    rw [e]
    exact ⟨⟨fun _ => hd, fun _ => rfl⟩, le_rfl, fun h => absurd rfl h⟩
  · have e : swirl sq J = sq (-discr J) / 2 := by unfold swirl; rw [if_neg hd]
    have hneg : 0 < -discr J := by linarith [not_le.mp hd]
    have hsq := (h _ hneg.le).2
    have hne : sq (-discr J) ≠ 0 := by
      intro h0; rw [h0] at hsq
      exact hneg.ne' (by rw [← hsq]; ring)
    rw [e]
    refine ⟨⟨fun h0 => ?_, fun h0 => absurd h0 hd⟩, div_nonneg (h _ hneg.le).1 (by norm_num), fun _ => ⟨(J.xx + J.yy) / 2, ?_, by ring⟩⟩
    · exact absurd ((div_eq_zero_iff.mp h0).resolve_right two_ne_zero) hne
    · rw [div_pow (sq _), hsq]
      unfold discr
      ring

/-- C138: for gradients without divergence, and at points where there is some strain, the criteria agree on what is a vortex: lambda2
negative, swirling strength positive, residual vorticity not zero, Delta shown, and Nk above 1. -/
theorem C138_agree (h : IsSqrt sq) (J : Jac K) (hd : J.xx + J.yy = 0) :
    (lambda2 sq J < 0 ↔ shearNorm2 J < rotNorm2 J) ∧ (0 < swirl sq J ↔ shearNorm2 J < rotNorm2 J) ∧
    (residual sq J ≠ 0 ↔ shearNorm2 J < rotNorm2 J) ∧ ((delta J).isSome ↔ shearNorm2 J < rotNorm2 J) ∧
    ∀ v, nk sq J = some v → (1 < v ↔ shearNorm2 J < rotNorm2 J) := by
  have hyy : J.yy = -J.xx := by linear_combination hd
  have key : rotNorm2 J - shearNorm2 J = -discr J / 2 := by
    unfold rotNorm2 shearNorm2 discr; rw [hyy]; ring
  have hdis : discr J < 0 ↔ shearNorm2 J < rotNorm2 J := by
    constructor <;> intro h1 <;> linarith
  refine ⟨?_, ?_, ?_, ?_, ?_⟩
  · rw [← hdis]
    have hm : m11 J = m22 J := by unfold m11 m22; rw [hyy]; ring
    have h12 : m12 J = 0 := by unfold m12; rw [hyy]; ring
    unfold lambda2
    rw [hm, h12]
    have h0 : (m22 J - m22 J) ^ 2 + 4 * (0 : K) ^ 2 = 0 := by ring
    rw [h0, sq_zero h]
    have : m22 J + m22 J - 0 = discr J / 2 := by unfold m22 discr; rw [hyy]; ring
    rw [this]
    constructor <;> intro h1 <;> linarith
  · rw [← hdis]
    obtain ⟨h1, h2, _⟩ := C138_swirl h J
    rw [← discr_eigen h] at h1
    change _ ↔ 0 ≤ discr J at h1
    rw [← not_le (a := 0) (b := discr J), ← h1]
    exact ⟨fun h3 => h3.ne', fun h3 => lt_of_le_of_ne h2 (Ne.symm h3)⟩
  · rw [← hdis]
    have h1 : strain sq J < |omega J| ↔ discr J < 0 := by
      rw [strain_lt h]
      unfold discr
      rw [hyy]
      constructor <;> intro h2 <;> linarith
    rw [← h1]
    constructor
    · intro h2
      by_contra hn
      exact h2 (by unfold residual; rw [if_neg hn])
    · intro h2 h3
      have hpos : 0 < |omega J| := lt_of_le_of_lt (strain_nonneg h J) h2
      unfold residual at h3
      rw [if_pos h2, if_neg hpos.ne'] at h3
      exact mul_ne_zero (div_ne_zero (abs_pos.mp hpos) hpos.ne') (sub_pos.mpr h2).ne' h3
  · rw [← hdis]
    unfold delta
    by_cases h1 : 0 ≤ discr J
    · simp [h1, not_lt.mpr h1]
    · simp [h1, not_le.mp h1]
  · intro v hv
    have hs : shearNorm2 J ≠ 0 := by
      intro h0
      rw [shearNorm2_zero] at h0
      rw [(C136_nk_undefined h J).mpr h0] at hv
      cases hv
    obtain ⟨v', h1, _, _, h2⟩ := C136_nk h J hs
    rw [hv] at h1
    cases h1
    exact h2

/-- C138 fails with `raw=True`: `get_lambda2` raises for every field of more than one point. -/
theorem C138_raw_violated (nx ny : Nat) (h : 1 < nx * ny) (last : K) : lambda2Raw nx ny last = .error .exception := by
  unfold lambda2Raw
  rw [if_neg (by omega)]

end

/-! ### cases -/

/-- A vortex under strain that Q misses: strain 4, rotation 6. -/
example : shearNorm2 (⟨0, -1, 5, 0⟩ : Jac ℚ) = 8 ∧ rotNorm2 (⟨0, -1, 5, 0⟩ : Jac ℚ) = 18 ∧ qCrit (⟨0, -1, 5, 0⟩ : Jac ℚ) = 1 := by
  unfold shearNorm2 rotNorm2 qCrit rot2 shear2; norm_num
example : shearNorm2 (⟨2, -1, 7, -2⟩ : Jac ℚ) = 26 ∧ rotNorm2 (⟨2, -1, 7, -2⟩ : Jac ℚ) = 32 ∧ qCrit (⟨2, -1, 7, -2⟩ : Jac ℚ) = -10 := by
  unfold shearNorm2 rotNorm2 qCrit rot2 shear2; norm_num
example : residual Real.sqrt (⟨2, -1, 7, -2⟩ : Jac ℝ) ≠ 0 := by
  have hi : IsSqrt Real.sqrt := fun a ha => ⟨Real.sqrt_nonneg a, Real.sq_sqrt ha⟩
  rw [((C138_agree hi _ (by norm_num)).2.2.1)]
  unfold shearNorm2 rotNorm2; norm_num
/-- The hypotheses of `C135_turned_violated`: a vortex with a divergence. -/
example : residual Real.sqrt (⟨0, -3, 3, 1⟩ : Jac ℝ) ≠ 0 := by
  have hi : IsSqrt Real.sqrt := fun a ha => ⟨Real.sqrt_nonneg a, Real.sq_sqrt ha⟩
  have hs : strain Real.sqrt (⟨0, -3, 3, 1⟩ : Jac ℝ) < |omega (⟨0, -3, 3, 1⟩ : Jac ℝ)| := by
    rw [strain_lt hi]; norm_num
  unfold residual
  have ho : omega (⟨0, -3, 3, 1⟩ : Jac ℝ) = 3 := by unfold omega; norm_num
  rw [if_pos hs]
  have h0 : strain Real.sqrt (⟨0, -3, 3, 1⟩ : Jac ℝ) = 0 := by unfold strain; norm_num
  rw [ho, h0]
  norm_num
example : ∃ d, delta (⟨2, -1, 7, -2⟩ : Jac ℚ) = some d := ⟨_, by unfold delta discr; norm_num; rfl⟩

end IMT.Crit
