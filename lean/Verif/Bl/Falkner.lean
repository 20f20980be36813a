import Verif.Bl.Blasius

/-!
Properties C168 (the similar profiles obey the boundary layer equations) and C169 (shooting method).
-/

namespace IMT.Bl

open Set

/-! ### specification -/

/-- Prandtl's equations of a steady boundary layer at the point `(x, y)`, for the velocity `u` along the wall, some velocity `v`
across it, the velocity `ue` outside and the viscosity `nu`: mass and momentum are conserved. -/
def Prandtl (nu : ℝ) (ue : ℝ → ℝ) (u v : ℝ → ℝ → ℝ) (x y : ℝ) : Prop :=
  ∃ ux uy uyy vy due : ℝ, ∃ uy' : ℝ → ℝ,
    HasDerivAt (fun s => u s y) ux x ∧ HasDerivAt (u x) uy y ∧ HasDerivWithinAt uy' uyy (Ici y) y ∧
    (∀ z, y ≤ z → HasDerivAt (u x) (uy' z) z) ∧ uy' y = uy ∧
    HasDerivAt (v x) vy y ∧ HasDerivAt ue due x ∧
    ux + vy = 0 ∧ u x y * ux + v x y * uy = ue x * due + nu * uyy

/-- A solution, for `t ≥ 0`, of the system of three differential equations given by `deriv`. -/
def Solves (deriv : ℝ × ℝ × ℝ → ℝ × ℝ × ℝ) (f0 f1 f2 : ℝ → ℝ) : Prop :=
  ∀ t, 0 ≤ t → HasDerivAt f0 (deriv (f0 t, f1 t, f2 t)).1 t ∧ HasDerivAt f1 (deriv (f0 t, f1 t, f2 t)).2.1 t ∧
    HasDerivAt f2 (deriv (f0 t, f1 t, f2 t)).2.2 t

/-! ### helpers -/

/-- The equations for a velocity `f1 (y / g x) * ue x`. -/
theorem prandtl_similar {nu m : ℝ} {ue g f0 f1 f2 f3 : ℝ → ℝ} {u : ℝ → ℝ → ℝ} {x y : ℝ} (hx : 0 < x) (hy : 0 ≤ y)
    (hg0 : ∀ s, 0 < s → 0 < g s) (hue : HasDerivAt ue (m * ue x / x) x) (hg : HasDerivAt g ((1 - m) / 2 * g x / x) x)
    (hgu : g x ^ 2 * ue x = nu * x)
    (hu' : ∀ s, 0 < s → ∀ z, u s z = f1 (z / g s) * ue s)
    (h0 : ∀ t, 0 ≤ t → HasDerivAt f0 (f1 t) t) (h1 : ∀ t, 0 ≤ t → HasDerivAt f1 (f2 t) t)
    (h2 : ∀ t, 0 ≤ t → HasDerivAt f2 (f3 t) t)
    (h3 : ∀ t, 0 ≤ t → f3 t = -(m + 1) / 2 * f0 t * f2 t - m * (1 - f1 t ^ 2)) :
    Prandtl nu ue u (fun s z => -(ue s * g s / s) * ((m + 1) / 2 * f0 (z / g s) - (1 - m) / 2 * (z / g s) * f1 (z / g s)))
      x y := by
  have hgx := hg0 x hx
  have hyg : 0 ≤ y / g x := by positivity
  -- along x
  have dxa : HasDerivAt (fun s => y / g s) (-((1 - m) / 2) * (y / g x) / x) x := by
    have := hg.inv hgx.ne'
    exact (this.const_mul y).congr_deriv (by field_simp)
  have dxb : HasDerivAt (fun s => f1 (y / g s)) (f2 (y / g x) * (-((1 - m) / 2) * (y / g x) / x)) x :=
    (h1 _ hyg).comp x dxa
  have dux : HasDerivAt (fun s => u s y)
      (f2 (y / g x) * (-((1 - m) / 2) * (y / g x) / x) * ue x + f1 (y / g x) * (m * ue x / x)) x := by
    refine (dxb.mul hue).congr_of_eventuallyEq ?_
    filter_upwards [isOpen_Ioi.mem_nhds (show x ∈ Ioi (0 : ℝ) from hx)] with s hs
    exact hu' s hs y
  -- along y
  have dz : ∀ z, HasDerivAt (fun z => z / g x) (1 / g x) z := fun z => (hasDerivAt_id z).div_const _
  have dfz : ∀ {f f' : ℝ → ℝ}, (∀ t, 0 ≤ t → HasDerivAt f (f' t) t) → ∀ z, 0 ≤ z →
      HasDerivAt (fun z => f (z / g x)) (f' (z / g x) * (1 / g x)) z := by
    intro f f' hf z hz
    exact (hf _ (by positivity)).comp z (dz z)
  have duy : ∀ z, 0 ≤ z → HasDerivAt (u x) (f2 (z / g x) * (1 / g x) * ue x) z := by
    intro z hz
    have e : u x = fun z => f1 (z / g x) * ue x := by
      funext z
      exact hu' x hx z
    rw [e]
    exact (dfz h1 z hz).mul_const _
  have duyy : HasDerivAt (fun z => f2 (z / g x) * (1 / g x) * ue x) (f3 (y / g x) * (1 / g x) * (1 / g x) * ue x) y :=
    ((dfz h2 y hy).mul_const _).mul_const _
  have dvy : HasDerivAt
      (fun z => -(ue x * g x / x) * ((m + 1) / 2 * f0 (z / g x) - (1 - m) / 2 * (z / g x) * f1 (z / g x)))
      (-(ue x * g x / x) * ((m + 1) / 2 * (f1 (y / g x) * (1 / g x)) -
        ((1 - m) / 2 * (1 / g x) * f1 (y / g x) + (1 - m) / 2 * (y / g x) * (f2 (y / g x) * (1 / g x))))) y := by
    apply HasDerivAt.const_mul
    exact ((dfz h0 y hy).const_mul _).sub (((dz y).const_mul _).mul (dfz h1 y hy))
  refine ⟨_, _, _, _, _, fun z => f2 (z / g x) * (1 / g x) * ue x, dux, duy y hy, duyy.hasDerivWithinAt,
    fun z hz => duy z (hy.trans hz), rfl, dvy, hue, ?_, ?_⟩
  · field_simp
    ring
  · rw [hu' x hx y, h3 _ hyg]
    simp only
    generalize y / g x = η
    have hnu : nu = g x ^ 2 * ue x / x := by rw [hgu]; field_simp
    rw [hnu]
    field_simp
    ring

/-! ### C168: the profiles solve the boundary layer equations -/

/-- The parameters of a Falkner-Skan layer make sense. -/
def Falkner.Phys (k : Falkner) : Prop := 0 < k.nu ∧ 0 < k.c0 ∧ 0 < k.L

theorem Falkner.ue_pos {k : Falkner} (hk : k.Phys) {x : ℝ} (hx : 0 < x) : 0 < k.ue x := by
  have h2 := hk.2.1
  have h3 := hk.2.2
  unfold Falkner.ue
  have := Real.rpow_pos_of_pos (show 0 < x / k.L by positivity) k.m
  positivity

theorem Falkner.ue_deriv {k : Falkner} (hk : k.Phys) {x : ℝ} (hx : 0 < x) :
    HasDerivAt k.ue (k.m * k.ue x / x) x := by
  have h3 := hk.2.2
  have hp : 0 < x / k.L := by positivity
  have h1 : HasDerivAt (fun s => s / k.L) (1 / k.L) x := (hasDerivAt_id x).div_const _
  have := (h1.rpow_const (p := k.m) (Or.inl hp.ne')).const_mul k.c0
  refine this.congr_deriv ?_
  rw [Real.rpow_sub_one hp.ne']
  unfold Falkner.ue
  field_simp

/-- C168: the variable computed by `get_y` is the one of the equation: along the wall, `y^2 u_e = mu^2 nu x`. -/
theorem C168_y {k : Falkner} (hk : k.Phys) {x : ℝ} (hx : 0 < x) (mu : ℝ) :
    k.y x mu ^ 2 * k.ue x = mu ^ 2 * (k.nu * x) ∧ (0 ≤ mu → 0 ≤ k.y x mu) := by
  have h1 := hk.1
  have hu := Falkner.ue_pos hk hx
  refine ⟨?_, fun h => by unfold Falkner.y; positivity⟩
  unfold Falkner.y
  rw [mul_pow, Real.sq_sqrt (by positivity)]
  field_simp

/-- C168: whatever the pressure gradient `m`, a velocity whose profiles are those of `get_profile` obeys the boundary layer
equations everywhere, when the functions given by the solver solve the system written in the code; the velocity across the wall
vanishes at the wall if `f(0) = 0`, and so does the velocity along it if `f'(0) = 0`; far away it is `u_e` if `f'` tends
to 1. -/
theorem C168_prandtl {k : Falkner} (hk : k.Phys) {f0 f1 f2 : ℝ → ℝ} (hf : Solves k.deriv f0 f1 f2) {u : ℝ → ℝ → ℝ}
    (hu : ∀ x, 0 < x → ∀ mus : List ℝ, ∀ r ∈ k.profile f1 mus x, u x r.1 = r.2) :
    ∃ v : ℝ → ℝ → ℝ, (∀ x, 0 < x → ∀ y, 0 ≤ y → Prandtl k.nu k.ue u v x y) ∧
      (f0 0 = 0 → ∀ x, 0 < x → v x 0 = 0) ∧ (f1 0 = 0 → ∀ x, 0 < x → u x 0 = 0) ∧
      (Filter.Tendsto f1 Filter.atTop (nhds 1) → ∀ x, 0 < x → Filter.Tendsto (u x) Filter.atTop (nhds (k.ue x))) := by
  have h1 := hk.1
  have hg0 : ∀ s, 0 < s → 0 < √(k.nu * s / k.ue s) := by
    intro s hs
    have := Falkner.ue_pos hk hs
    exact Real.sqrt_pos.mpr (by positivity)
  have hu' : ∀ s, 0 < s → ∀ z, u s z = f1 (z / √(k.nu * s / k.ue s)) * k.ue s := by
    intro s hs z
    have hg := hg0 s hs
    have := hu s hs [z / √(k.nu * s / k.ue s)] (k.y s (z / √(k.nu * s / k.ue s)), f1 (z / √(k.nu * s / k.ue s)) * k.ue s)
      (by simp [Falkner.profile])
    have e : k.y s (z / √(k.nu * s / k.ue s)) = z := by
      unfold Falkner.y
      exact div_mul_cancel₀ z hg.ne'
    simpa only [e] using this
  refine ⟨_, fun x hx y hy => prandtl_similar (m := k.m) (g := fun s => √(k.nu * s / k.ue s)) (f0 := f0) (f1 := f1) (f2 := f2)
    (f3 := fun t => -(k.m + 1) / 2 * f0 t * f2 t - k.m * (1 - f1 t ^ 2)) hx hy hg0 (Falkner.ue_deriv hk hx) ?_ ?_
    hu' (fun t ht => (hf t ht).1) (fun t ht => (hf t ht).2.1) (fun t ht => (hf t ht).2.2)
    (fun _ _ => rfl), ?_, ?_, ?_⟩
  · have hup := Falkner.ue_pos hk hx
    have hpos : 0 < k.nu * x / k.ue x := by positivity
    have hd : HasDerivAt (fun s => k.nu * s / k.ue s) ((1 - k.m) * (k.nu * x / k.ue x) / x) x := by
      have hn : HasDerivAt (fun s => k.nu * s) k.nu x := by
        simpa using (hasDerivAt_id x).const_mul k.nu
      exact (hn.div (Falkner.ue_deriv hk hx) hup.ne').congr_deriv (by field_simp)
    refine (hd.sqrt hpos.ne').congr_deriv ?_
    have hs := Real.sq_sqrt hpos.le
    have hs0 := hg0 x hx
    rw [show (1 - k.m) * (k.nu * x / k.ue x) / x = (1 - k.m) * √(k.nu * x / k.ue x) ^ 2 / x by rw [hs]]
    field_simp
  · have hup := Falkner.ue_pos hk hx
    rw [Real.sq_sqrt (by positivity)]
    field_simp
  · intro h x hx
    simp [h]
  · intro h x hx
    rw [hu' x hx]
    simp [h]
  · intro h x hx
    have e : u x = fun z => f1 (z / √(k.nu * x / k.ue x)) * k.ue x := funext fun z => hu' x hx z
    rw [e]
    have hz : Filter.Tendsto (fun z : ℝ => z / √(k.nu * x / k.ue x)) Filter.atTop Filter.atTop :=
      Filter.tendsto_id.atTop_div_const (hg0 x hx)
    simpa using (h.comp hz).mul_const (k.ue x)

/-- The flow outside is a solution (uniform profile), and so is, without pressure gradient, a layer blown away from the wall
`f(t) = 6 / (t + 1)`. -/
example (k : Falkner) : Solves k.deriv (fun t => t) (fun _ => 1) (fun _ => 0) := by
  intro t _
  refine ⟨hasDerivAt_id t, hasDerivAt_const t 1, ?_⟩
  simpa [Falkner.deriv] using hasDerivAt_const t (0 : ℝ)

example (k : Falkner) (hm : k.m = 0) :
    Solves k.deriv (fun t => 6 / (t + 1)) (fun t => -6 / (t + 1) ^ 2) (fun t => 12 / (t + 1) ^ 3) := by
  intro t ht
  have hp : t + 1 ≠ 0 := by positivity
  have hl : HasDerivAt (fun s : ℝ => s + 1) 1 t := (hasDerivAt_id t).add_const 1
  refine ⟨?_, ?_, ?_⟩
  · refine ((hasDerivAt_const t (6 : ℝ)).div hl hp).congr_deriv ?_
    simp only [Falkner.deriv]
    field_simp
    try norm_num
    try ring
  · refine ((hasDerivAt_const t (-6 : ℝ)).div (hl.pow 2) (pow_ne_zero 2 hp)).congr_deriv ?_
    simp only [Falkner.deriv]
    field_simp
    try norm_num
    try ring
  · refine ((hasDerivAt_const t (12 : ℝ)).div (hl.pow 3) (pow_ne_zero 3 hp)).congr_deriv ?_
    simp only [Falkner.deriv, hm]
    field_simp
    try norm_num
    try ring

/-- C168: the laminar profiles of `BlasiusBL` obey the boundary layer equations without pressure gradient, and the velocity
they show depends only on `y / √x`. -/
theorem C168_blasius {b : Blasius} (hb : b.Phys) {f0 f1 f2 : ℝ → ℝ} (hf : Solves blasiusDeriv f0 f1 f2) :
    ∃ v : ℝ → ℝ → ℝ, (∀ x, 0 < x → ∀ y, 0 ≤ y → Prandtl b.nu (fun _ => b.U) (b.velocity f1) v x y) ∧
      (f0 0 = 0 → ∀ x, 0 < x → v x 0 = 0) ∧ (f1 0 = 0 → ∀ x, b.velocity f1 x 0 = 0) ∧
      (∀ x y a, 0 < x → 0 < a → b.velocity f1 (a ^ 2 * x) (a * y) = b.velocity f1 x y) := by
  have h1 := hb.1
  have h2 := hb.2
  have hg0 : ∀ s, 0 < s → 0 < √s * √(b.nu / b.U) := by
    intro s hs
    have := Real.sqrt_pos.mpr hs
    have : 0 < √(b.nu / b.U) := Real.sqrt_pos.mpr (by positivity)
    positivity
  refine ⟨_, fun x hx y hy => prandtl_similar (m := 0) (g := fun s => √s * √(b.nu / b.U)) (f0 := f0) (f1 := f1) (f2 := f2)
    (f3 := fun t => -(1 / 2) * f0 t * f2 t) hx hy hg0 ?_ ?_ ?_ (fun s hs z => rfl)
    (fun t ht => (hf t ht).1) (fun t ht => (hf t ht).2.1) (fun t ht => (hf t ht).2.2) (fun t _ => by ring), ?_, ?_, ?_⟩
  · simpa using hasDerivAt_const x b.U
  · have := ((hasDerivAt_id x).sqrt hx.ne').mul_const (√(b.nu / b.U))
    simp only [id_eq] at this
    refine this.congr_deriv ?_
    have hs := Real.sq_sqrt hx.le
    have hs0 := Real.sqrt_pos.mpr hx
    simp only [sub_zero]
    rw [div_mul_eq_mul_div, div_eq_div_iff (by positivity) hx.ne']
    linear_combination -√(b.nu / b.U) * hs
  · rw [mul_pow, Real.sq_sqrt hx.le, Real.sq_sqrt (by positivity)]
    field_simp
  · intro h x hx
    simp [h]
  · intro h x
    simp [Blasius.velocity, Blasius.similar, h]
  · intro x y a hx ha
    have hs0 := Real.sqrt_pos.mpr hx
    have : 0 < √(b.nu / b.U) := Real.sqrt_pos.mpr (by positivity)
    unfold Blasius.velocity Blasius.similar
    rw [Real.sqrt_mul (by positivity), Real.sqrt_sq ha.le]
    congr 2
    field_simp

example : Solves blasiusDeriv (fun t => 6 / (t + 1)) (fun t => -6 / (t + 1) ^ 2) (fun t => 12 / (t + 1) ^ 3) := by
  intro t ht
  have hp : t + 1 ≠ 0 := by positivity
  have hl : HasDerivAt (fun s : ℝ => s + 1) 1 t := (hasDerivAt_id t).add_const 1
  refine ⟨?_, ?_, ?_⟩
  · refine ((hasDerivAt_const t (6 : ℝ)).div hl hp).congr_deriv ?_
    simp only [blasiusDeriv]
    field_simp
    try norm_num
    try ring
  · refine ((hasDerivAt_const t (-6 : ℝ)).div (hl.pow 2) (pow_ne_zero 2 hp)).congr_deriv ?_
    simp only [blasiusDeriv]
    field_simp
    try norm_num
    try ring
  · refine ((hasDerivAt_const t (12 : ℝ)).div (hl.pow 3) (pow_ne_zero 3 hp)).congr_deriv ?_
    simp only [blasiusDeriv]
    field_simp
    try norm_num
    try ring

/-- C168: `get_mu` is not the inverse of `get_y`: one after the other multiply by `√((m + 1) / 2)`, so that they cancel only for
`m = 1`. -/
theorem C168_inverse_violated {k : Falkner} (hk : k.Phys) (hm : -1 < k.m) {x : ℝ} (hx : 0 < x) (mu : ℝ) :
    k.mu x (k.y x mu) = √((k.m + 1) / 2) * mu ∧ (k.m ≠ 1 → mu ≠ 0 → k.mu x (k.y x mu) ≠ mu) := by
  have h1 := hk.1
  have h2 := hk.2.1
  have h3 := hk.2.2
  have hm' : 0 < k.m + 1 := by linarith
  have hp : 0 < x / k.L := by positivity
  have hu := Falkner.ue_pos hk hx
  have key : k.mu x (k.y x mu) = √((k.m + 1) / 2) * mu := by
    have hr : (x / k.L) ^ ((k.m - 1) / 2) = √((x / k.L) ^ (k.m - 1)) := by
      rw [Real.sqrt_eq_rpow, ← Real.rpow_mul hp.le]
      congr 1
      ring
    have hpow := Real.rpow_pos_of_pos hp k.m
    unfold Falkner.mu Falkner.y
    rw [hr, mul_assoc, mul_assoc, ← Real.sqrt_mul (by positivity), ← Real.sqrt_mul (by positivity), mul_comm]
    congr 2
    rw [Real.rpow_sub_one hp.ne']
    unfold Falkner.ue
    field_simp
  refine ⟨key, fun hne h0 he => ?_⟩
  rw [key] at he
  have : √((k.m + 1) / 2) = 1 := by
    have := mul_right_cancel₀ h0 (he.trans (one_mul mu).symm)
    exact this
  rw [Real.sqrt_eq_one] at this
  apply hne
  linarith

example : (⟨1e-6, 0, 1, 1⟩ : Falkner).Phys ∧ -1 < (⟨1e-6, 0, 1, 1⟩ : Falkner).m := by
  refine ⟨⟨by norm_num, by norm_num, by norm_num⟩, by norm_num⟩

/-! ### C169: the shooting method -/

/-- The two ends respond on both sides of the target `1`. -/
def Bracket.Around (k : Bracket) : Prop := (k.ya - 1) * (k.yb - 1) < 0

theorem Bracket.mid_between {k : Bracket} (h : k.ya ≠ 1 ∨ k.yb ≠ 1) : min k.a k.b ≤ k.mid ∧ k.mid ≤ max k.a k.b := by
  have hpos : 0 < |1 - k.yb| + |1 - k.ya| := by
    rcases h with h | h
    · have : 0 < |1 - k.ya| := abs_pos.mpr (sub_ne_zero.mpr (Ne.symm h))
      have := abs_nonneg (1 - k.yb)
      linarith
    · have : 0 < |1 - k.yb| := abs_pos.mpr (sub_ne_zero.mpr (Ne.symm h))
      have := abs_nonneg (1 - k.ya)
      linarith
  have h1 := abs_nonneg (1 - k.yb)
  have h2 := abs_nonneg (1 - k.ya)
  unfold Bracket.mid
  rw [le_div_iff₀ hpos, div_le_iff₀ hpos]
  constructor
  · have := min_le_left k.a k.b
    have := min_le_right k.a k.b
    nlinarith
  · have := le_max_left k.a k.b
    have := le_max_right k.a k.b
    nlinarith

theorem Bracket.cut_around {k : Bracket} (h : k.Around) {y : ℝ} (hy : y ≠ 1) (mid : ℝ) : (k.cut mid y).Around := by
  unfold Bracket.cut
  by_cases hc : (k.ya - 1) * (y - 1) < 0
  · rw [if_pos hc]
    exact hc
  · rw [if_neg hc]
    show (y - 1) * (k.yb - 1) < 0
    unfold Bracket.Around at h
    have hy' : y - 1 ≠ 0 := sub_ne_zero.mpr hy
    rcases lt_or_gt_of_ne hy' with h1 | h1
    · have : k.ya - 1 ≤ 0 := by nlinarith
      have h2 : 0 < k.yb - 1 := by nlinarith
      exact mul_neg_of_neg_of_pos h1 h2
    · have : 0 ≤ k.ya - 1 := by nlinarith
      have h2 : k.yb - 1 < 0 := by nlinarith
      exact mul_neg_of_pos_of_neg h1 h2

/-- What the loop preserves: the ends lie in `[lo, hi]`, with their responses, on both sides of the target; the first end may
respond exactly. -/
structure Bracket.Good (k : Bracket) (g : ℝ → ℝ) (lo hi : ℝ) : Prop where
  loa : lo ≤ k.a
  ahi : k.a ≤ hi
  lob : lo ≤ k.b
  bhi : k.b ≤ hi
  ra : k.ya = g k.a
  rb : k.yb ≠ 1
  sign : k.Around ∨ k.ya = 1

theorem Bracket.Good.mid {k : Bracket} {g : ℝ → ℝ} {lo hi : ℝ} (h : k.Good g lo hi) : lo ≤ k.mid ∧ k.mid ≤ hi := by
  obtain ⟨h1, h2⟩ := Bracket.mid_between (Or.inr h.rb)
  exact ⟨(le_min h.loa h.lob).trans h1, h2.trans (max_le h.ahi h.bhi)⟩

theorem Bracket.mid_exact {k : Bracket} (h : k.ya = 1) (hb : k.yb ≠ 1) : k.mid = k.a := by
  have : 0 < |1 - k.yb| := abs_pos.mpr (sub_ne_zero.mpr (Ne.symm hb))
  unfold Bracket.mid
  rw [h]
  simp only [sub_self, abs_zero, mul_zero, add_zero]
  field_simp

theorem Bracket.Good.cut {k : Bracket} {g : ℝ → ℝ} {lo hi : ℝ} (h : k.Good g lo hi) :
    (k.cut k.mid (g k.mid)).Good g lo hi := by
  obtain ⟨m1, m2⟩ := h.mid
  by_cases hc : (k.ya - 1) * (g k.mid - 1) < 0
  · rw [Bracket.cut, if_pos hc]
    refine ⟨h.loa, h.ahi, m1, m2, h.ra, ?_, Or.inl hc⟩
    intro e
    simp only at e
    rw [e] at hc
    simp at hc
  · by_cases hy : g k.mid = 1
    · rw [Bracket.cut, if_neg hc]
      exact ⟨m1, m2, h.lob, h.bhi, rfl, h.rb, Or.inr hy⟩
    · rcases h.sign with h5 | h5
      · have := Bracket.cut_around h5 hy k.mid
        rw [Bracket.cut, if_neg hc] at this ⊢
        exact ⟨m1, m2, h.lob, h.bhi, rfl, h.rb, Or.inl this⟩
      · rw [Bracket.mid_exact h5 h.rb, ← h.ra] at hy
        exact absurd h5 hy

theorem shoot_between {g : ℝ → ℝ} {relerr : ℝ} {verbose : Bool} {lo hi : ℝ} : ∀ (n : ℕ) (mid : ℝ) (k : Bracket), k.Good g lo hi →
    (lo ≤ mid ∧ mid ≤ hi ∨ 1e-10 ≤ |k.mid - mid|) →
    lo ≤ shoot g relerr verbose n mid k ∧ shoot g relerr verbose n mid k ≤ hi := by
  intro n
  induction n with
  | zero =>
    intro mid k hk hm
    rw [shoot]
    by_cases h : |k.mid - mid| < 1e-10
    · rw [if_pos h]
      rcases hm with hm | hm
      · exact hm
      · exact absurd h (not_lt.mpr hm)
    · rw [if_neg h]
      exact hk.mid
  | succ n ih =>
    intro mid k hk hm
    rw [shoot]
    by_cases h : |k.mid - mid| < 1e-10
    · rw [if_pos h]
      rcases hm with hm | hm
      · exact hm
      · exact absurd h (not_lt.mpr hm)
    · rw [if_neg h]
      by_cases h2 : shotError (g k.mid) < relerr ∧ verbose = true
      · rw [if_pos h2]
        exact hk.mid
      · rw [if_neg h2]
        exact ih _ _ hk.cut (Or.inl hk.mid)

/-- C169: whatever the response `g` and the number of turns, the value found by the shooting method lies between the two first
guesses, provided they respond on both sides of the target. -/
theorem C169_between {g : ℝ → ℝ} {a b : ℝ} (h : (g a - 1) * (g b - 1) < 0) (ha : |a| ≤ 1e29) (hb : |b| ≤ 1e29) (relerr : ℝ)
    (maxIt : ℕ) (verbose : Bool) :
    wallSlope g relerr maxIt verbose ⟨a, b, g a, g b⟩ ∈ Icc (min a b) (max a b) := by
  have hg : (⟨a, b, g a, g b⟩ : Bracket).Good g (min a b) (max a b) :=
    ⟨min_le_left _ _, le_max_left _ _, min_le_right _ _, le_max_right _ _, rfl, by
      intro e
      simp only at e
      rw [e] at h
      simp at h, Or.inl h⟩
  refine shoot_between _ _ _ hg (Or.inr ?_)
  obtain ⟨_, m2⟩ := hg.mid
  have : max a b ≤ 1e29 := max_le ((le_abs_self a).trans ha) ((le_abs_self b).trans hb)
  rw [abs_sub_comm]
  refine le_trans ?_ (le_abs_self _)
  have h3 := m2.trans this
  norm_num at h3 ⊢
  linarith

theorem shoot_exact {g : ℝ → ℝ} {relerr : ℝ} {verbose : Bool} (n : ℕ) {mid : ℝ} {k : Bracket} {lo hi : ℝ} (hk : k.Good g lo hi)
    (h1 : g k.mid = 1) (h2 : 1e-10 ≤ |k.mid - mid|) : shoot g relerr verbose n mid k = k.mid := by
  cases n with
  | zero => rw [shoot, if_neg (not_lt.mpr h2)]
  | succ n =>
    rw [shoot, if_neg (not_lt.mpr h2)]
    by_cases h3 : shotError (g k.mid) < relerr ∧ verbose = true
    · rw [if_pos h3]
    · rw [if_neg h3]
      have hc : k.cut k.mid (g k.mid) = ⟨k.mid, k.b, 1, k.yb⟩ := by
        rw [Bracket.cut, if_neg (by rw [h1]; simp), h1]
      have hm : (⟨k.mid, k.b, 1, k.yb⟩ : Bracket).mid = k.mid := Bracket.mid_exact rfl hk.rb
      rw [hc]
      cases n with
      | zero => rw [shoot, hm, if_pos (by norm_num)]
      | succ n => rw [shoot, hm, if_pos (by norm_num)]

/-- C169: when the response is affine, the first shot is exact, and it is the value returned. -/
theorem C169_affine {p q : ℝ} {a b : ℝ} (h : (p * a + q - 1) * (p * b + q - 1) < 0) (ha : |a| ≤ 1e29) (hb : |b| ≤ 1e29)
    (relerr : ℝ) (maxIt : ℕ) (verbose : Bool) :
    p * wallSlope (fun t => p * t + q) relerr maxIt verbose ⟨a, b, p * a + q, p * b + q⟩ + q = 1 := by
  set g : ℝ → ℝ := fun t => p * t + q with hgd
  have hg : (⟨a, b, g a, g b⟩ : Bracket).Good g (min a b) (max a b) :=
    ⟨min_le_left _ _, le_max_left _ _, min_le_right _ _, le_max_right _ _, rfl, by
      intro e
      simp only [hgd] at e
      rw [e] at h
      simp at h, Or.inl h⟩
  have hroot : g (⟨a, b, g a, g b⟩ : Bracket).mid = 1 := by
    simp only [hgd, Bracket.mid]
    rcases lt_or_gt_of_ne (show p * a + q - 1 ≠ 0 by intro e; rw [e] at h; simp at h) with h1 | h1
    · have h2 : 0 < p * b + q - 1 := by nlinarith
      rw [abs_of_neg (show 1 - (p * b + q) < 0 by linarith), abs_of_pos (show 0 < 1 - (p * a + q) by linarith)]
      have h3 : -(1 - (p * b + q)) + (1 - (p * a + q)) ≠ 0 := by linarith
      field_simp
      ring
    · have h2 : p * b + q - 1 < 0 := by nlinarith
      rw [abs_of_pos (show 0 < 1 - (p * b + q) by linarith), abs_of_neg (show 1 - (p * a + q) < 0 by linarith)]
      have h3 : 1 - (p * b + q) + -(1 - (p * a + q)) ≠ 0 := by linarith
      field_simp
      ring
  have hfar : (1e-10 : ℝ) ≤ |(⟨a, b, g a, g b⟩ : Bracket).mid - 1e30| := by
    obtain ⟨_, m2⟩ := hg.mid
    have : max a b ≤ 1e29 := max_le ((le_abs_self a).trans ha) ((le_abs_self b).trans hb)
    rw [abs_sub_comm]
    refine le_trans ?_ (le_abs_self _)
    have h3 := m2.trans this
    norm_num at h3 ⊢
    linarith
  have e : wallSlope g relerr maxIt verbose ⟨a, b, g a, g b⟩ = (⟨a, b, g a, g b⟩ : Bracket).mid :=
    shoot_exact _ hg hroot hfar
  show p * wallSlope g relerr maxIt verbose ⟨a, b, g a, g b⟩ + q = 1
  rw [e]
  exact hroot

theorem shoot_tolerance (g : ℝ → ℝ) (r r' : ℝ) : ∀ (n : ℕ) (mid : ℝ) (k : Bracket),
    shoot g r false n mid k = shoot g r' false n mid k := by
  intro n
  induction n with
  | zero => intro mid k; rfl
  | succ n ih =>
    intro mid k
    rw [shoot, shoot]
    by_cases h : |k.mid - mid| < 1e-10
    · rw [if_pos h, if_pos h]
    · rw [if_neg h, if_neg h, if_neg (by simp), if_neg (by simp)]
      exact ih _ _

/-- C169: without messages, the wanted accuracy is ignored: the answer is the same for every `relerr`. -/
theorem C169_tolerance_violated (g : ℝ → ℝ) (maxIt : ℕ) (k : Bracket) (relerr relerr' : ℝ) :
    wallSlope g relerr maxIt false k = wallSlope g relerr' maxIt false k := shoot_tolerance g relerr relerr' _ _ _

/-- C169: asking for messages changes the answer: with messages, a first shot within the accuracy is returned; without, the search
goes on. -/
theorem C169_verbose_violated : ∃ (g : ℝ → ℝ) (k : Bracket), k.ya = g k.a ∧ k.yb = g k.b ∧ k.Around ∧
    wallSlope g 10 0 true k ≠ wallSlope g 10 0 false k := by
  -- `g t = t^2` between 0 and 2: the first shot is `1/2`, the second one `4/5`
  have e1 : (⟨0, 2, 0, 4⟩ : Bracket).mid = 1 / 2 := by
    unfold Bracket.mid
    norm_num
  have c1 : (⟨0, 2, 0, 4⟩ : Bracket).cut (1 / 2) ((1 / 2) ^ 2) = ⟨1 / 2, 2, 1 / 4, 4⟩ := by
    rw [Bracket.cut, if_neg (by norm_num)]
    norm_num
  have e2 : (⟨1 / 2, 2, 1 / 4, 4⟩ : Bracket).mid = 4 / 5 := by
    unfold Bracket.mid
    norm_num [abs_of_pos, abs_of_neg]
  have n1 : ¬ |(1 : ℝ) / 2 - 1e30| < 1e-10 := by norm_num [abs_of_neg]
  have n2 : ¬ |(4 : ℝ) / 5 - 1 / 2| < 1e-10 := by norm_num [abs_of_pos]
  refine ⟨fun t => t ^ 2, ⟨0, 2, 0, 4⟩, by norm_num, by norm_num, by unfold Bracket.Around; norm_num, ?_⟩
  have v : wallSlope (fun t => t ^ 2) 10 0 true ⟨0, 2, 0, 4⟩ = 1 / 2 := by
    show shoot _ _ _ 1 _ _ = _
    rw [shoot, e1, if_neg n1, if_pos ⟨by unfold shotError; norm_num [abs_of_neg], rfl⟩]
  have w : wallSlope (fun t => t ^ 2) 10 0 false ⟨0, 2, 0, 4⟩ = 4 / 5 := by
    show shoot _ _ _ 1 _ _ = _
    rw [shoot, e1, if_neg n1, if_neg (by simp)]
    rw [c1, shoot, e2, if_neg n2]
  rw [v, w]
  norm_num

/-- The brackets met one after the other. -/
noncomputable def Bracket.next (g : ℝ → ℝ) (k : Bracket) : Bracket := k.cut k.mid (g k.mid)

theorem shoot_stops (g : ℝ → ℝ) (relerr : ℝ) : ∀ (n : ℕ) (mid : ℝ) (k : Bracket), 1e-10 ≤ |k.mid - mid| →
    ∃ j, j ≤ n ∧ shoot g relerr true n mid k = ((Bracket.next g)^[j] k).mid ∧
      (∀ i, i < j → relerr ≤ shotError (g ((Bracket.next g)^[i] k).mid)) ∧
      (shotError (g ((Bracket.next g)^[j] k).mid) < relerr ∨ j = n ∨
        |((Bracket.next g)^[j + 1] k).mid - ((Bracket.next g)^[j] k).mid| < 1e-10) := by
  intro n
  induction n with
  | zero =>
    intro mid k h
    exact ⟨0, le_refl _, by rw [shoot, if_neg (not_lt.mpr h)]; rfl, fun i hi => absurd hi (by simp), Or.inr (Or.inl rfl)⟩
  | succ n ih =>
    intro mid k h
    by_cases h2 : shotError (g k.mid) < relerr ∧ true = true
    · exact ⟨0, by simp, by rw [shoot, if_neg (not_lt.mpr h), if_pos h2]; rfl, fun i hi => absurd hi (by simp), Or.inl h2.1⟩
    · have e : shoot g relerr true (n + 1) mid k = shoot g relerr true n k.mid (Bracket.next g k) := by
        rw [shoot, if_neg (not_lt.mpr h), if_neg h2]
        rfl
      have h2' : relerr ≤ shotError (g k.mid) := by
        by_contra h3
        exact h2 ⟨not_le.mp h3, rfl⟩
      by_cases h3 : |(Bracket.next g k).mid - k.mid| < 1e-10
      · refine ⟨0, by simp, ?_, fun i hi => absurd hi (by simp), Or.inr (Or.inr (by simpa using h3))⟩
        rw [e]
        cases n with
        | zero => rw [shoot, if_pos h3]; rfl
        | succ n => rw [shoot, if_pos h3]; rfl
      · obtain ⟨j, hj, e2, h4, h5⟩ := ih k.mid (Bracket.next g k) (not_lt.mp h3)
        refine ⟨j + 1, by omega, by rw [e, e2, Function.iterate_succ_apply], ?_, ?_⟩
        · intro i hi
          cases i with
          | zero => exact h2'
          | succ i =>
            rw [Function.iterate_succ_apply]
            exact h4 i (by omega)
        · rw [Function.iterate_succ_apply, Function.iterate_succ_apply]
          rcases h5 with h5 | h5 | h5
          · exact Or.inl h5
          · exact Or.inr (Or.inl (by omega))
          · exact Or.inr (Or.inr h5)

/-- C169: with messages, the value returned is one of the shots, the first one within the accuracy, unless two successive shots
are closer than `1e-10` or `max_it + 2` shots have been made. -/
theorem C169_stops_partial {g : ℝ → ℝ} {a b : ℝ} (h : (g a - 1) * (g b - 1) < 0) (ha : |a| ≤ 1e29) (hb : |b| ≤ 1e29)
    (relerr : ℝ) (maxIt : ℕ) :
    ∃ shots : List ℝ, ∃ last : ℝ, wallSlope g relerr maxIt true ⟨a, b, g a, g b⟩ = last ∧
      (∀ t ∈ shots, relerr ≤ shotError (g t)) ∧ shots.length + 1 ≤ maxIt + 2 ∧
      (shotError (g last) < relerr ∨ shots.length + 1 = maxIt + 2 ∨
        ∃ k : Bracket, k.Good g (min a b) (max a b) ∧ (k.a = last ∨ k.b = last) ∧ |k.mid - last| < 1e-10) := by
  have hg : (⟨a, b, g a, g b⟩ : Bracket).Good g (min a b) (max a b) :=
    ⟨min_le_left _ _, le_max_left _ _, min_le_right _ _, le_max_right _ _, rfl, by
      intro e
      simp only at e
      rw [e] at h
      simp at h, Or.inl h⟩
  have hfar : (1e-10 : ℝ) ≤ |(⟨a, b, g a, g b⟩ : Bracket).mid - 1e30| := by
    obtain ⟨_, m2⟩ := hg.mid
    have : max a b ≤ 1e29 := max_le ((le_abs_self a).trans ha) ((le_abs_self b).trans hb)
    rw [abs_sub_comm]
    refine le_trans ?_ (le_abs_self _)
    have h3 := m2.trans this
    norm_num at h3 ⊢
    linarith
  have hgood : ∀ i, ((Bracket.next g)^[i] ⟨a, b, g a, g b⟩).Good g (min a b) (max a b) := by
    intro i
    induction i with
    | zero => exact hg
    | succ i ih =>
      rw [Function.iterate_succ_apply']
      exact ih.cut
  obtain ⟨j, hj, e, h4, h5⟩ := shoot_stops g relerr (maxIt + 1) 1e30 ⟨a, b, g a, g b⟩ hfar
  refine ⟨(List.range j).map fun i => ((Bracket.next g)^[i] ⟨a, b, g a, g b⟩).mid, _, e, ?_, by simpa using hj, ?_⟩
  · intro t ht
    obtain ⟨i, hi, rfl⟩ := List.mem_map.mp ht
    exact h4 i (List.mem_range.mp hi)
  · rcases h5 with h5 | h5 | h5
    · exact Or.inl h5
    · exact Or.inr (Or.inl (by simp [h5]))
    · refine Or.inr (Or.inr ⟨_, hgood (j + 1), ?_, h5⟩)
      rw [Function.iterate_succ_apply']
      unfold Bracket.next Bracket.cut
      split_ifs
      · exact Or.inr rfl
      · exact Or.inl rfl

/-- A response with a bracket: `t^2` between 0 and 2. -/
example : (((0 : ℝ) ^ 2 - 1) * ((2 : ℝ) ^ 2 - 1) < 0) := by norm_num

end IMT.Bl
