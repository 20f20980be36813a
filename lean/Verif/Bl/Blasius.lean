import Verif.Bl.Model
import Mathlib.Analysis.SpecialFunctions.Pow.Deriv
import Mathlib.Analysis.SpecialFunctions.Sqrt
import Mathlib.Tactic.NormNum.RealSqrt
import Mathlib.Topology.Algebra.Order.Field

/-!
Properties C165 (Blasius boundary layer), C166 (position from the thickness) and C167 (confined boundary layer).
-/

namespace IMT.Bl

/-- The physical constants make sense. -/
def Blasius.Phys (b : Blasius) : Prop := 0 < b.U ∧ 0 < b.nu

/-! ### helpers -/

theorem Blasius.re_pos {b : Blasius} (hb : b.Phys) {x : ℝ} (hx : 0 < x) : 0 < b.re x := by
  have h1 := hb.1
  have h2 := hb.2
  unfold Blasius.re
  positivity

theorem Blasius.re_mono {b : Blasius} (hb : b.Phys) {x x' : ℝ} (h : x < x') : b.re x < b.re x' := by
  have h1 := hb.1
  have h2 := hb.2
  unfold Blasius.re
  gcongr

/-- Positions and Reynolds numbers carry the same information. -/
theorem Blasius.of_re {b : Blasius} (hb : b.Phys) (x : ℝ) : x = b.nu / b.U * b.re x := by
  have h1 := hb.1.ne'
  have h2 := hb.2.ne'
  unfold Blasius.re
  field_simp

theorem div_sqrt_self {r : ℝ} : r / √r = √r := Real.div_sqrt

theorem div_rpow_fifth {r : ℝ} (hr : 0 < r) : r / r ^ (0.2 : ℝ) = r ^ (0.8 : ℝ) := by
  rw [eq_comm, show (0.8 : ℝ) = 1 - 0.2 by norm_num, Real.rpow_sub hr, Real.rpow_one]

/-- The laminar thickness as a function of the Reynolds number. -/
theorem laminar_delta {b : Blasius} (hb : b.Phys) (c x : ℝ) :
    (b.laminar c x).delta = b.nu / b.U * (c * √(b.re x)) := by
  have e : (b.laminar c x).delta = x * c / √(b.re x) := rfl
  rw [e]
  conv_lhs => rw [Blasius.of_re hb x]
  rw [← div_sqrt_self (r := b.re x)]
  have : b.re (b.nu / b.U * b.re x) = b.re x := by rw [← Blasius.of_re hb x]
  rw [this]
  ring

/-- The turbulent thickness as a function of the Reynolds number. -/
theorem turbulent_delta {b : Blasius} (hb : b.Phys) {x : ℝ} (hx : 0 < x) :
    (b.turbulent x).delta = b.nu / b.U * (0.3806 * b.re x ^ (0.8 : ℝ)) := by
  have e : (b.turbulent x).delta = x * 0.3806 / b.re x ^ (0.2 : ℝ) := rfl
  rw [e]
  conv_lhs => rw [Blasius.of_re hb x]
  have : b.re (b.nu / b.U * b.re x) = b.re x := by rw [← Blasius.of_re hb x]
  rw [this, ← div_rpow_fifth (Blasius.re_pos hb hx)]
  ring

/-- A number is below a fractional power when its fifth power is below the fourth power. -/
theorem lt_rpow_of_pow {a r : ℝ} (ha : 0 ≤ a) (hr : 0 ≤ r) (h : a ^ 5 < r ^ 4) : a < r ^ (0.8 : ℝ) := by
  have e : r ^ (0.8 : ℝ) = (r ^ 4) ^ ((1 : ℝ) / 5) := by
    rw [← Real.rpow_natCast r 4, ← Real.rpow_mul hr]
    norm_num
  have e2 : a = (a ^ 5) ^ ((1 : ℝ) / 5) := by
    rw [← Real.rpow_natCast a 5, ← Real.rpow_mul ha]
    norm_num
  rw [e, e2]
  exact Real.rpow_lt_rpow (by positivity) h (by norm_num)

/-- After the transition, the turbulent layer is thicker than the laminar one would be. -/
theorem laminar_lt_turbulent {r : ℝ} (hr : 5e5 ≤ r) : 4.92 * √r < 0.3806 * r ^ (0.8 : ℝ) := by
  have h0 : (0 : ℝ) < r := by linarith
  have hs : √r ^ 2 = r := Real.sq_sqrt h0.le
  have hs0 : 0 < √r := Real.sqrt_pos.mpr h0
  have key : 13 * √r < r ^ (0.8 : ℝ) := by
    apply lt_rpow_of_pow (by positivity) h0.le
    have h1 : (707 : ℝ) ≤ √r := by
      rw [show (707 : ℝ) = √(707 ^ 2) by rw [Real.sqrt_sq (by norm_num)]]
      exact Real.sqrt_le_sqrt (by linarith)
    have e : r ^ 4 = √r ^ 5 * √r ^ 3 := by
      conv_lhs => rw [← hs]
      ring
    rw [e, mul_pow, mul_comm]
    have h3 : (707 : ℝ) ^ 3 ≤ √r ^ 3 := by gcongr
    have h5 : 0 < √r ^ 5 := by positivity
    nlinarith
  nlinarith

theorem turns_ok {b : Blasius} {turb : Bool} {q : Perc} {c : ℝ} : ∀ {xs : List ℝ} {r : List Props},
    b.turns turb q c xs = .ok r → List.Forall₂ (fun x p => b.turn turb q c x = .ok p) xs r := by
  intro xs
  induction xs with
  | nil =>
    intro r h
    simp only [Blasius.turns, Except.ok.injEq] at h
    subst h
    exact .nil
  | cons x l ih =>
    intro r h
    simp only [Blasius.turns] at h
    cases e : b.turn turb q c x with
    | error _ => rw [e] at h; simp at h
    | ok p =>
      rw [e] at h
      cases e2 : b.turns turb q c l with
      | error _ => rw [e2] at h; simp at h
      | ok s =>
        rw [e2] at h
        simp only [Except.ok.injEq] at h
        subst h
        exact .cons e (ih e2)

theorem turns_of_all {b : Blasius} {turb : Bool} {q : Perc} {c : ℝ} : ∀ {xs : List ℝ},
    (∀ x ∈ xs, ∃ p, b.turn turb q c x = .ok p) → ∃ r, b.turns turb q c xs = .ok r := by
  intro xs
  induction xs with
  | nil => intro _; exact ⟨[], rfl⟩
  | cons x l ih =>
    intro h
    obtain ⟨p, hp⟩ := h x (by simp)
    obtain ⟨r, hr⟩ := ih fun y hy => h y (by simp [hy])
    exact ⟨p :: r, by simp only [Blasius.turns, hp, hr]⟩

theorem turns_error {b : Blasius} {turb : Bool} {q : Perc} {c : ℝ} : ∀ {xs : List ℝ},
    (∃ x ∈ xs, b.turn turb q c x = .error .exception) → b.turns turb q c xs = .error .exception := by
  intro xs
  induction xs with
  | nil => rintro ⟨x, hx, _⟩; simp at hx
  | cons x l ih =>
    rintro ⟨y, hy, he⟩
    simp only [Blasius.turns]
    cases e : b.turn turb q c x with
    | error s =>
      have : s = .exception := by
        unfold Blasius.turn at e
        split_ifs at e
        simpa using e.symm
      simp [this]
    | ok p =>
      have hy' : y ∈ l := by
        rcases List.mem_cons.1 hy with rfl | h
        · rw [e] at he; simp at he
        · exact h
      rw [ih ⟨y, hy', he⟩]

/-! ### specification -/

/-- The answer of `get_BL_properties(x)` for a single position. -/
def Blasius.Gives (b : Blasius) (turb : Bool) (q : Perc) (x : ℝ) (p : Props) : Prop :=
  b.properties turb q [x] = .ok [p]

theorem gives_iff {b : Blasius} {turb : Bool} {q : Perc} {c : ℝ} (hc : q.coef = .ok c) {x : ℝ} {p : Props} :
    b.Gives turb q x p ↔ b.turn turb q c x = .ok p := by
  unfold Blasius.Gives Blasius.properties
  rw [hc]
  simp only [Blasius.turns]
  cases b.turn turb q c x with
  | error _ => simp
  | ok _ => simp

theorem gives_coef {b : Blasius} {turb : Bool} {q : Perc} {x : ℝ} {p : Props} (h : b.Gives turb q x p) :
    ∃ c, q.coef = .ok c := by
  cases q with
  | other => simp [Blasius.Gives, Blasius.properties, Perc.coef] at h
  | p95 => exact ⟨_, rfl⟩
  | p99 => exact ⟨_, rfl⟩

/-- The position lies in the laminar part. -/
def Blasius.Laminar (b : Blasius) (turb : Bool) (x : ℝ) : Prop := 0 < x ∧ b.U * x / b.nu < 5e5 ∧ turb = false

/-- The position lies in the turbulent part. -/
def Blasius.Turbulent (b : Blasius) (turb : Bool) (x : ℝ) : Prop := 0 < x ∧ (5e5 ≤ b.U * x / b.nu ∨ turb = true)

theorem gives_laminar {b : Blasius} {turb : Bool} {q : Perc} {c x : ℝ} (hc : q.coef = .ok c) (hx : b.Laminar turb x) :
    b.Gives turb q x (b.laminar c x) := by
  rw [gives_iff hc, Blasius.turn, if_neg hx.1.ne', if_pos ⟨hx.2.1, hx.2.2⟩]

theorem gives_turbulent {b : Blasius} {turb : Bool} {x : ℝ} (hx : b.Turbulent turb x) :
    b.Gives turb .p99 x (b.turbulent x) := by
  have hn : ¬ (b.re x < 5e5 ∧ turb = false) := by
    rintro ⟨h1, h2⟩
    rcases hx.2 with h | h
    · exact absurd h1 (not_lt.mpr h)
    · rw [h] at h2; exact absurd h2 (by simp)
  rw [gives_iff (c := 4.91) rfl, Blasius.turn, if_neg hx.1.ne', if_neg hn, if_neg (by simp)]

theorem gives_edge {b : Blasius} {turb : Bool} {q : Perc} {c : ℝ} (hc : q.coef = .ok c) : b.Gives turb q 0 edge := by
  rw [gives_iff hc, Blasius.turn, if_pos rfl]

theorem Blasius.Gives.eq {b : Blasius} {turb : Bool} {q : Perc} {x : ℝ} {p p' : Props} (h : b.Gives turb q x p)
    (h' : b.Gives turb q x p') : p = p' := by
  unfold Blasius.Gives at h h'
  rw [h] at h'
  simpa using h'

/-! ### C165: the boundary layer along the plate -/

/-- C165: an array of positions gives, at each of them, exactly what is given for this position alone. -/
theorem C165_pointwise {b : Blasius} {turb : Bool} {q : Perc} {xs : List ℝ} {r : List Props}
    (h : b.properties turb q xs = .ok r) : List.Forall₂ (b.Gives turb q) xs r := by
  cases e : q.coef with
  | error _ => simp [Blasius.properties, e] at h
  | ok c =>
    simp only [Blasius.properties, e] at h
    refine (turns_ok h).imp fun x p hp => ?_
    rw [gives_iff e]
    exact hp

/-- C165: the laminar layer grows as the square root of the distance: for the thickness at 99 %, `delta^2 U = 4.91^2 nu x`,
for the momentum thickness `theta^2 U = 0.664^2 nu x`, and the displacement thickness is the shape factor times the momentum
thickness. -/
theorem C165_laminar {b : Blasius} (hb : b.Phys) {turb : Bool} {q : Perc} {x : ℝ} (hx : b.Laminar turb x)
    (hq : q ≠ .other) : ∃ p, b.Gives turb q x p ∧ 0 < p.delta ∧ 0 < p.theta ∧
      p.delta ^ 2 * b.U = (if q = .p95 then 3.92 else 4.91) ^ 2 * (b.nu * x) ∧
      p.theta ^ 2 * b.U = 0.664 ^ 2 * (b.nu * x) ∧ p.dstar = p.H * p.theta ∧
      p.Cf ^ 2 * p.Re = 0.664 ^ 2 ∧ 0 < p.Cf ∧ p.tau = p.Cf / 2 * b.rho * b.U ^ 2 ∧ p.Re = b.U * x / b.nu := by
  have h1 := hb.1
  have h2 := hb.2
  have hx0 := hx.1
  have hre := Blasius.re_pos hb hx0
  have hs : √(b.re x) ^ 2 = b.re x := Real.sq_sqrt hre.le
  have hs0 : 0 < √(b.re x) := Real.sqrt_pos.mpr hre
  have ht : √(b.nu * x / b.U) ^ 2 = b.nu * x / b.U := Real.sq_sqrt (by positivity)
  have ht0 : 0 < √(b.nu * x / b.U) := Real.sqrt_pos.mpr (by positivity)
  have hc : ∃ c : ℝ, q.coef = .ok c ∧ c = (if q = .p95 then 3.92 else 4.91) ∧ 0 < c := by
    cases q with
    | p95 => exact ⟨3.92, rfl, by simp, by norm_num⟩
    | p99 => exact ⟨4.91, rfl, by simp, by norm_num⟩
    | other => exact absurd rfl hq
  obtain ⟨c, hc, hcv, hc0⟩ := hc
  refine ⟨_, gives_laminar hc hx, ?_, ?_, ?_, ?_, ?_, ?_, ?_, ?_, rfl⟩
  · show 0 < x * c / √(b.re x)
    positivity
  · show 0 < 0.664 * √(b.nu * x / b.U)
    positivity
  · rw [laminar_delta hb, ← hcv, mul_pow, mul_pow, hs]
    unfold Blasius.re
    field_simp
  · show (0.664 * √(b.nu * x / b.U)) ^ 2 * b.U = _
    rw [mul_pow, ht]
    field_simp
  · show 0.664 * √(b.nu * x / b.U) * 2.59 = 2.59 * (0.664 * √(b.nu * x / b.U))
    ring
  · show (0.664 / √(b.re x)) ^ 2 * b.re x = _
    rw [div_pow, hs]
    field_simp
  · show 0 < 0.664 / √(b.re x)
    positivity
  · show 0.664 / √(b.re x) * (1 / 2) * b.rho * b.U ^ 2 = 0.664 / √(b.re x) / 2 * b.rho * b.U ^ 2
    ring

/-- C165: in the turbulent part the thickness grows as the distance to the power `4/5`:
`(delta Re^(1/5))  = 0.3806 x`, and `Cf Re^(1/5) = 0.0592`. -/
theorem C165_turbulent {b : Blasius} (hb : b.Phys) {turb : Bool} {x : ℝ} (hx : b.Turbulent turb x) :
    ∃ p, b.Gives turb .p99 x p ∧ 0 < p.delta ∧ 0 < p.Cf ∧ p.delta ^ 5 * p.Re = 0.3806 ^ 5 * x ^ 5 ∧
      p.Cf ^ 5 * p.Re = 0.0592 ^ 5 ∧ p.tau = p.Cf / 2 * b.rho * b.U ^ 2 ∧ p.Re = b.U * x / b.nu := by
  have hx0 := hx.1
  have hre := Blasius.re_pos hb hx0
  have hp : (b.re x ^ (0.2 : ℝ)) ^ 5 = b.re x := by
    rw [← Real.rpow_natCast, ← Real.rpow_mul hre.le]
    norm_num
  have hp0 : 0 < b.re x ^ (0.2 : ℝ) := Real.rpow_pos_of_pos hre _
  refine ⟨_, gives_turbulent hx, ?_, ?_, ?_, ?_, ?_, rfl⟩
  · show 0 < x * 0.3806 / b.re x ^ (0.2 : ℝ)
    positivity
  · show 0 < 0.0592 / b.re x ^ (0.2 : ℝ)
    positivity
  · show (x * 0.3806 / b.re x ^ (0.2 : ℝ)) ^ 5 * b.re x = _
    rw [div_pow, hp]
    field_simp
  · show (0.0592 / b.re x ^ (0.2 : ℝ)) ^ 5 * b.re x = _
    rw [div_pow, hp]
    field_simp
  · show 0.0592 / b.re x ^ (0.2 : ℝ) * (1 / 2) * b.rho * b.U ^ 2 = 0.0592 / b.re x ^ (0.2 : ℝ) / 2 * b.rho * b.U ^ 2
    ring

/-- C165: the layer has no thickness at the edge of the plate, and gets strictly thicker downstream, through the transition
to turbulence as well. -/
theorem C165_grows {b : Blasius} (hb : b.Phys) {turb : Bool} {x x' : ℝ} (h0 : 0 ≤ x) (hx : x < x') :
    ∃ p p', b.Gives turb .p99 x p ∧ b.Gives turb .p99 x' p' ∧ p.delta < p'.delta ∧ (x = 0 → p.delta = 0) := by
  have h1 := hb.1
  have h2 := hb.2
  have hk : 0 < b.nu / b.U := by positivity
  have hx' : 0 < x' := lt_of_le_of_lt h0 hx
  have hr := Blasius.re_mono hb hx
  have hr' := Blasius.re_pos hb hx'
  rcases h0.eq_or_lt with rfl | hx0
  · by_cases hl : b.Laminar turb x'
    · refine ⟨_, _, gives_edge (c := 4.91) rfl, gives_laminar (c := 4.91) rfl hl, ?_, fun _ => rfl⟩
      rw [laminar_delta hb]
      show (0 : ℝ) < _
      have := Real.sqrt_pos.mpr hr'
      positivity
    · have ht : b.Turbulent turb x' := ⟨hx', by
        by_contra h
        push Not at h
        exact hl ⟨hx', h.1, by simpa using h.2⟩⟩
      refine ⟨_, _, gives_edge (c := 4.91) rfl, gives_turbulent ht, ?_, fun _ => rfl⟩
      rw [turbulent_delta hb hx']
      show (0 : ℝ) < _
      have := Real.rpow_pos_of_pos hr' 0.8
      positivity
  · have hre := Blasius.re_pos hb hx0
    by_cases hl : b.Laminar turb x'
    · have hlx : b.Laminar turb x := ⟨hx0, lt_trans hr hl.2.1, hl.2.2⟩
      refine ⟨_, _, gives_laminar (c := 4.91) rfl hlx, gives_laminar (c := 4.91) rfl hl, ?_, fun h => absurd h hx0.ne'⟩
      rw [laminar_delta hb, laminar_delta hb]
      have := Real.sqrt_lt_sqrt hre.le hr
      gcongr
    · have ht : b.Turbulent turb x' := ⟨hx', by
        by_contra h
        push Not at h
        exact hl ⟨hx', h.1, by simpa using h.2⟩⟩
      have hpow := Real.rpow_lt_rpow hre.le hr (show (0 : ℝ) < 0.8 by norm_num)
      by_cases hlx : b.Laminar turb x
      · refine ⟨_, _, gives_laminar (c := 4.91) rfl hlx, gives_turbulent ht, ?_, fun h => absurd h hx0.ne'⟩
        rw [laminar_delta hb, turbulent_delta hb hx']
        have h5 : 5e5 ≤ b.re x' := by
          rcases ht.2 with h | h
          · exact h
          · rw [hlx.2.2] at h; exact absurd h (by simp)
        have hm := laminar_lt_turbulent h5
        have hq : √(b.re x) < √(b.re x') := Real.sqrt_lt_sqrt hre.le hr
        have : 4.91 * √(b.re x) < 0.3806 * b.re x' ^ (0.8 : ℝ) := by
          have := Real.sqrt_nonneg (b.re x)
          linarith
        gcongr
      · have htx : b.Turbulent turb x := ⟨hx0, by
          by_contra h
          push Not at h
          exact hlx ⟨hx0, h.1, by simpa using h.2⟩⟩
        refine ⟨_, _, gives_turbulent htx, gives_turbulent ht, ?_, fun h => absurd h hx0.ne'⟩
        rw [turbulent_delta hb hx0, turbulent_delta hb hx']
        gcongr

/-- C165: momentum balance of the laminar layer (von Kármán): the momentum thickness grows along the plate at the rate
`Cf / 2`.  The functions are the answers of the code around `x`. -/
theorem C165_karman_partial {b : Blasius} (hb : b.Phys) {q : Perc} (hq : q ≠ .other) {x : ℝ} (hx : b.Laminar false x)
    (theta : ℝ → ℝ) (hth : ∀ s, b.Laminar false s → ∃ p, b.Gives false q s p ∧ theta s = p.theta) :
    ∃ p, b.Gives false q x p ∧ HasDerivAt theta (p.Cf / 2) x := by
  have h1 := hb.1
  have h2 := hb.2
  have hx0 := hx.1
  obtain ⟨c, hc⟩ : ∃ c, q.coef = .ok c := by
    cases q with
    | p95 => exact ⟨_, rfl⟩
    | p99 => exact ⟨_, rfl⟩
    | other => exact absurd rfl hq
  refine ⟨_, gives_laminar hc hx, ?_⟩
  have hpos : 0 < b.nu * x / b.U := by positivity
  have hd : HasDerivAt (fun s => 0.664 * √(b.nu * s / b.U)) (0.664 * (b.nu / b.U / (2 * √(b.nu * x / b.U)))) x := by
    have h3 : HasDerivAt (fun s => b.nu * s / b.U) (b.nu / b.U) x := by
      have := ((hasDerivAt_id x).const_mul b.nu).div_const b.U
      simpa using this
    exact (h3.sqrt hpos.ne').const_mul 0.664
  have hev : theta =ᶠ[nhds x] fun s => 0.664 * √(b.nu * s / b.U) := by
    have hopen : IsOpen {s : ℝ | 0 < s ∧ b.U * s / b.nu < 5e5} := by
      apply IsOpen.inter
      · exact isOpen_lt (g := fun s : ℝ => s) continuous_const (by fun_prop)
      · exact isOpen_lt (f := fun s : ℝ => b.U * s / b.nu) (by fun_prop) continuous_const
    filter_upwards [hopen.mem_nhds ⟨hx.1, hx.2.1⟩] with s hs
    have hl : b.Laminar false s := ⟨hs.1, hs.2, rfl⟩
    obtain ⟨p, hp, e⟩ := hth s hl
    rw [e, hp.eq (gives_laminar hc hl)]
    rfl
  have hval : (b.laminar c x).Cf / 2 = 0.664 * (b.nu / b.U / (2 * √(b.nu * x / b.U))) := by
    show 0.664 / √(b.U * x / b.nu) / 2 = _
    have hk : √(b.nu * x / b.U) = b.nu / b.U * √(b.U * x / b.nu) := by
      rw [show b.nu * x / b.U = (b.nu / b.U) ^ 2 * (b.U * x / b.nu) by field_simp,
        Real.sqrt_mul (by positivity), Real.sqrt_sq (by positivity)]
    have : 0 < √(b.U * x / b.nu) := Real.sqrt_pos.mpr (by positivity)
    rw [hk]
    field_simp
  rw [hval]
  exact hd.congr_of_eventuallyEq hev

/-- C165: the momentum balance is lost in the turbulent part: the momentum and displacement thicknesses are zero at every
turbulent position, although the friction is positive and the shape factor still pretends to be 2.59. -/
theorem C165_karman_violated {b : Blasius} (hb : b.Phys) {turb : Bool} {x : ℝ} (hx : b.Turbulent turb x) :
    ∃ p, b.Gives turb .p99 x p ∧ p.theta = 0 ∧ p.dstar = 0 ∧ p.H = 2.59 ∧ 0 < p.Cf := by
  obtain ⟨p, hp, _, hc, _⟩ := C165_turbulent hb hx
  have := hp.eq (gives_turbulent hx)
  subst this
  exact ⟨_, hp, rfl, by show (0 : ℝ) * 2.59 = 0; norm_num, rfl, hc⟩

/-- C165: in the laminar part the layer defined with 95 % of the velocity is thinner than the one defined with 99 %, and nothing
else depends on the percentage. -/
theorem C165_percent {b : Blasius} (hb : b.Phys) {x : ℝ} (hx : b.Laminar false x) :
    ∃ p p', b.Gives false .p95 x p ∧ b.Gives false .p99 x p' ∧ p.delta < p'.delta ∧
      (p.theta, p.dstar, p.H, p.Cf, p.Re, p.tau) = (p'.theta, p'.dstar, p'.H, p'.Cf, p'.Re, p'.tau) := by
  have h1 := hb.1
  have h2 := hb.2
  refine ⟨_, _, gives_laminar (c := 3.92) rfl hx, gives_laminar (c := 4.91) rfl hx, ?_, rfl⟩
  rw [laminar_delta hb, laminar_delta hb]
  have := Real.sqrt_pos.mpr (Blasius.re_pos hb hx.1)
  have hk : 0 < b.nu / b.U := by positivity
  gcongr
  norm_num

/-- C165: an unknown percentage is refused whatever the positions; 95 % is refused as soon as one position is turbulent. -/
theorem C165_refused (b : Blasius) (turb : Bool) (xs : List ℝ) :
    b.properties turb .other xs = .error .valueError ∧
    ((∃ x ∈ xs, b.Turbulent turb x) → b.properties turb .p95 xs = .error .exception) := by
  refine ⟨rfl, ?_⟩
  rintro ⟨x, hm, hx⟩
  show b.turns turb .p95 3.92 xs = _
  apply turns_error
  refine ⟨x, hm, ?_⟩
  have hn : ¬ (b.re x < 5e5 ∧ turb = false) := by
    rintro ⟨h1, h2⟩
    rcases hx.2 with h | h
    · exact absurd h1 (not_lt.mpr h)
    · rw [h] at h2; exact absurd h2 (by simp)
  rw [Blasius.turn, if_neg hx.1.ne', if_neg hn, if_pos rfl]

/-- Water at 1 m/s, at 10 cm of the edge: laminar; at 1 m: turbulent. -/
example : (⟨1, 1e-6, 1000⟩ : Blasius).Phys ∧ (⟨1, 1e-6, 1000⟩ : Blasius).Laminar false 0.1 ∧
    (⟨1, 1e-6, 1000⟩ : Blasius).Turbulent false 1 := by
  refine ⟨⟨by norm_num, by norm_num⟩, ⟨by norm_num, by norm_num, rfl⟩, by norm_num, Or.inl (by norm_num)⟩

/-! ### C166: the position where a thickness is reached -/

/-- C166: in the turbulent part, the position computed from the thickness of the layer at `x` is `x`. -/
theorem C166_turbulent_partial {b : Blasius} (hb : b.Phys) {turb : Bool} {x : ℝ} (hx : b.Turbulent turb x) :
    ∃ p, b.Gives turb .p99 x p ∧ b.xFromDelta turb p.delta = x := by
  have h1 := hb.1
  have h2 := hb.2
  have hx0 := hx.1
  refine ⟨_, gives_turbulent hx, ?_⟩
  have hre := Blasius.re_pos hb hx0
  have htest : b.re ((b.turbulent x).delta ^ 2 * b.U / (4.92 ^ 2 * b.nu)) > 5e5 ∨ turb = true := by
    rcases hx.2 with h | h
    · left
      have h5 : 5e5 ≤ b.re x := h
      have hm := laminar_lt_turbulent h5
      have hs : √(b.re x) ^ 2 = b.re x := Real.sq_sqrt hre.le
      rw [turbulent_delta hb hx0]
      have e : b.re ((b.nu / b.U * (0.3806 * b.re x ^ (0.8 : ℝ))) ^ 2 * b.U / (4.92 ^ 2 * b.nu)) =
          (0.3806 * b.re x ^ (0.8 : ℝ)) ^ 2 / 4.92 ^ 2 := by
        unfold Blasius.re
        field_simp
      rw [e, gt_iff_lt, lt_div_iff₀ (by norm_num)]
      have : (4.92 * √(b.re x)) ^ 2 < (0.3806 * b.re x ^ (0.8 : ℝ)) ^ 2 := by gcongr
      rw [mul_pow, hs] at this
      nlinarith
    · exact Or.inr h
  rw [Blasius.xFromDelta, if_pos htest]
  have e : (b.turbulent x).delta * b.U ^ (0.2 : ℝ) / (0.3806 * b.nu ^ (0.2 : ℝ)) = x ^ (0.8 : ℝ) := by
    show x * 0.3806 / (b.U * x / b.nu) ^ (0.2 : ℝ) * b.U ^ (0.2 : ℝ) / (0.3806 * b.nu ^ (0.2 : ℝ)) = _
    rw [Real.div_rpow (by positivity) h2.le, Real.mul_rpow h1.le hx0.le, ← div_rpow_fifth hx0]
    have := Real.rpow_pos_of_pos h1 0.2
    have := Real.rpow_pos_of_pos h2 0.2
    have := Real.rpow_pos_of_pos hx0 0.2
    field_simp
  rw [e, ← Real.rpow_mul hx0.le]
  norm_num

/-- C166: in the laminar part it is not: the position found is `(4.91 / 4.92)^2` times the right one, at every laminar
position. -/
theorem C166_laminar_violated {b : Blasius} (hb : b.Phys) {x : ℝ} (hx : b.Laminar false x) :
    ∃ p, b.Gives false .p99 x p ∧ b.xFromDelta false p.delta = (4.91 / 4.92) ^ 2 * x ∧ b.xFromDelta false p.delta < x := by
  have h1 := hb.1
  have h2 := hb.2
  have hx0 := hx.1
  obtain ⟨p, hp, _, _, hd, _⟩ := C165_laminar hb hx (q := .p99) (by simp)
  refine ⟨p, hp, ?_⟩
  have e : p.delta ^ 2 * b.U / (4.92 ^ 2 * b.nu) = (4.91 / 4.92) ^ 2 * x := by
    rw [hd, if_neg (by simp)]
    field_simp
  have htest : ¬ (b.re (p.delta ^ 2 * b.U / (4.92 ^ 2 * b.nu)) > 5e5 ∨ false = true) := by
    rw [e]
    rintro (h | h)
    · have h5 : b.re x < 5e5 := hx.2.1
      have : b.re ((4.91 / 4.92) ^ 2 * x) = (4.91 / 4.92) ^ 2 * b.re x := by unfold Blasius.re; ring
      rw [this] at h
      have := Blasius.re_pos hb hx0
      nlinarith
    · exact absurd h (by simp)
  rw [Blasius.xFromDelta, if_neg htest, e]
  refine ⟨rfl, ?_⟩
  nlinarith

/-- C166: a thicker layer does not mean a position further downstream: for every fluid and velocity there are two thicknesses,
one twice the other, the larger one being located upstream of the smaller one. -/
theorem C166_monotone_violated {b : Blasius} (hb : b.Phys) :
    ∃ d : ℝ, 0 < d ∧ b.xFromDelta false (2 * d) < b.xFromDelta false d := by
  have h1 := hb.1
  have h2 := hb.2
  have hs : √(5e5 : ℝ) ^ 2 = 5e5 := Real.sq_sqrt (by norm_num)
  have hs0 : 0 < √(5e5 : ℝ) := Real.sqrt_pos.mpr (by norm_num)
  refine ⟨b.nu / b.U * (4.92 * √5e5), by positivity, ?_⟩
  have e1 : (b.nu / b.U * (4.92 * √5e5)) ^ 2 * b.U / (4.92 ^ 2 * b.nu) = b.nu / b.U * 5e5 := by
    rw [mul_pow, mul_pow, hs]
    field_simp
  have e2 : (2 * (b.nu / b.U * (4.92 * √5e5))) ^ 2 * b.U / (4.92 ^ 2 * b.nu) = b.nu / b.U * 2e6 := by
    rw [mul_pow, mul_pow, mul_pow, hs]
    field_simp
    norm_num
  have r1 : b.re (b.nu / b.U * 5e5) = 5e5 := by unfold Blasius.re; field_simp
  have r2 : b.re (b.nu / b.U * 2e6) = 2e6 := by unfold Blasius.re; field_simp
  rw [Blasius.xFromDelta, if_pos (by rw [e2, r2]; left; norm_num), Blasius.xFromDelta,
    if_neg (by rw [e1, r1]; simp), e1]
  have hsq : √(5e5 : ℝ) < 708 := by
    rw [show (708 : ℝ) = √(708 ^ 2) by rw [Real.sqrt_sq (by norm_num)]]
    exact Real.sqrt_lt_sqrt (by norm_num) (by norm_num)
  have hbase : 2 * (b.nu / b.U * (4.92 * √5e5)) * b.U ^ (0.2 : ℝ) / (0.3806 * b.nu ^ (0.2 : ℝ)) =
      (b.nu / b.U) ^ (0.8 : ℝ) * (2 * 4.92 / 0.3806 * √5e5) := by
    rw [← div_rpow_fifth (show 0 < b.nu / b.U by positivity), Real.div_rpow h2.le h1.le]
    have := Real.rpow_pos_of_pos h1 0.2
    have := Real.rpow_pos_of_pos h2 0.2
    field_simp
  rw [hbase, Real.mul_rpow (by positivity) (by positivity), ← Real.rpow_mul (by positivity),
    show (0.8 : ℝ) * (1 / 0.8) = 1 by norm_num, Real.rpow_one]
  have hlt : (2 * 4.92 / 0.3806 * √(5e5 : ℝ)) ^ ((1 : ℝ) / 0.8) < 5e5 := by
    have : 2 * 4.92 / 0.3806 * √(5e5 : ℝ) < (5e5 : ℝ) ^ (0.8 : ℝ) := by
      apply lt_rpow_of_pow (by positivity) (by norm_num)
      have h3 : 2 * 4.92 / 0.3806 * √(5e5 : ℝ) < 20000 := by
        rw [div_mul_eq_mul_div, div_lt_iff₀ (by norm_num)]
        linarith
      calc (2 * 4.92 / 0.3806 * √(5e5 : ℝ)) ^ 5 < 20000 ^ 5 := by gcongr
        _ < 5e5 ^ 4 := by norm_num
    calc (2 * 4.92 / 0.3806 * √(5e5 : ℝ)) ^ ((1 : ℝ) / 0.8)
        < ((5e5 : ℝ) ^ (0.8 : ℝ)) ^ ((1 : ℝ) / 0.8) := Real.rpow_lt_rpow (by positivity) this (by norm_num)
      _ = 5e5 := by rw [← Real.rpow_mul (by norm_num)]; norm_num
  gcongr

/-! ### C167: confinement -/

/-- C167: the confined thicknesses are computed position by position from the free thicknesses: they are never larger than
these, nor than the depth of water, and tend to the free thickness when the depth grows. -/
theorem C167_confined_partial {b : Blasius} {turb : Bool} {h : ℝ} (hh : 0 < h) {xs ds : List ℝ}
    (e : b.withConfinement turb h xs = .ok ds) :
    List.Forall₂ (fun x d => ∃ p, b.Gives turb .p99 x p ∧ d ≤ p.delta ∧ d < h ∧ (p.delta ≤ h → 0 ≤ p.delta → 0 ≤ d) ∧
      Filter.Tendsto (fun h' => confined p.delta h') Filter.atTop (nhds p.delta) ∧ d = confined p.delta h) xs ds := by
  cases e' : b.properties turb .p99 xs with
  | error _ => simp [Blasius.withConfinement, e'] at e
  | ok r =>
    simp only [Blasius.withConfinement, e', Except.ok.injEq] at e
    subst e
    rw [List.forall₂_map_right_iff]
    refine (C165_pointwise e').imp fun x p hp => ⟨p, hp, ?_, ?_, ?_, ?_, rfl⟩
    · unfold confined
      have : 0 ≤ p.delta ^ 2 / h := by positivity
      have e2 : p.delta * (1 - 0.26547 * p.delta / h) = p.delta - 0.26547 * (p.delta ^ 2 / h) := by ring
      rw [e2]
      nlinarith
    · unfold confined
      have e2 : p.delta * (1 - 0.26547 * p.delta / h) = p.delta - 0.26547 * p.delta ^ 2 / h := by ring
      rw [e2, sub_lt_iff_lt_add, ← sub_lt_iff_lt_add', lt_div_iff₀ hh]
      nlinarith [sq_nonneg (2 * 0.26547 * p.delta - h), mul_pos hh hh]
    · intro h1 h2
      unfold confined
      apply mul_nonneg h2
      rw [sub_nonneg, div_le_one hh]
      linarith
    · unfold confined
      have : Filter.Tendsto (fun h' : ℝ => p.delta * (1 - 0.26547 * p.delta / h')) Filter.atTop
          (nhds (p.delta * (1 - 0))) := by
        apply Filter.Tendsto.const_mul
        apply Filter.Tendsto.const_sub
        exact Filter.Tendsto.div_atTop tendsto_const_nhds Filter.tendsto_id
      simpa using this

/-- C167: a confined layer can have a negative thickness: at every position where the free layer is thicker than
`h / 0.26547`. -/
theorem C167_negative_violated {b : Blasius} {turb : Bool} {h x : ℝ} (hh : 0 < h) {p : Props}
    (hp : b.Gives turb .p99 x p) (hd : h / 0.26547 < p.delta) :
    ∃ d, b.withConfinement turb h [x] = .ok [d] ∧ d < 0 := by
  refine ⟨confined p.delta h, ?_, ?_⟩
  · unfold Blasius.Gives at hp
    simp [Blasius.withConfinement, hp]
  · unfold confined
    rw [div_lt_iff₀ (by norm_num)] at hd
    have hp0 : 0 < p.delta := by nlinarith
    apply mul_neg_of_pos_of_neg hp0
    rw [sub_neg, one_lt_div hh]
    linarith

/-- Such a position exists: water at 1 m/s, 1 m from the edge, with 1 mm of water (the layer is 2.4 cm thick). -/
example : ∃ p, (⟨1, 1e-6, 1000⟩ : Blasius).Gives false .p99 1 p ∧ (1e-3 : ℝ) / 0.26547 < p.delta := by
  have hb : (⟨1, 1e-6, 1000⟩ : Blasius).Phys := ⟨by norm_num, by norm_num⟩
  have ht : (⟨1, 1e-6, 1000⟩ : Blasius).Turbulent false 1 := ⟨by norm_num, Or.inl (by norm_num)⟩
  refine ⟨_, gives_turbulent ht, ?_⟩
  rw [turbulent_delta hb (by norm_num)]
  have e : (⟨1, 1e-6, 1000⟩ : Blasius).re 1 = 1e6 := by unfold Blasius.re; norm_num
  rw [e]
  have : (20000 : ℝ) < 1e6 ^ (0.8 : ℝ) := lt_rpow_of_pow (by norm_num) (by norm_num) (by norm_num)
  show (1e-3 : ℝ) / 0.26547 < 1e-6 / 1 * (0.3806 * 1e6 ^ (0.8 : ℝ))
  rw [div_lt_iff₀ (by norm_num)]
  nlinarith

end IMT.Bl
