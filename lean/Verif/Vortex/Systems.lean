import Verif.Vortex.SystemsModel
import Verif.Display.Line

/-! Background flows of the systems made by hand: C368. -/

namespace IMT.Systems

open IMT.Profile

variable {u s : Rat → Rat} {p : Rat → Rat → Rat × Rat} {uD D H h x y : Rat}

/-! ### specification -/

/-- The value `v` at the place `t` is on the line between those of `g` at the two neighbouring ones of `n` places evenly spread from `a` to `b`. -/
def Between (n : Nat) (a b : Rat) (g : Rat → Rat) (t v : Rat) : Prop :=
  ∃ c d : Rat, c ≤ t ∧ t ≤ d ∧ a ≤ c ∧ d ≤ b ∧ (d - c) * ((n : Rat) - 1) = b - a ∧ v * (d - c) = (d - t) * g c + (t - c) * g d

/-! ### lemmas -/

theorem table_get {n k : Nat} {a b : Rat} {g : Rat → Rat} (hk : k < n) :
    (table n a b g)[k]? = some (a + (b - a) * k / ((n : Rat) - 1), g (a + (b - a) * k / ((n : Rat) - 1))) := by
  simp [table, hk]

theorem table_inc {n : Nat} {a b : Rat} {g : Rat → Rat} (hab : a < b) : Inc ((table n a b g).map Prod.fst) := by
  unfold Inc table
  rw [List.map_map, List.pairwise_map]
  refine List.Pairwise.imp_of_mem ?_ List.pairwise_lt_range
  intro i j hi hj hij
  rw [List.mem_range] at hi hj
  have h1 : (0 : Rat) < (n : Rat) - 1 := by
    have : (2 : Rat) ≤ n := by exact_mod_cast (by omega : 2 ≤ n)
    linarith
  have : (i : Rat) < j := by exact_mod_cast hij
  have h2 : (b - a) * i < (b - a) * j := mul_lt_mul_of_pos_left this (by linarith)
  have := div_lt_div_of_pos_right h2 h1
  simp only [Function.comp]
  linarith

theorem orZero_between {n : Nat} (hn : 2 ≤ n) {a b : Rat} {g : Rat → Rat} (hab : a < b) {t : Rat} (h1 : a ≤ t) (h2 : t ≤ b) :
    Between n a b g t (orZero (table n a b g) t) := by
  have hd : 0 < b - a := by linarith
  have hn' : (0 : Rat) < (n : Rat) - 1 := by
    have : (2 : Rat) ≤ n := by exact_mod_cast hn
    linarith
  obtain ⟨k, r, hk, r0, r1, e⟩ := Color.locate hn (t := (t - a) / (b - a)) (div_nonneg (by linarith) hd.le) (by rw [div_le_one hd]; linarith)
  have et : t = a + (b - a) * (k + r) / ((n : Rat) - 1) := by
    rw [← e]
    field_simp
    ring
  have ga := table_get (a := a) (b := b) (g := g) (show k < n by omega)
  have gb := table_get (a := a) (b := b) (g := g) hk
  have c1 : a + (b - a) * k / ((n : Rat) - 1) ≤ t := by
    rw [et]
    have := div_le_div_of_nonneg_right (mul_le_mul_of_nonneg_left (by linarith : (k : Rat) ≤ k + r) hd.le) hn'.le
    linarith
  have c2 : t ≤ a + (b - a) * ((k + 1 : Nat) : Rat) / ((n : Rat) - 1) := by
    rw [et]
    push_cast
    have := div_le_div_of_nonneg_right (mul_le_mul_of_nonneg_left (by linarith : (k : Rat) + r ≤ k + 1) hd.le) hn'.le
    linarith
  have key : a + (b - a) * ((k + 1 : Nat) : Rat) / ((n : Rat) - 1) - (a + (b - a) * k / ((n : Rat) - 1)) = (b - a) / ((n : Rat) - 1) := by
    push_cast
    ring
  refine ⟨a + (b - a) * k / ((n : Rat) - 1), a + (b - a) * ((k + 1 : Nat) : Rat) / ((n : Rat) - 1), c1, c2, ?_, ?_, ?_, ?_⟩
  · have : 0 ≤ (b - a) * k / ((n : Rat) - 1) := div_nonneg (mul_nonneg hd.le (by positivity)) hn'.le
    linarith
  · have hkn : ((k + 1 : Nat) : Rat) ≤ (n : Rat) - 1 := by
      have : ((k + 1 : Nat) : Rat) + 1 ≤ n := by exact_mod_cast hk
      linarith
    have : (b - a) * ((k + 1 : Nat) : Rat) / ((n : Rat) - 1) ≤ b - a := by
      rw [div_le_iff₀ hn']
      exact mul_le_mul_of_nonneg_left hkn hd.le
    linarith
  · rw [key, div_mul_cancel₀ _ hn'.ne']
  · unfold orZero
    rw [Color.lin_two (table_inc hab) ga gb c1 c2, Option.getD_some, key]
    unfold line
    rw [key]
    have hne : (b - a) / ((n : Rat) - 1) ≠ 0 := (div_pos hd hn').ne'
    have e2 : ∀ q z w : Rat, w ≠ 0 → (q + z / w * (t - (a + (b - a) * k / ((n : Rat) - 1)))) * w = q * w + z * (t - (a + (b - a) * k / ((n : Rat) - 1))) := by
      intro q z w hw
      rw [add_mul, mul_right_comm, div_mul_cancel₀ _ hw]
    rw [e2 _ _ _ hne, ← key]
    ring

theorem orZero_out {n : Nat} {a b : Rat} {g : Rat → Rat} (hab : a < b) {t : Rat} (h : t < a ∨ b < t) : orZero (table n a b g) t = 0 := by
  unfold orZero
  rw [lin_out, Option.getD_none]
  have hd : 0 < b - a := by linarith
  rcases h with h | h
  · left
    intro r hr
    obtain ⟨k, hk, rfl⟩ := List.mem_map.1 hr
    rw [List.mem_range] at hk
    have : (1 : Rat) ≤ n := by exact_mod_cast (by omega : 1 ≤ n)
    have : 0 ≤ (b - a) * k / ((n : Rat) - 1) := div_nonneg (mul_nonneg hd.le (by positivity)) (by linarith)
    simp only
    linarith
  · right
    intro r hr
    obtain ⟨k, hk, rfl⟩ := List.mem_map.1 hr
    rw [List.mem_range] at hk
    have h1 : (k : Rat) + 1 ≤ n := by exact_mod_cast hk
    have : (b - a) * k / ((n : Rat) - 1) ≤ b - a := by
      rcases Nat.eq_zero_or_pos k with rfl | hk0
      · simp only [Nat.cast_zero, mul_zero, zero_div]; linarith
      · have h0 : (1 : Rat) ≤ k := by exact_mod_cast hk0
        rw [div_le_iff₀ (by linarith)]
        exact mul_le_mul_of_nonneg_left (by linarith) hd.le
    simp only
    linarith

theorem orZero_first {n : Nat} (hn : 2 ≤ n) {a b : Rat} {g : Rat → Rat} (hab : a < b) : orZero (table n a b g) a = g a := by
  have ga := table_get (a := a) (b := b) (g := g) (show 0 < n by omega)
  have gb := table_get (a := a) (b := b) (g := g) (show 0 + 1 < n by omega)
  simp only [Nat.cast_zero, mul_zero, zero_div, add_zero] at ga
  unfold orZero
  have h1 : a ≤ a + (b - a) * ((0 + 1 : Nat) : Rat) / ((n : Rat) - 1) := by
    have : (2 : Rat) ≤ n := by exact_mod_cast hn
    have : 0 ≤ (b - a) * ((0 + 1 : Nat) : Rat) / ((n : Rat) - 1) := div_nonneg (mul_nonneg (by linarith) (by positivity)) (by linarith)
    linarith
  rw [Color.lin_two (table_inc hab) ga gb le_rfl h1]
  simp [line]

/-! ### C368 -/

/-- C368: in the channel of height `h`, up to `5 D` in front of the obstacle, the background flow of the horseshoe system is horizontal, the product of the velocity
of the boundary layer, on lines between 100 heights, and of the slowing down in front of the obstacle, on lines between 200 positions. -/
theorem C368_hsv_partial (hh : 0 < h) (hD : 0 < D) (hy0 : 0 ≤ y) (hy1 : y ≤ h) (hx0 : -(5 * D) ≤ x) (hx1 : x ≤ 0) :
    ∃ a b, hsvFlow u s D h x y = (a * b, 0) ∧ Between 100 0 h u y a ∧ Between 200 (-(5 * D)) 0 s x b :=
  ⟨_, _, rfl, orZero_between (by omega) hh hy0 hy1, orZero_between (by omega) (by linarith) hx0 hx1⟩

/-- C368: there is no flow on the wall. -/
theorem C368_wall (hh : 0 < h) (h0 : u 0 = 0) : hsvFlow u s D h x 0 = (0, 0) ∧ (stepFlow u p uD H h x 0).1 = 0 := by
  constructor
  · unfold hsvFlow hsvLayer
    rw [orZero_first (by omega) hh, h0, zero_mul]
  · unfold stepFlow stepLayer
    rw [orZero_first (by omega) hh, h0, zero_div, mul_zero, zero_mul]

/-- C368 fails above the height `h` given for the profile, and farther than `5 D` from the obstacle: the flow vanishes, whereas it is the free stream there. -/
theorem C368_stream_violated (hh : 0 < h) (hD : 0 < D) (ho : h < y ∨ x < -(5 * D)) : hsvFlow u s D h x y = (0, 0) := by
  unfold hsvFlow hsvLayer hsvSlow
  rcases ho with ho | ho
  · rw [orZero_out hh (.inr ho), zero_mul]
  · rw [orZero_out (a := -(5 * D)) (b := 0) (by linarith) (.inl ho), mul_zero]

/-- C368: in front of the step, up to the lengths `h` and `3 H`, the background flow is the potential flow slowed down by the layers on the bottom and on the step. -/
theorem C368_step_partial (hh : 0 < h) (hH : 0 < H) (hu : uD ≠ 0) (hy0 : 0 ≤ y) (hy1 : y ≤ h) (hx0 : -h ≤ x) (hx0' : -(3 * H) ≤ x) (hx1 : x ≤ 0) :
    ∃ a b, stepFlow u p uD H h x y = ((p x y).1 * (a / uD) * (b / uD), (p x y).2 * (b / uD)) ∧ Between 100 0 h u y a ∧ Between 100 0 h u (-x) b := by
  have scale : ∀ t, 0 ≤ t → t ≤ h → ∃ a, stepLayer u uD h t = a / uD ∧ Between 100 0 h u t a := by
    intro t t0 t1
    refine ⟨stepLayer u uD h t * uD, by rw [mul_div_cancel_right₀ _ hu], ?_⟩
    obtain ⟨c, d, h1, h2, h3, h4, h5, h6⟩ := orZero_between (n := 100) (g := fun y => u y / uD) (by omega) hh t0 t1
    refine ⟨c, d, h1, h2, h3, h4, h5, ?_⟩
    unfold stepLayer
    rw [mul_right_comm, h6]
    have e : ∀ z, z / uD * uD = z := fun z => div_mul_cancel₀ _ hu
    rw [add_mul, mul_assoc, mul_assoc, e, e]
  obtain ⟨a, ea, ha⟩ := scale y hy0 hy1
  obtain ⟨b, eb, hb⟩ := scale (-x) (by linarith) (by linarith)
  have htop : h ≤ topOf H h := by
    unfold topOf
    have hH' : (0 : Rat) < H / 10 := by linarith
    have := Int.le_ceil ((h + H / 10) / (H / 10))
    rw [div_le_iff₀ hH'] at this
    linarith
  refine ⟨a, b, ?_, ha, hb⟩
  unfold stepFlow stepDev
  rw [if_neg (by push Not; exact ⟨hx0', hx1, hy0, by linarith⟩), ea, eb]

/-- C368 fails farther than `h` in front of the step: there is no flow at all, whatever the height and the velocity that were asked for. -/
theorem C368_far_violated (hh : 0 < h) (hx : x < -h) : stepFlow u p uD H h x y = (0, 0) := by
  unfold stepFlow stepLayer
  rw [orZero_out hh (t := -x) (.inr (by linarith)), mul_zero, mul_zero]

/-- C368 fails farther than `3 H` in front of the step: for flows `u` of the same shape the velocity does not follow the wanted one `u_D`, it stays that of a flow of
velocity 1. -/
theorem C368_speed_violated (hx : x < -(3 * H)) {c : Rat} (hc : c ≠ 0) :
    stepFlow (fun t => c * u t) p (c * uD) H h x y = stepFlow u (fun _ _ => (1, 0)) uD H h x y := by
  have e : ∀ t, stepLayer (fun t => c * u t) (c * uD) h t = stepLayer u uD h t := by
    intro t
    unfold stepLayer
    simp only [mul_div_mul_left _ _ hc]
  unfold stepFlow
  rw [e, e]
  unfold stepDev
  rw [if_pos (.inl hx), if_pos (.inl hx)]

/-! ### examples -/

/-- A linear layer up to the height 1, the flow slowed down linearly on the last unit. -/
example : ∃ a b, hsvFlow (fun y => if y < 1 then y else 1) (fun x => if x < -1 then 1 else -x) 2 3 (-1/2) (1/2) = (a * b, 0) ∧
    Between 100 0 3 (fun y => if y < 1 then y else 1) (1/2) a ∧ Between 200 (-(5 * 2)) 0 (fun x => if x < -1 then 1 else -x) (-1/2) b :=
  C368_hsv_partial (by norm_num) (by norm_num) (by norm_num) (by norm_num) (by norm_num) (by norm_num)

example : hsvFlow (fun y => if y < 1 then y else 1) (fun x => if x < -1 then 1 else -x) 2 3 (-1/2) (33/100) = (33/200, 0) := by decide +kernel

example : hsvFlow (fun y => if y < 1 then y else 1) (fun x => if x < -1 then 1 else -x) 2 3 (-5) 4 = (0, 0) := by decide +kernel

example : stepFlow (fun y => if y < 1 then y else 1) (fun _ _ => (7, 0)) 7 1 5 (-4) 2 = (1/49, 0) := by decide +kernel

end IMT.Systems
