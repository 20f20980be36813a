import Verif.Crit.Motif
import Mathlib.Tactic.FieldSimp
import Mathlib.Tactic.Positivity
import Mathlib.Tactic.LinearCombination

/-!
Properties C129 to C132: values of the gamma and kappa criteria.
-/

namespace IMT.Crit

set_option linter.unusedSectionVars false

section
variable {K : Type} [Field K] [LinearOrder K] [IsStrictOrderedRing K]

/-- `sq` is a square root. -/
def IsSqrt (sq : K → K) : Prop := ∀ x, 0 ≤ x → 0 ≤ sq x ∧ sq x ^ 2 = x

/-! ### lemmas: one term -/

theorem sq_unique {sq : K → K} (h : IsSqrt sq) {x y : K} (hy : 0 ≤ y) (e : y ^ 2 = x) : sq x = y := by
  have hx : 0 ≤ x := by rw [← e]; positivity
  obtain ⟨a, b⟩ := h x hx
  exact (pow_left_inj₀ a hy (by norm_num)).mp (b.trans e.symm)

theorem sq_zero_iff {sq : K → K} (h : IsSqrt sq) {x : K} (hx : 0 ≤ x) : sq x = 0 ↔ x = 0 := by
  constructor
  · intro e; rw [← (h x hx).2, e]; simp
  · intro e; exact sq_unique h le_rfl (by rw [e]; simp)

theorem ss_nonneg (a b : K) : 0 ≤ a ^ 2 + b ^ 2 := by positivity

theorem ss_zero {a b : K} : a ^ 2 + b ^ 2 = 0 ↔ a = 0 ∧ b = 0 := by
  constructor
  · intro h
    have h1 := sq_nonneg a
    have h2 := sq_nonneg b
    exact ⟨pow_eq_zero_iff (two_ne_zero) |>.mp (by linarith), pow_eq_zero_iff (two_ne_zero) |>.mp (by linarith)⟩
  · rintro ⟨rfl, rfl⟩; simp

theorem term_abs {sq : K → K} (h : IsSqrt sq) {num ax ay bx bY : K}
    (hn : num ^ 2 ≤ (bx ^ 2 + bY ^ 2) * (ax ^ 2 + ay ^ 2)) : |term sq num ax ay bx bY| ≤ 1 := by
  unfold term
  split
  · next hd =>
    have hp : 0 < sq (bx ^ 2 + bY ^ 2) * sq (ax ^ 2 + ay ^ 2) :=
      lt_of_le_of_ne (mul_nonneg (h _ (ss_nonneg _ _)).1 (h _ (ss_nonneg _ _)).1) (Ne.symm hd)
    rw [abs_div, abs_of_pos hp, div_le_one hp]
    apply abs_le_of_sq_le_sq _ hp.le
    rw [mul_pow, (h _ (ss_nonneg _ _)).2, (h _ (ss_nonneg _ _)).2]
    exact hn
  · simp

/-- Two parallel vectors: the term is the sign of their product. -/
theorem term_parallel {sq : K → K} (h : IsSqrt sq) {ax ay w : K} (hw : w ≠ 0) (ha : ax ≠ 0 ∨ ay ≠ 0) {bx bY num : K}
    (hb : bx ^ 2 + bY ^ 2 = w ^ 2 * (ax ^ 2 + ay ^ 2)) (hn : num = w * (ax ^ 2 + ay ^ 2)) :
    term sq num ax ay bx bY = if 0 < w then 1 else -1 := by
  have hs : 0 < ax ^ 2 + ay ^ 2 := by
    refine lt_of_le_of_ne (ss_nonneg _ _) (fun e => ?_)
    have := ss_zero.mp e.symm
    rcases ha with ha | ha
    · exact ha this.1
    · exact ha this.2
  obtain ⟨p, q⟩ := h _ hs.le
  have e1 : sq (bx ^ 2 + bY ^ 2) = |w| * sq (ax ^ 2 + ay ^ 2) := by
    apply sq_unique h (mul_nonneg (abs_nonneg _) p)
    rw [mul_pow, q, sq_abs, hb]
  have e2 : sq (bx ^ 2 + bY ^ 2) * sq (ax ^ 2 + ay ^ 2) = |w| * (ax ^ 2 + ay ^ 2) := by
    rw [e1, mul_assoc, ← pow_two, q]
  unfold term
  rw [e2, if_pos (mul_ne_zero (abs_ne_zero.mpr hw) hs.ne'), hn, mul_div_mul_right _ _ hs.ne']
  split
  · next h0 => rw [abs_of_pos h0, div_self hw]
  · next h0 =>
    rw [abs_of_neg (lt_of_le_of_ne (not_lt.mp h0) hw), div_neg, div_self hw]

theorem term_perp {sq : K → K} {ax ay bx bY : K} : term sq 0 ax ay bx bY = 0 := by unfold term; split <;> simp

theorem cross_le (ax ay bx bY : K) : (ax * bY - ay * bx) ^ 2 ≤ (bx ^ 2 + bY ^ 2) * (ax ^ 2 + ay ^ 2) := by
  have := sq_nonneg (ax * bx + ay * bY)
  nlinarith

theorem dot_le (ax ay bx bY : K) : (ax * bx + ay * bY) ^ 2 ≤ (bx ^ 2 + bY ^ 2) * (ax ^ 2 + ay ^ 2) := by
  have := sq_nonneg (ax * bY - ay * bx)
  nlinarith

theorem abs_sum_le {α : Type} (l : List α) (g : α → K) (h : ∀ a ∈ l, |g a| ≤ 1) : |(l.map g).sum| ≤ l.length := by
  induction l with
  | nil => simp
  | cons a l ih =>
    have i1 := ih fun b hb => h b (List.mem_cons_of_mem _ hb)
    have i2 := h a List.mem_cons_self
    simp only [List.map_cons, List.sum_cons, List.length_cons, Nat.cast_add, Nat.cast_one]
    exact (abs_add_le _ _).trans (by linarith)

theorem sum_const {α : Type} (l : List α) (g : α → K) {c : K} (h : ∀ a ∈ l, g a = c) : (l.map g).sum = l.length * c := by
  induction l with
  | nil => simp
  | cons a l ih =>
    simp only [List.map_cons, List.sum_cons, List.length_cons, Nat.cast_add, Nat.cast_one]
    rw [ih fun b hb => h b (List.mem_cons_of_mem _ hb), h a List.mem_cons_self]; ring

theorem total_abs {sq : K → K} (h : IsSqrt sq) (f : Vel K) (motif : List (Int × Int)) (cross : Bool) (u v : K) (i j : Int) :
    |total sq f motif cross u v i j| ≤ motif.length := by
  unfold total
  apply abs_sum_le
  intro m _
  apply term_abs h
  cases cross
  · exact dot_le _ _ _ _
  · exact cross_le _ _ _ _

theorem div_abs {x : K} {n : Nat} (h : |x| ≤ n) : |x / n| ≤ 1 := by
  rw [abs_div, Nat.abs_cast]
  exact div_le_one_of_le₀ h (Nat.cast_nonneg n)

theorem value_abs {sq : K → K} (h : IsSqrt sq) (k : Kind) (f : Vel K) (motif : List (Int × Int)) (i j : Int) :
    |value sq k f motif i j| ≤ 1 := by
  cases k <;> exact div_abs (total_abs h f motif _ _ _ i j)

/-! ### C129 -/

/-- C129: gamma1, gamma2, kappa1 and kappa2 lie between minus one and one wherever they are shown. -/
theorem C129_bounds {sq : K → K} (h : IsSqrt sq) (k : Kind) {nx ny : Nat} {f : Vel K} {mask : Int → Int → Bool} {r : Rat}
    {g : Nat → Nat → Option K} (hg : criterion sq k nx ny f mask r = .ok g) {i j : Nat} {v : K} (hv : g i j = some v) :
    -1 ≤ v ∧ v ≤ 1 := by
  unfold criterion at hg
  split at hg
  · cases hg
  · split at hg
    · cases hg
    · cases hg
      dsimp only at hv
      split at hv
      · cases hv
      · cases hv
        exact abs_le.mp (value_abs h k f _ i j)

/-- C129: so do the criteria computed with a radius in axis units. -/
theorem C129_bounds_units {sq : K → K} (h : IsSqrt sq) (k : Kind) {lx ly : List Rat} {vx vy : Int → Int → K}
    {mask : Int → Int → Bool} {r : Rat} {g : Nat → Nat → Option K}
    (hg : criterionUnits sq k lx ly vx vy mask r = .ok g) {i j : Nat} {v : K} (hv : g i j = some v) : -1 ≤ v ∧ v ≤ 1 := by
  unfold criterionUnits at hg
  dsimp only at hg
  split at hg
  · cases hg
  · split at hg
    · cases hg
    · cases hg
      dsimp only at hv
      split at hv
      · cases hv
      · cases hv
        exact abs_le.mp (value_abs h k _ _ i j)

/-- C129: and gamma2b, which is at most gamma2 in absolute value. -/
theorem C129_gamma2b {sq : K → K} (h : IsSqrt sq) (f : Vel K) (motif : List (Int × Int)) (i j : Int) {v : K}
    (hv : gamma2b sq f motif i j = some v) : |v| ≤ |gamma2 sq f motif i j| ∧ |v| ≤ 1 := by
  have hg : |gamma2 sq f motif i j| ≤ 1 := value_abs h .gamma2 f motif i j
  have hf : ∀ c, fact sq f motif i j = some c → |c| ≤ 1 := by
    intro c hc
    unfold fact at hc
    dsimp only at hc
    split at hc
    · split at hc
      · cases hc
      · cases hc; simp
    · cases hc
      split
      · simp
      · next hh => exact not_lt.mp hh
  unfold gamma2b at hv
  rw [Option.map_eq_some_iff] at hv
  obtain ⟨c, hc, rfl⟩ := hv
  have := hf c hc
  rw [abs_mul]
  have a := mul_le_of_le_one_right (abs_nonneg (gamma2 sq f motif i j)) this
  exact ⟨a, a.trans hg⟩

/-! ### C130 -/

/-- A field with its velocities multiplied by `c`. -/
def scaled (c : K) (f : Vel K) : Vel K := ⟨fun i j => c * f.vx i j, fun i j => c * f.vy i j, f.dx, f.dy⟩
/-- A field seen from a frame moving at `(-a, -b)`. -/
def moved (a b : K) (f : Vel K) : Vel K := ⟨fun i j => f.vx i j + a, fun i j => f.vy i j + b, f.dx, f.dy⟩
/-- A field with its velocities turned by a quarter turn. -/
def turned (f : Vel K) : Vel K := ⟨fun i j => -f.vy i j, fun i j => f.vx i j, f.dx, f.dy⟩

/-- `gamma1b` is `gamma1` times the norm of the mean velocity around the point, so that it may exceed one. -/
theorem C129_gamma1b {sq : K → K} (h : IsSqrt sq) (f : Vel K) (motif : List (Int × Int)) (i j : Int) :
    ∃ s : K, 0 ≤ s ∧ s ^ 2 = ((motif.map fun m => f.vx (m.1 + i) (m.2 + j)).sum / motif.length) ^ 2 +
        ((motif.map fun m => f.vy (m.1 + i) (m.2 + j)).sum / motif.length) ^ 2 ∧
      gamma1b sq f motif i j = gamma1 sq f motif i j * s ∧ |gamma1b sq f motif i j| ≤ s := by
  have hs := h (meanAround f.vx motif i j ^ 2 + meanAround f.vy motif i j ^ 2) (ss_nonneg _ _)
  refine ⟨_, hs.1, hs.2, rfl, ?_⟩
  have hg : |gamma1 sq f motif i j| ≤ 1 := value_abs h .gamma1 f motif i j
  show |gamma1 sq f motif i j * _| ≤ _
  rw [abs_mul, abs_of_nonneg hs.1]
  exact mul_le_of_le_one_left hs.1 hg

theorem term_scale {sq : K → K} (h : IsSqrt sq) {c : K} (hc : c ≠ 0) (num ax ay bx bY : K) :
    term sq (c * num) ax ay (c * bx) (c * bY) = (if 0 < c then 1 else -1) * term sq num ax ay bx bY := by
  have e : sq ((c * bx) ^ 2 + (c * bY) ^ 2) = |c| * sq (bx ^ 2 + bY ^ 2) := by
    obtain ⟨p, q⟩ := h _ (ss_nonneg bx bY)
    apply sq_unique h (mul_nonneg (abs_nonneg _) p)
    rw [mul_pow, q, sq_abs]; ring
  unfold term
  rw [e, mul_assoc]
  have hca := abs_ne_zero.mpr hc
  by_cases hd : sq (bx ^ 2 + bY ^ 2) * sq (ax ^ 2 + ay ^ 2) = 0
  · rw [hd]; simp
  · rw [if_pos (mul_ne_zero hca hd), if_pos hd, mul_div_mul_comm]
    congr 1
    split
    · next h0 => rw [abs_of_pos h0, div_self hc]
    · next h0 => rw [abs_of_neg (lt_of_le_of_ne (not_lt.mp h0) hc), div_neg, div_self hc]

theorem sum_mul {α : Type} (l : List α) (g : α → K) (c : K) : (l.map fun a => c * g a).sum = c * (l.map g).sum := by
  induction l with
  | nil => simp
  | cons a l ih => simp only [List.map_cons, List.sum_cons, ih]; ring

theorem sum_addc {α : Type} (l : List α) (g : α → K) (c : K) : (l.map fun a => g a + c).sum = (l.map g).sum + l.length * c := by
  induction l with
  | nil => simp
  | cons a l ih => simp only [List.map_cons, List.sum_cons, ih, List.length_cons]; push_cast; ring

theorem total_scale {sq : K → K} (h : IsSqrt sq) {c : K} (hc : c ≠ 0) (f : Vel K) (motif : List (Int × Int)) (cross : Bool) (u v : K)
    (i j : Int) : total sq (scaled c f) motif cross (c * u) (c * v) i j =
      (if 0 < c then 1 else -1) * total sq f motif cross u v i j := by
  unfold total
  rw [← sum_mul]
  congr 1
  apply List.map_congr_left
  intro m _
  dsimp only [scaled]
  rw [← mul_sub, ← mul_sub, ← term_scale h hc]
  congr 1
  cases cross
  · simp only [Bool.false_eq_true, if_false]; ring
  · simp only [if_true]; ring

theorem mean_scale (c : K) (g : Int → Int → K) (motif : List (Int × Int)) (i j : Int) :
    meanAround (fun a b => c * g a b) motif i j = c * meanAround g motif i j := by
  unfold meanAround; rw [sum_mul]; ring

theorem value_scale {sq : K → K} (h : IsSqrt sq) {c : K} (hc : c ≠ 0) (k : Kind) (f : Vel K) (motif : List (Int × Int)) (i j : Int) :
    value sq k (scaled c f) motif i j = (if 0 < c then 1 else -1) * value sq k f motif i j := by
  have h0 := total_scale h hc f motif
  cases k <;> simp only [value, gamma1, gamma2, kappa1, kappa2]
  · have := h0 true 0 0 i j
    rw [mul_zero] at this
    rw [this]; ring
  · have e1 : meanAround (scaled c f).vx motif i j = c * meanAround f.vx motif i j := mean_scale c f.vx motif i j
    have e2 : meanAround (scaled c f).vy motif i j = c * meanAround f.vy motif i j := mean_scale c f.vy motif i j
    rw [e1, e2, h0]; ring
  · have := h0 false 0 0 i j
    rw [mul_zero] at this
    rw [this]; ring
  · have e1 : kappaMean (scaled c f).vx motif i j = c * kappaMean f.vx motif i j := by
      unfold kappaMean scaled; dsimp only; rw [sum_mul]; ring
    have e2 : kappaMean (scaled c f).vy motif i j = c * kappaMean f.vy motif i j := by
      unfold kappaMean scaled; dsimp only; rw [sum_mul]; ring
    rw [e1, e2, h0]; ring

/-- C130: multiplying all velocities by a positive number (another unit, say) changes no criterion; by a negative one, changes
its sign. -/
theorem C130_scale {sq : K → K} (h : IsSqrt sq) (k : Kind) (nx ny : Nat) (f : Vel K) (mask : Int → Int → Bool) {r : Rat}
    (hr : 1 ≤ r) {c : K} (hc : c ≠ 0) :
    ∃ g g', criterion sq k nx ny f mask r = .ok g ∧ criterion sq k nx ny (scaled c f) mask r = .ok g' ∧
      ∀ i j, g' i j = (g i j).map fun v => (if 0 < c then 1 else -1) * v := by
  refine ⟨_, _, criterion_ok sq k nx ny f mask hr, criterion_ok sq k nx ny _ mask hr, ?_⟩
  intro i j
  split
  · simp
  · simp [value_scale h hc]

theorem mean_moved (g : Int → Int → K) (a : K) {motif : List (Int × Int)} (hm : motif ≠ []) (i j : Int) :
    meanAround (fun p q => g p q + a) motif i j = meanAround g motif i j + a := by
  have hn : (motif.length : K) ≠ 0 := by
    have := List.length_pos_iff.mpr hm
    exact_mod_cast this.ne'
  unfold meanAround
  rw [sum_addc, add_div, mul_div_cancel_left₀ _ hn]

theorem kmean_eq (g : Int → Int → K) {motif : List (Int × Int)} (hm : motif ≠ []) (i j : Int) : kappaMean g motif i j = g i j := by
  have hn : (motif.length : K) ≠ 0 := by
    have := List.length_pos_iff.mpr hm
    exact_mod_cast this.ne'
  unfold kappaMean
  rw [sum_const motif _ (c := g i j) fun _ _ => rfl, mul_div_cancel_left₀ _ hn]

theorem total_moved (sq : K → K) (a b : K) (f : Vel K) (motif : List (Int × Int)) (cross : Bool) (u v : K) (i j : Int) :
    total sq (moved a b f) motif cross (u + a) (v + b) i j = total sq f motif cross u v i j := by
  unfold total
  congr 1
  apply List.map_congr_left
  intro m _
  dsimp only [moved]
  rw [add_sub_add_right_eq_sub, add_sub_add_right_eq_sub]

theorem motif_ne {r : Rat} (hr : 1 ≤ r) : (disc r).eraseIdx ((disc r).length / 2) ≠ [] := by
  apply List.ne_nil_of_mem (a := ((1, 0) : Int × Int))
  rw [mem_motif (by linarith)]
  refine ⟨.inl (by decide), ?_⟩
  have : (1 : Rat) ≤ r ^ 2 := by nlinarith
  simpa using this

/-- C130: gamma2 and kappa2 do not depend on the frame of the observer: adding the same velocity everywhere changes nothing. -/
theorem C130_galilean (sq : K → K) {k : Kind} (hk : k = .gamma2 ∨ k = .kappa2) (nx ny : Nat) (f : Vel K)
    (mask : Int → Int → Bool) {r : Rat} (hr : 1 ≤ r) (a b : K) :
    criterion sq k nx ny (moved a b f) mask r = criterion sq k nx ny f mask r := by
  rw [criterion_ok sq k nx ny f mask hr, criterion_ok sq k nx ny _ mask hr]
  congr 1
  funext i j
  congr 2
  have hm := motif_ne hr
  generalize (disc r).eraseIdx ((disc r).length / 2) = motif at hm
  rcases hk with rfl | rfl
  · simp only [value, gamma2]
    have e1 : meanAround (moved a b f).vx motif i j = meanAround f.vx motif i j + a := mean_moved f.vx a hm i j
    have e2 : meanAround (moved a b f).vy motif i j = meanAround f.vy motif i j + b := mean_moved f.vy b hm i j
    rw [e1, e2, total_moved]
  · simp only [value, kappa2]
    rw [kmean_eq _ hm, kmean_eq _ hm, kmean_eq _ hm, kmean_eq _ hm]
    exact congrArg (· / _) (total_moved sq a b f motif false _ _ i j)

/-- C130: gamma1 of a field turned by a quarter turn is kappa1 of the field, and kappa1 of the turned field the opposite of its
gamma1: the two criteria look for the same thing, centres and nodes. -/
theorem C130_turn (sq : K → K) (nx ny : Nat) (f : Vel K) (mask : Int → Int → Bool) {r : Rat} (hr : 1 ≤ r) :
    criterion sq .gamma1 nx ny (turned f) mask r = criterion sq .kappa1 nx ny f mask r ∧
    ∃ g g', criterion sq .gamma1 nx ny f mask r = .ok g ∧ criterion sq .kappa1 nx ny (turned f) mask r = .ok g' ∧
      ∀ i j, g' i j = (g i j).map fun v => -v := by
  have e : ∀ (m : Int × Int) (i j : Int), (-f.vy (m.1 + i) (m.2 + j)) ^ 2 + f.vx (m.1 + i) (m.2 + j) ^ 2 =
      f.vx (m.1 + i) (m.2 + j) ^ 2 + f.vy (m.1 + i) (m.2 + j) ^ 2 := fun m i j => by ring
  constructor
  · rw [criterion_ok sq _ nx ny _ mask hr, criterion_ok sq _ nx ny _ mask hr]
    congr 1
    funext i j
    congr 2
    simp only [value, gamma1, kappa1, total, turned, term, sub_zero, if_true, Bool.false_eq_true, if_false, e]
    congr 2
    apply List.map_congr_left
    intro m _
    congr 2
    ring
  · refine ⟨_, _, criterion_ok sq _ nx ny f mask hr, criterion_ok sq _ nx ny _ mask hr, ?_⟩
    intro i j
    split
    · simp
    · simp only [Option.map_some, Option.some.injEq]
      simp only [value, gamma1, kappa1, total, turned, term, sub_zero, if_true, Bool.false_eq_true, if_false, e]
      rw [← neg_div, ← neg_one_mul, ← sum_mul]
      congr 2
      apply List.map_congr_left
      intro m _
      split
      · rw [neg_one_mul, ← neg_div]; congr 1; ring
      · simp

/-! ### C131 -/

/-- The sum over the motif of a function that changes sign with its argument is zero. -/
theorem sum_odd {r : Rat} (hr : 0 < r) (g : Int × Int → K) (h : ∀ a b, g (-a, -b) = -g (a, b)) :
    (((disc r).eraseIdx ((disc r).length / 2)).map g).sum = 0 := by
  have hp : (((disc r).eraseIdx ((disc r).length / 2)).map fun p : Int × Int => (-p.1, -p.2)).Perm
      ((disc r).eraseIdx ((disc r).length / 2)) := by
    apply (List.perm_ext_iff_of_nodup ((motif_nodup hr).map ?_) (motif_nodup hr)).mpr
    · rintro ⟨a, b⟩
      rw [List.mem_map]
      constructor
      · rintro ⟨⟨c, d⟩, hm, e⟩
        simp only [Prod.mk.injEq] at e
        rw [← e.1, ← e.2]; exact (motif_neg hr c d).mp hm
      · intro hm
        exact ⟨(-a, -b), (motif_neg hr a b).mp hm, by simp⟩
    · rintro ⟨a, b⟩ ⟨c, d⟩ e
      simp only [Prod.mk.injEq, neg_inj] at e ⊢
      exact e
  have h1 := (hp.map g).sum_eq
  rw [List.map_map] at h1
  have h2 : (((disc r).eraseIdx ((disc r).length / 2)).map (g ∘ fun p : Int × Int => (-p.1, -p.2))).sum =
      -(((disc r).eraseIdx ((disc r).length / 2)).map g).sum := by
    rw [← neg_one_mul, ← sum_mul]
    congr 1
    apply List.map_congr_left
    rintro ⟨a, b⟩ _
    simp only [Function.comp_apply, h, neg_one_mul]
  rw [h2] at h1
  linarith

/-- An affine component has its centre value for mean. -/
theorem mean_affine {r : Rat} (hr : 1 ≤ r) (c a b : K) (i j : Int) (g : Int → Int → K)
    (hg : ∀ p q : Int, g p q = c + a * p + b * q) :
    meanAround g ((disc r).eraseIdx ((disc r).length / 2)) i j = g i j := by
  have hm := motif_ne hr
  have hn : (((disc r).eraseIdx ((disc r).length / 2)).length : K) ≠ 0 := by
    have := List.length_pos_iff.mpr hm
    exact_mod_cast this.ne'
  unfold meanAround
  have e : (((disc r).eraseIdx ((disc r).length / 2)).map fun m : Int × Int => g (m.1 + i) (m.2 + j)) =
      ((disc r).eraseIdx ((disc r).length / 2)).map fun m : Int × Int => (a * m.1 + b * m.2) + g i j := by
    apply List.map_congr_left
    intro m _
    rw [hg, hg]; push_cast; ring
  rw [e, sum_addc, sum_odd (by linarith) (fun m : Int × Int => a * m.1 + b * m.2) (fun p q => by push_cast; ring), zero_add,
    mul_div_cancel_left₀ _ hn]

/-- The total over tangential (or radial) velocities of the same sense. -/
theorem total_one {sq : K → K} (h : IsSqrt sq) {f : Vel K} (hdx : f.dx ≠ 0) (hdy : f.dy ≠ 0) {r : Rat} (hr : 0 < r) (cross : Bool)
    (u v : K) (i j : Int) (w : Int → Int → K) (s : Bool)
    (hw : ∀ m ∈ (disc r).eraseIdx ((disc r).length / 2), (if s then 0 < w m.1 m.2 else w m.1 m.2 < 0) ∧
      (if cross then f.vx (m.1 + i) (m.2 + j) - u = -w m.1 m.2 * (m.2 * f.dy) ∧ f.vy (m.1 + i) (m.2 + j) - v = w m.1 m.2 * (m.1 * f.dx)
       else f.vx (m.1 + i) (m.2 + j) - u = w m.1 m.2 * (m.1 * f.dx) ∧ f.vy (m.1 + i) (m.2 + j) - v = w m.1 m.2 * (m.2 * f.dy))) :
    total sq f ((disc r).eraseIdx ((disc r).length / 2)) cross u v i j =
      ((disc r).eraseIdx ((disc r).length / 2)).length * (if s then 1 else -1) := by
  unfold total
  apply sum_const
  intro m hm
  obtain ⟨h1, h2⟩ := hw m hm
  have hne : (m.1 : K) * f.dx ≠ 0 ∨ (m.2 : K) * f.dy ≠ 0 := by
    rcases ((mem_motif hr m.1 m.2).mp hm).1 with h0 | h0
    · exact .inl (mul_ne_zero (by exact_mod_cast h0) hdx)
    · exact .inr (mul_ne_zero (by exact_mod_cast h0) hdy)
  have hw0 : w m.1 m.2 ≠ 0 := by
    cases s
    · simp only [Bool.false_eq_true, if_false] at h1; exact h1.ne
    · simp only [if_true] at h1; exact h1.ne'
  have hs : (if 0 < w m.1 m.2 then (1 : K) else -1) = if s then 1 else -1 := by
    cases s
    · simp only [Bool.false_eq_true, if_false] at h1 ⊢; rw [if_neg (not_lt.mpr h1.le)]
    · simp only [if_true] at h1 ⊢; rw [if_pos h1]
  rw [← hs]
  dsimp only
  cases cross
  · simp only [Bool.false_eq_true, if_false] at h2 ⊢
    rw [h2.1, h2.2]
    apply term_parallel h hw0 hne <;> ring
  · simp only [if_true] at h2 ⊢
    rw [h2.1, h2.2]
    apply term_parallel h hw0 hne <;> ring

theorem len_cancel {r : Rat} (hr : 1 ≤ r) (x : K) : (((disc r).eraseIdx ((disc r).length / 2)).length : K) * x /
    ((disc r).eraseIdx ((disc r).length / 2)).length = x := by
  have hn : (((disc r).eraseIdx ((disc r).length / 2)).length : K) ≠ 0 := by
    have := List.length_pos_iff.mpr (motif_ne hr)
    exact_mod_cast this.ne'
  exact mul_div_cancel_left₀ _ hn

/-- C131: at the centre of a vortex (velocities around it perpendicular to the line to the centre, all in the same sense, of any
magnitudes), gamma1 is 1 for a counter-clockwise vortex and -1 for a clockwise one, and kappa1 is 0. -/
theorem C131_vortex {sq : K → K} (h : IsSqrt sq) {nx ny : Nat} {f : Vel K} (hdx : f.dx ≠ 0) (hdy : f.dy ≠ 0)
    {mask : Int → Int → Bool} {r : Rat} (hr : 1 ≤ r) {i j : Nat} (hi : i < nx) (hj : j < ny) (hc : Clear nx ny mask r i j)
    (w : Int → Int → K) (ccw : Bool) (hs : ∀ a b, if ccw then 0 < w a b else w a b < 0)
    (hf : ∀ a b : Int, f.vx a b = -w a b * ((b - j) * f.dy) ∧ f.vy a b = w a b * ((a - i) * f.dx)) :
    ∃ g g', criterion sq .gamma1 nx ny f mask r = .ok g ∧ criterion sq .kappa1 nx ny f mask r = .ok g' ∧
      g i j = some (if ccw then 1 else -1) ∧ g' i j = some 0 := by
  have hr0 : 0 < r := by linarith
  have hh := (hidden_iff hr0 hi hj).mpr hc
  refine ⟨_, _, criterion_ok sq _ nx ny f mask hr, criterion_ok sq _ nx ny f mask hr, ?_, ?_⟩
  · simp only [hh, Bool.false_eq_true, if_false, value, gamma1]
    rw [total_one h hdx hdy hr0 true 0 0 i j (fun a b => w (a + i) (b + j)) ccw, len_cancel hr]
    intro m _
    refine ⟨hs _ _, ?_⟩
    simp only [if_true, sub_zero]
    rw [(hf _ _).1, (hf _ _).2]
    push_cast
    exact ⟨by ring, by ring⟩
  · simp only [hh, Bool.false_eq_true, if_false, value, kappa1]
    have : total sq f ((disc r).eraseIdx ((disc r).length / 2)) false 0 0 i j = 0 := by
      unfold total
      rw [sum_const _ _ (c := 0), mul_zero]
      intro m _
      simp only [Bool.false_eq_true, if_false, sub_zero]
      have e : (m.1 : K) * f.dx * f.vx (m.1 + i) (m.2 + j) + m.2 * f.dy * f.vy (m.1 + i) (m.2 + j) = 0 := by
        rw [(hf _ _).1, (hf _ _).2]; push_cast; ring
      rw [e, term_perp]
    rw [this, zero_div]

/-- C131: at a source or a sink, kappa1 is 1 or -1, and gamma1 is 0. -/
theorem C131_source {sq : K → K} (h : IsSqrt sq) {nx ny : Nat} {f : Vel K} (hdx : f.dx ≠ 0) (hdy : f.dy ≠ 0)
    {mask : Int → Int → Bool} {r : Rat} (hr : 1 ≤ r) {i j : Nat} (hi : i < nx) (hj : j < ny) (hc : Clear nx ny mask r i j)
    (w : Int → Int → K) (out : Bool) (hs : ∀ a b, if out then 0 < w a b else w a b < 0)
    (hf : ∀ a b : Int, f.vx a b = w a b * ((a - i) * f.dx) ∧ f.vy a b = w a b * ((b - j) * f.dy)) :
    ∃ g g', criterion sq .kappa1 nx ny f mask r = .ok g ∧ criterion sq .gamma1 nx ny f mask r = .ok g' ∧
      g i j = some (if out then 1 else -1) ∧ g' i j = some 0 := by
  have hr0 : 0 < r := by linarith
  have hh := (hidden_iff hr0 hi hj).mpr hc
  refine ⟨_, _, criterion_ok sq _ nx ny f mask hr, criterion_ok sq _ nx ny f mask hr, ?_, ?_⟩
  · simp only [hh, Bool.false_eq_true, if_false, value, kappa1]
    rw [total_one h hdx hdy hr0 false 0 0 i j (fun a b => w (a + i) (b + j)) out, len_cancel hr]
    intro m _
    refine ⟨hs _ _, ?_⟩
    simp only [Bool.false_eq_true, if_false, sub_zero]
    rw [(hf _ _).1, (hf _ _).2]
    push_cast
    exact ⟨by ring, by ring⟩
  · simp only [hh, Bool.false_eq_true, if_false, value, gamma1]
    have : total sq f ((disc r).eraseIdx ((disc r).length / 2)) true 0 0 i j = 0 := by
      unfold total
      rw [sum_const _ _ (c := 0), mul_zero]
      intro m _
      simp only [if_true, sub_zero]
      have e : (m.1 : K) * f.dx * f.vy (m.1 + i) (m.2 + j) - m.2 * f.dy * f.vx (m.1 + i) (m.2 + j) = 0 := by
        rw [(hf _ _).1, (hf _ _).2]; push_cast; ring
      rw [e, term_perp]
    rw [this, zero_div]

/-- C131: in a solid body rotation at the rate `om` carried by a uniform flow `(a, b)`, gamma2 is the sign of the rotation at
every point shown, wherever the centre of the rotation `(x0, y0)` lies. -/
theorem C131_rotation {sq : K → K} (h : IsSqrt sq) {nx ny : Nat} {f : Vel K} (hdx : f.dx ≠ 0) (hdy : f.dy ≠ 0)
    {mask : Int → Int → Bool} {r : Rat} (hr : 1 ≤ r) {om a b x0 y0 : K} (hom : om ≠ 0)
    (hf : ∀ p q : Int, f.vx p q = a - om * (q * f.dy - y0) ∧ f.vy p q = b + om * (p * f.dx - x0)) :
    ∃ g, criterion sq .gamma2 nx ny f mask r = .ok g ∧
      ∀ i j, i < nx → j < ny → g i j = some (if 0 < om then 1 else -1) ∨ (g i j = none ∧ ¬ Clear nx ny mask r i j) := by
  have hr0 : 0 < r := by linarith
  refine ⟨_, criterion_ok sq _ nx ny f mask hr, ?_⟩
  intro i j hi hj
  by_cases hc : Clear nx ny mask r i j
  · left
    have hh := (hidden_iff hr0 hi hj).mpr hc
    simp only [hh, Bool.false_eq_true, if_false, value, gamma2]
    rw [mean_affine hr (a + om * y0) 0 (-om * f.dy) i j f.vx (fun p q => by rw [(hf p q).1]; ring),
      mean_affine hr (b - om * x0) (om * f.dx) 0 i j f.vy (fun p q => by rw [(hf p q).2]; ring),
      total_one h hdx hdy hr0 true _ _ i j (fun _ _ => om) (decide (0 < om)), len_cancel hr]
    · simp
    · intro m _
      constructor
      · by_cases h0 : 0 < om
        · simp [h0]
        · simp only [h0, decide_false, Bool.false_eq_true, if_false]; exact lt_of_le_of_ne (not_lt.mp h0) hom
      · simp only [if_true]
        rw [(hf _ _).1, (hf _ _).2, (hf _ _).1, (hf _ _).2]
        push_cast
        exact ⟨by ring, by ring⟩
  · right
    refine ⟨?_, hc⟩
    have : hidden nx ny r mask ((disc r).eraseIdx ((disc r).length / 2)) i j = true := by
      by_contra hh
      exact hc ((hidden_iff hr0 hi hj).mp (by simpa using hh))
    simp [this]

theorem sum_lt {α : Type} (l : List α) (g : α → K) (h : ∀ a ∈ l, |g a| ≤ 1) {a : α} (ha : a ∈ l) (hlt : g a < 1) :
    (l.map g).sum < l.length := by
  induction l with
  | nil => cases ha
  | cons b l ih =>
    simp only [List.map_cons, List.sum_cons, List.length_cons, Nat.cast_add, Nat.cast_one]
    have hl := abs_le.mp (abs_sum_le l g fun c hc => h c (List.mem_cons_of_mem _ hc))
    have hb := abs_le.mp (h b List.mem_cons_self)
    rcases List.mem_cons.mp ha with rfl | ha
    · linarith [hl.2]
    · have := ih (fun c hc => h c (List.mem_cons_of_mem _ hc)) ha
      linarith [hb.2]

/-- C131, conversely: where gamma1 is 1, the velocity of every neighbour is perpendicular to the line to the centre and turns
counter-clockwise. -/
theorem C131_vortex_only {sq : K → K} (h : IsSqrt sq) {nx ny : Nat} {f : Vel K} {mask : Int → Int → Bool} {r : Rat} (hr : 1 ≤ r)
    {g : Nat → Nat → Option K} (hg : criterion sq .gamma1 nx ny f mask r = .ok g) {i j : Nat} (h1 : g i j = some 1) :
    ∀ a b : Int, (a ≠ i ∨ b ≠ j) → ((a : Rat) - i) ^ 2 + ((b : Rat) - j) ^ 2 ≤ r ^ 2 →
      (a - i) * f.dx * f.vx a b + (b - j) * f.dy * f.vy a b = 0 ∧ 0 < (a - i) * f.dx * f.vy a b - (b - j) * f.dy * f.vx a b := by
  have hr0 : 0 < r := by linarith
  rw [criterion_ok sq _ nx ny f mask hr] at hg
  cases hg
  dsimp only at h1
  split at h1
  · cases h1
  · rw [Option.some.injEq] at h1
    simp only [value, gamma1] at h1
    have hp : (0 : K) < ((disc r).eraseIdx ((disc r).length / 2)).length := by
      have := List.length_pos_iff.mpr (motif_ne hr)
      exact_mod_cast this
    rw [div_eq_one_iff_eq hp.ne'] at h1
    intro a b hne hd
    have hm : ((a - i, b - j) : Int × Int) ∈ (disc r).eraseIdx ((disc r).length / 2) := by
      rw [mem_motif hr0]
      refine ⟨by omega, ?_⟩
      push_cast
      exact hd
    have ht : term sq ((a - i) * f.dx * f.vy a b - (b - j) * f.dy * f.vx a b) ((a - i) * f.dx) ((b - j) * f.dy) (f.vx a b) (f.vy a b) = 1 := by
      by_contra hlt
      have hle := term_abs (num := (a - i) * f.dx * f.vy a b - (b - j) * f.dy * f.vx a b) h (cross_le ((a - i) * f.dx) ((b - j) * f.dy) (f.vx a b) (f.vy a b))
      refine absurd h1 (ne_of_lt ?_)
      unfold total
      refine sum_lt _ _ (fun m _ => term_abs h (cross_le _ _ _ _)) hm ?_
      simp only [if_true, sub_zero, sub_add_cancel]
      push_cast
      exact lt_of_le_of_ne (abs_le.mp hle).2 hlt
    unfold term at ht
    split at ht
    · next hd =>
      rw [div_eq_one_iff_eq hd] at ht
      have hpos : 0 < sq (f.vx a b ^ 2 + f.vy a b ^ 2) * sq (((a - i) * f.dx) ^ 2 + ((b - j) * f.dy) ^ 2) :=
        lt_of_le_of_ne (mul_nonneg (h _ (ss_nonneg _ _)).1 (h _ (ss_nonneg _ _)).1) (Ne.symm hd)
      refine ⟨?_, by rw [ht]; exact hpos⟩
      have e2 := congrArg (· ^ 2) ht
      rw [mul_pow (sq _), (h _ (ss_nonneg _ _)).2, (h _ (ss_nonneg _ _)).2] at e2
      have : ((a - i) * f.dx * f.vx a b + (b - j) * f.dy * f.vy a b) ^ 2 = 0 := by linear_combination -e2
      exact (pow_eq_zero_iff two_ne_zero).mp this
    · exact absurd ht (by norm_num)

/-! ### C132 -/

/-- C132, on fields where the velocities are affine functions of the position: kappa2 is the mean over the neighbours of the cosine
between the direction of the neighbour and its velocity relative to the neighbours' mean.  Missing: other fields, see
`C132_centre_violated`. -/
theorem C132_kappa2_partial {sq : K → K} {nx ny : Nat} {f : Vel K} {mask : Int → Int → Bool} {r : Rat} (hr : 1 ≤ r)
    {a b c a' b' c' : K} (hx : ∀ p q : Int, f.vx p q = c + a * p + b * q) (hy : ∀ p q : Int, f.vy p q = c' + a' * p + b' * q) :
    ∃ g motif, criterion sq .kappa2 nx ny f mask r = .ok g ∧ motifInd nx ny r = .ok motif ∧
      ∀ (i j : Nat) v, g i j = some v → v = total sq f motif false (meanAround f.vx motif i j) (meanAround f.vy motif i j) i j / motif.length := by
  refine ⟨_, _, criterion_ok sq _ nx ny f mask hr, motif_ok nx ny (by linarith), ?_⟩
  intro i j v hv
  split at hv
  · cases hv
  · cases hv
    simp only [value, kappa2]
    rw [kmean_eq _ (motif_ne hr), kmean_eq _ (motif_ne hr), mean_affine hr c a b i j f.vx hx, mean_affine hr c' a' b' i j f.vy hy]

/-- A term equal to one: the vectors are parallel. -/
theorem term_lt {sq : K → K} (h : IsSqrt sq) {ax ay bx bY : K} (hne : ax * bY - ay * bx ≠ 0) :
    term sq (ax * bx + ay * bY) ax ay bx bY < 1 := by
  have hle := term_abs (num := ax * bx + ay * bY) h (dot_le ax ay bx bY)
  refine lt_of_le_of_ne (abs_le.mp hle).2 fun e => hne ?_
  unfold term at e
  split at e
  · next hd =>
    rw [div_eq_one_iff_eq hd] at e
    have e2 := congrArg (· ^ 2) e
    simp only [mul_pow] at e2
    rw [(h _ (ss_nonneg _ _)).2, (h _ (ss_nonneg _ _)).2] at e2
    have : (ax * bY - ay * bx) ^ 2 = 0 := by linear_combination -e2
    exact (pow_eq_zero_iff two_ne_zero).mp this
  · exact absurd e (by norm_num)

/-- C132 fails: kappa2 is documented as kappa1 of the relative velocities, which gives one for a source whatever it is carried by.
The velocity it subtracts is that of the point itself, not that of its neighbourhood: with neighbours flowing exactly away from a
point, of which the velocity alone is not zero, kappa2 is below one, although the neighbours' mean velocity is zero. -/
theorem C132_centre_violated {sq : K → K} (h : IsSqrt sq) {nx ny : Nat} {f : Vel K} (hdx : f.dx ≠ 0) (hdy : f.dy ≠ 0)
    {mask : Int → Int → Bool} {r : Rat} (hr : 1 ≤ r) {i j : Nat} (hi : i < nx) (hj : j < ny) (hc : Clear nx ny mask r i j)
    (hf : ∀ a b : Int, (a ≠ i ∨ b ≠ j) → f.vx a b = (a - i) * f.dx ∧ f.vy a b = (b - j) * f.dy)
    (h0 : f.vx i j ≠ 0 ∨ f.vy i j ≠ 0) :
    ∃ g motif v, criterion sq .kappa2 nx ny f mask r = .ok g ∧ motifInd nx ny r = .ok motif ∧ g i j = some v ∧ v < 1 ∧
      meanAround f.vx motif i j = 0 ∧ meanAround f.vy motif i j = 0 ∧
      total sq f motif false (meanAround f.vx motif i j) (meanAround f.vy motif i j) i j / motif.length = 1 := by
  have hr0 : 0 < r := by linarith
  have hh := (hidden_iff hr0 hi hj).mpr hc
  have hv : ∀ m ∈ (disc r).eraseIdx ((disc r).length / 2), f.vx (m.1 + i) (m.2 + j) = m.1 * f.dx ∧
      f.vy (m.1 + i) (m.2 + j) = m.2 * f.dy := by
    intro m hm
    have := ((mem_motif hr0 m.1 m.2).mp hm).1
    rw [(hf (m.1 + i) (m.2 + j) (by omega)).1, (hf (m.1 + i) (m.2 + j) (by omega)).2]
    push_cast
    exact ⟨by ring, by ring⟩
  have m1 : meanAround f.vx ((disc r).eraseIdx ((disc r).length / 2)) i j = 0 := by
    unfold meanAround
    rw [List.map_congr_left fun m hm => (hv m hm).1, sum_odd hr0 (fun m : Int × Int => (m.1 : K) * f.dx) (fun p q => by push_cast; ring), zero_div]
  have m2 : meanAround f.vy ((disc r).eraseIdx ((disc r).length / 2)) i j = 0 := by
    unfold meanAround
    rw [List.map_congr_left fun m hm => (hv m hm).2, sum_odd hr0 (fun m : Int × Int => (m.2 : K) * f.dy) (fun p q => by push_cast; ring), zero_div]
  refine ⟨_, _, value sq .kappa2 f ((disc r).eraseIdx ((disc r).length / 2)) i j, criterion_ok sq _ nx ny f mask hr, motif_ok nx ny hr0,
    by simp [hh], ?_, m1, m2, ?_⟩
  · simp only [value, kappa2]
    rw [kmean_eq _ (motif_ne hr), kmean_eq _ (motif_ne hr)]
    have hp : (0 : K) < ((disc r).eraseIdx ((disc r).length / 2)).length := by
      have := List.length_pos_iff.mpr (motif_ne hr)
      exact_mod_cast this
    rw [div_lt_one hp]
    have hone : (1 : Rat) ≤ r ^ 2 := by nlinarith
    have i1 : ((1, 0) : Int × Int) ∈ (disc r).eraseIdx ((disc r).length / 2) :=
      (mem_motif hr0 1 0).mpr ⟨.inl (by decide), by simpa using hone⟩
    have i2 : ((0, 1) : Int × Int) ∈ (disc r).eraseIdx ((disc r).length / 2) :=
      (mem_motif hr0 0 1).mpr ⟨.inr (by decide), by simpa using hone⟩
    unfold total
    have hb : ∀ m ∈ (disc r).eraseIdx ((disc r).length / 2), |(fun m : Int × Int =>
        let bx := f.vx (m.1 + i) (m.2 + j) - f.vx i j
        let bY := f.vy (m.1 + i) (m.2 + j) - f.vy i j
        let ax := m.1 * f.dx
        let ay := m.2 * f.dy
        term sq (if false = true then ax * bY - ay * bx else ax * bx + ay * bY) ax ay bx bY) m| ≤ 1 := by
      intro m _
      exact term_abs h (dot_le _ _ _ _)
    rcases h0 with h0 | h0
    · refine sum_lt _ _ hb i2 ?_
      have e := hv _ i2
      simp only [Int.cast_zero, Int.cast_one, zero_mul, one_mul] at e
      dsimp only
      simp only [Bool.false_eq_true, if_false]
      rw [e.1, e.2]
      apply term_lt h
      simp [hdy, h0]
    · refine sum_lt _ _ hb i1 ?_
      have e := hv _ i1
      simp only [Int.cast_zero, Int.cast_one, zero_mul, one_mul] at e
      dsimp only
      simp only [Bool.false_eq_true, if_false]
      rw [e.1, e.2]
      apply term_lt h
      simp [hdx, h0]
  · rw [m1, m2, total_one h hdx hdy hr0 false 0 0 i j (fun _ _ => 1) true]
    · exact len_cancel hr _
    · intro m hm
      simp only [if_true, Bool.false_eq_true, if_false, sub_zero, one_mul]
      exact ⟨one_pos, hv m hm⟩

end
end IMT.Crit
