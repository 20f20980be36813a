import Verif.Panel.SearchModel
import Mathlib.Tactic.Linarith
import Mathlib.Tactic.FieldSimp
import Mathlib.Tactic.NormNum
import Mathlib.Tactic.Positivity

/-!
Properties C353 and C354: the distance at which the pressure of an obstacle is felt, and the thickness of the boundary layer in front of it.
-/

namespace IMT.Panel

variable {P : ℝ → Option ℝ} {p : ℝ → ℝ} {perc eps dx D : ℝ}

/-! ### specification -/

/-- The call ends with the result `r`. -/
def Ends (P : ℝ → Option ℝ) (D perc eps : ℝ) (r : Res ℝ) : Prop := ∃ fuel, gradPLength P D perc eps fuel = some r

/-- `r` is a distance to the centre of the obstacle, not less than that of its wall, at which the pressure is less than `perc` by `eps` at most. -/
def IsLength (P : ℝ → Option ℝ) (D perc eps r : ℝ) : Prop := D / 2 ≤ r ∧ ∃ v, P (-r) = some v ∧ v < perc ∧ perc - v < eps

/-- Upstream of the wall, the fluid: the pressure is `p`. -/
def Fluid (P : ℝ → Option ℝ) (D : ℝ) (p : ℝ → ℝ) : Prop := ∀ x ≤ -D / 2, P x = some (p x)

/-! ### helper lemmas -/

theorem isBelow_iff {perc : ℝ} {v : Option ℝ} : isBelow perc v = true ↔ ∃ a, v = some a ∧ a < perc := by
  cases v <;> simp [isBelow]

/-- What the three points give. -/
theorem lastBelow_some {x0 xf x : ℝ} {next : Option ℝ} (h : lastBelow P perc x0 xf = some (x, next)) :
    (∃ v, P x = some v ∧ v < perc) ∧ (x0 ≤ xf → x0 ≤ x ∧ x ≤ xf) ∧
      ∀ y, next = some y → isBelow perc (P y) = false ∧ y - x = (xf - x0) / 2 ∧ (y = xf ∨ y = (x0 + xf) / 2) := by
  unfold lastBelow at h
  by_cases h1 : isBelow perc (P xf) = true
  · rw [if_pos h1] at h
    cases h
    exact ⟨isBelow_iff.mp h1, fun h => ⟨h, le_refl _⟩, fun y hy => by cases hy⟩
  · rw [if_neg h1] at h
    have h1 : isBelow perc (P xf) = false := by simpa using h1
    by_cases h2 : isBelow perc (P ((x0 + xf) / 2)) = true
    · rw [if_pos h2] at h
      cases h
      exact ⟨isBelow_iff.mp h2, fun h => ⟨by linarith, by linarith⟩, fun y hy => by cases hy; exact ⟨h1, by ring, .inl rfl⟩⟩
    · rw [if_neg h2] at h
      have h2 : isBelow perc (P ((x0 + xf) / 2)) = false := by simpa using h2
      by_cases h3 : isBelow perc (P x0) = true
      · rw [if_pos h3] at h
        cases h
        exact ⟨isBelow_iff.mp h3, fun h => ⟨le_refl _, h⟩, fun y hy => by cases hy; exact ⟨h2, by ring, .inr rfl⟩⟩
      · rw [if_neg h3] at h
        cases h

theorem search_found (hd : 0 < dx) {w : ℝ} : ∀ (fuel i : Nat) (x0 xf r : ℝ), x0 ≤ xf → xf ≤ w → search P perc eps dx fuel i x0 xf = some (.ok r) →
    -r ≤ w ∧ ∃ v, P (-r) = some v ∧ v < perc ∧ perc - v < eps
  | 0, _, _, _, _, _, _, h => by cases h
  | fuel + 1, i, x0, xf, r, h0, hw, h => by
    rw [search] at h
    cases hl : lastBelow P perc x0 xf with
    | none =>
      simp only [hl] at h
      exact search_found hd fuel _ _ _ _ (by linarith) hw h
    | some q =>
      obtain ⟨x, next⟩ := q
      simp only [hl] at h
      obtain ⟨⟨v, e, hv⟩, hb, hn⟩ := lastBelow_some hl
      obtain ⟨hb1, hb2⟩ := hb h0
      by_cases hp : |perc - (P x).getD 0| < eps
      · rw [if_pos hp] at h
        cases h
        rw [e, Option.getD_some, abs_of_pos (by linarith)] at hp
        rw [neg_neg]
        exact ⟨by linarith, v, e, hv, hp⟩
      · rw [if_neg hp] at h
        by_cases hi : i + 1 > 100
        · rw [if_pos hi] at h
          cases h
        · rw [if_neg hi] at h
          cases next with
          | none => cases h
          | some y =>
            obtain ⟨_, h3, h4⟩ := hn y rfl
            refine search_found hd fuel _ x y r (by linarith) ?_ h
            rcases h4 with rfl | rfl
            · exact hw
            · linarith

/-- The three points of the line from the wall, with their positions and pressures: what `lastBelow` reads. -/
theorem line_three (u : ℝ) (vel : ℝ → ℝ → ℝ × ℝ) (solids : List (ℝ → ℝ → Bool)) (junk : ℝ) {x0 xf : ℝ} (h : x0 ≤ xf) :
    ((onLineSolid vel solids junk (xf, 0) (x0, 0) 3).map fun q => (q.1 + xf, if q.2.2 then none else some (cp u q.2.1))) =
      [xf, (x0 + xf) / 2, x0].map fun x => (x, axisPressure u vel solids x) := by
  have hr : List.range 3 = [0, 1, 2] := rfl
  have e1 : xf + 1 * ((x0 - xf) / (3 - 1)) = (x0 + xf) / 2 := by ring
  have e2 : xf + 2 * ((x0 - xf) / (3 - 1)) = x0 := by ring
  have ha : ∀ x, x0 ≤ x → absc (xf, 0) x0 0 (x, 0) + xf = x := by
    intro x hx
    unfold absc
    simp only [sub_self, ne_eq, OfNat.ofNat_ne_zero, not_false_eq_true, zero_pow, add_zero]
    rw [Real.sqrt_sq (by linarith), Real.sqrt_sq (by linarith)]
    ring
  have hp : ∀ x, (if inSolid solids x 0 = true then none else some (cp u (if inSolid solids x 0 = true then (junk, junk) else vel x 0))) =
      axisPressure u vel solids x := by
    intro x
    unfold axisPressure
    split <;> rfl
  unfold onLineSolid linspace
  rw [if_neg (by omega), if_neg (by omega), hr]
  simp only [List.map_cons, List.map_nil, List.zip_cons_cons, List.zip_nil_right, Nat.cast_zero, Nat.cast_one, Nat.cast_ofNat, e1, e2, zero_mul, add_zero,
    sub_self, zero_div, mul_zero, min_self, min_eq_right h, hp]
  rw [ha xf h, ha x0 (le_refl _), ha ((x0 + xf) / 2) (by linarith)]

/-! ### C353 -/

/-- C353: the distance given is one at which the pressure is that wanted, up to the precision. -/
theorem C353_found (hD : 0 < D) {r : ℝ} (h : Ends P D perc eps (.ok r)) : IsLength P D perc eps r := by
  obtain ⟨fuel, h⟩ := h
  obtain ⟨h1, h2⟩ := search_found (by linarith) fuel 0 _ _ r (by linarith) (le_refl _) h
  exact ⟨by linarith, h2⟩

/-- A pressure that changes at the rate `K` at most. -/
def Lips (D K : ℝ) (p : ℝ → ℝ) : Prop := ∀ x y, x ≤ y → y ≤ -D / 2 → |p y - p x| ≤ K * (y - x)

/-- The bisection, once the pressure is below on the left and not on the right. -/
theorem bisect_ok (hP : Fluid P D p) {K : ℝ} (hK : Lips D K p) : ∀ (n i : Nat) (x0 xf : ℝ), x0 ≤ xf → xf ≤ -D / 2 → p x0 < perc → perc ≤ p xf →
    i + n < 100 → K * (xf - x0) / 2 ^ n < eps → ∃ r, search P perc eps dx (n + 1) i x0 xf = some (.ok r) := by
  intro n
  induction n with
  | zero =>
    intro i x0 xf h0 hw h1 h2 hi he
    rw [search]
    have hb : ∃ q, lastBelow P perc x0 xf = some q := by
      unfold lastBelow
      rw [hP xf hw, hP x0 (by linarith), hP ((x0 + xf) / 2) (by linarith)]
      simp only [isBelow, decide_eq_true_eq]
      rw [if_pos h1]
      split
      · exact ⟨_, rfl⟩
      · split <;> exact ⟨_, rfl⟩
    obtain ⟨⟨x, next⟩, hl⟩ := hb
    simp only [hl]
    obtain ⟨⟨v, e, hv⟩, hb, hn⟩ := lastBelow_some hl
    obtain ⟨hb1, hb2⟩ := hb h0
    have hx : P x = some (p x) := hP x (by linarith)
    have hl := hK x xf hb2 hw
    rw [hx] at e
    cases e
    have hpos : 0 < p xf - p x := by linarith
    rw [abs_of_pos hpos] at hl
    have hKn : 0 ≤ K := by
      by_contra hc
      have hc : K < 0 := not_le.mp hc
      nlinarith
    have : K * (xf - x) ≤ K * (xf - x0) := by nlinarith
    rw [hx, Option.getD_some, abs_of_pos (by linarith), if_pos (by rw [pow_zero, div_one] at he; linarith)]
    exact ⟨_, rfl⟩
  | succ n ih =>
    intro i x0 xf h0 hw h1 h2 hi he
    rw [search]
    have hmid : (x0 + xf) / 2 ≤ -D / 2 := by linarith
    have hl : lastBelow P perc x0 xf = if p ((x0 + xf) / 2) < perc then some ((x0 + xf) / 2, some xf) else some (x0, some ((x0 + xf) / 2)) := by
      unfold lastBelow
      rw [hP xf hw, hP x0 (by linarith), hP _ hmid]
      simp only [isBelow, decide_eq_true_eq]
      rw [if_neg (by linarith), if_pos h1]
    rw [hl]
    have hhalf : ∀ a b : ℝ, b - a = (xf - x0) / 2 → K * (b - a) / 2 ^ n = K * (xf - x0) / 2 ^ (n + 1) := by
      intro a b hab
      rw [hab, pow_succ]
      field_simp
    by_cases hm : p ((x0 + xf) / 2) < perc
    · simp only [if_pos hm]
      rw [if_neg (show ¬ i + 1 > 100 by omega)]
      split
      · exact ⟨_, rfl⟩
      · exact ih (i + 1) _ xf (by linarith) hw hm h2 (by omega) (by rw [hhalf _ _ (by ring)]; exact he)
    · simp only [if_neg hm]
      rw [if_neg (show ¬ i + 1 > 100 by omega)]
      split
      · exact ⟨_, rfl⟩
      · exact ih (i + 1) x0 _ (by linarith) hmid h1 (by linarith) (by omega) (by rw [hhalf _ _ (by ring)]; exact he)

/-- The widening of the interval. -/
theorem widen_ok (hP : Fluid P D p) (hd : 0 < dx) {K : ℝ} (hK : Lips D K p) (hk0 : 0 ≤ K) {b : Nat} : ∀ (n i : Nat) (x0 xf : ℝ), x0 ≤ xf → xf ≤ -D / 2 →
    p (x0 - n * dx) < perc → perc ≤ p xf → i + n + b < 100 → K * (xf - x0 + n * dx) / 2 ^ b < eps →
    ∃ fuel r, search P perc eps dx fuel i x0 xf = some (.ok r) := by
  intro n
  induction n with
  | zero =>
    intro i x0 xf h0 hw h1 h2 hi he
    obtain ⟨r, hr⟩ := bisect_ok (dx := dx) hP hK b i x0 xf h0 hw (by simpa using h1) h2 (by omega) (by simpa using he)
    exact ⟨_, r, hr⟩
  | succ n ih =>
    intro i x0 xf h0 hw h1 h2 hi he
    by_cases hx0 : p x0 < perc
    · have hle : K * (xf - x0) / 2 ^ b ≤ K * (xf - x0 + (n + 1 : Nat) * dx) / 2 ^ b := by
        have : (0 : ℝ) ≤ (n + 1 : Nat) * dx := by positivity
        gcongr
        linarith
      obtain ⟨r, hr⟩ := bisect_ok (dx := dx) hP hK b i x0 xf h0 hw hx0 h2 (by omega) (lt_of_le_of_lt hle he)
      exact ⟨_, r, hr⟩
    · by_cases hm : p ((x0 + xf) / 2) < perc
      · have hmid : (x0 + xf) / 2 ≤ -D / 2 := by linarith
        have hle : K * (xf - (x0 + xf) / 2) / 2 ^ b ≤ K * (xf - x0 + (n + 1 : Nat) * dx) / 2 ^ b := by
          have : (0 : ℝ) ≤ (n + 1 : Nat) * dx := by positivity
          gcongr
          linarith
        obtain ⟨r, hr⟩ := bisect_ok (dx := dx) hP hK b (i + 1) ((x0 + xf) / 2) xf (by linarith) hw hm h2 (by omega) (lt_of_le_of_lt hle he)
        have hl : lastBelow P perc x0 xf = some ((x0 + xf) / 2, some xf) := by
          unfold lastBelow
          rw [hP xf hw, hP _ hmid]
          simp only [isBelow, decide_eq_true_eq]
          rw [if_neg (by linarith), if_pos hm]
        by_cases hp : |perc - (P ((x0 + xf) / 2)).getD 0| < eps
        · refine ⟨1, -((x0 + xf) / 2), ?_⟩
          rw [search]
          simp only [hl, if_pos hp]
        · refine ⟨b + 1 + 1, r, ?_⟩
          rw [search]
          simp only [hl, if_neg hp]
          rw [if_neg (show ¬ i + 1 > 100 by omega)]
          exact hr
      · have hl : lastBelow P perc x0 xf = none := by
          unfold lastBelow
          rw [hP xf hw, hP x0 (by linarith), hP ((x0 + xf) / 2) (by linarith)]
          simp only [isBelow, decide_eq_true_eq]
          rw [if_neg (by linarith), if_neg hm, if_neg hx0]
        obtain ⟨fuel, r, hr⟩ := ih (i + 1) (x0 - dx) xf (by linarith) hw (by
          rw [show x0 - dx - (n : ℝ) * dx = x0 - ((n + 1 : Nat) : ℝ) * dx by push_cast; ring]
          exact h1) h2 (by omega) (by
          rw [show xf - (x0 - dx) + (n : ℝ) * dx = xf - x0 + ((n + 1 : Nat) : ℝ) * dx by push_cast; ring]
          exact he)
        refine ⟨fuel + 1, r, ?_⟩
        rw [search]
        simp only [hl]
        exact hr

/-- C353: a distance is given when the pressure of the fluid, that does not change faster than `K`, is `perc` at least at the wall, and less at `n + 1`
times five diameters upstream, if the halvings that are left among the hundred turns are enough for the precision. -/
theorem C353_converges_partial (hD : 0 < D) (hP : Fluid P D p) {K : ℝ} (hK : Lips D K p) (hk0 : 0 ≤ K) {n b : Nat} (hwall : perc ≤ p (-D / 2))
    (hfar : p (-D / 2 - (n + 1) * (5 * D)) < perc) (hn : n + b < 100) (he : K * ((n + 1) * (5 * D)) / 2 ^ b < eps) :
    ∃ r, Ends P D perc eps (.ok r) ∧ IsLength P D perc eps r := by
  obtain ⟨fuel, r, h⟩ := widen_ok (perc := perc) (eps := eps) hP (show 0 < 5 * D by linarith) hK hk0 (b := b) n 0 (-D / 2 - 5 * D) (-D / 2) (by linarith) (le_refl _)
    (by rw [show -D / 2 - 5 * D - (n : ℝ) * (5 * D) = -D / 2 - (n + 1) * (5 * D) by ring]; exact hfar) hwall (by omega)
    (by rw [show -D / 2 - (-D / 2 - 5 * D) + (n : ℝ) * (5 * D) = (n + 1) * (5 * D) by ring]; exact he)
  exact ⟨r, ⟨fuel, h⟩, C353_found hD ⟨fuel, h⟩⟩

/-- C353 fails when the pressure is never below: the call does not end. -/
theorem C353_endless_violated (hD : 0 < D) (hP : Fluid P D p) (hhigh : ∀ x ≤ -D / 2, perc ≤ p x) (r : Res ℝ) : ¬ Ends P D perc eps r := by
  have key : ∀ (fuel i : Nat) (x0 xf : ℝ), x0 ≤ xf → xf ≤ -D / 2 → search P perc eps (5 * D) fuel i x0 xf = none := by
    intro fuel
    induction fuel with
    | zero => intros; rfl
    | succ fuel ih =>
      intro i x0 xf h0 hw
      have hl : lastBelow P perc x0 xf = none := by
        unfold lastBelow
        rw [hP xf hw, hP x0 (by linarith), hP ((x0 + xf) / 2) (by linarith)]
        simp only [isBelow, decide_eq_true_eq]
        rw [if_neg (by linarith [hhigh xf hw]), if_neg (by linarith [hhigh ((x0 + xf) / 2) (by linarith)]), if_neg (by linarith [hhigh x0 (by linarith)])]
      rw [search]
      simp only [hl]
      exact ih _ _ _ (by linarith) hw
  rintro ⟨fuel, h⟩
  unfold gradPLength at h
  rw [key fuel 0 _ _ (by linarith) (le_refl _)] at h
  cases h

/-- C353 fails when the pressure wanted is larger than that at the wall: `IndexError`. -/
theorem C353_wall_violated (hP : Fluid P D p) (hD : 0 < D) (hlow : p (-D / 2) ≤ perc - eps) (he : 0 < eps) : Ends P D perc eps (.error .indexError) := by
  have hl : lastBelow P perc (-D / 2 - 5 * D) (-D / 2) = some (-D / 2, none) := by
    unfold lastBelow
    rw [hP _ (le_refl _)]
    simp only [isBelow, decide_eq_true_eq]
    rw [if_pos (by linarith)]
  refine ⟨1, ?_⟩
  unfold gradPLength
  rw [search]
  simp only [hl]
  rw [hP _ (le_refl _), Option.getD_some, if_neg (by rw [abs_of_pos (by linarith)]; linarith), if_neg (by omega)]

/-- A pressure that falls at a steady rate, to be null ten diameters in front of the wall. -/
noncomputable def ramp (x : ℝ) : ℝ := max (1 + (x + 1 / 2) / 10) 0

theorem ramp_lips : Lips 1 (1 / 10) ramp := by
  intro x y hxy _
  unfold ramp
  refine (abs_max_sub_max_le_abs _ _ _).trans ?_
  rw [show 1 + (y + 1 / 2) / 10 - (1 + (x + 1 / 2) / 10) = 1 / 10 * (y - x) by ring, abs_of_nonneg (by linarith)]

example : ∃ r, Ends (fun x => some (ramp x)) 1 (1 / 10) (1 / 1000000) (.ok r) ∧ IsLength (fun x => some (ramp x)) 1 (1 / 10) (1 / 1000000) r :=
  C353_converges_partial (n := 1) (b := 30) (by norm_num) (fun _ _ => rfl) ramp_lips (by norm_num) (by unfold ramp; norm_num) (by unfold ramp; norm_num)
    (by norm_num) (by norm_num)

example (r : Res ℝ) : ¬ Ends (fun x => some (ramp x)) 1 0 (1 / 1000000) r :=
  C353_endless_violated (by norm_num) (fun _ _ => rfl) (fun _ _ => le_max_right _ _) r

example : Ends (fun x => some (ramp x)) 1 2 (1 / 1000000) (.error .indexError) :=
  C353_wall_violated (p := ramp) (fun _ _ => rfl) (by norm_num) (by unfold ramp; norm_num) (by norm_num)

/-! ### C354 -/

/-- The integral of `U^5` from the first point to the `i`-th one, by trapezes. -/
noncomputable def fifthIntegral (pts : List (ℝ × ℝ)) (i : Nat) : ℝ := trapzR ((pts.take (i + 1)).map fun q => (q.1, q.2 ^ 5))

theorem take_succ_snoc {pts : List (ℝ × ℝ)} {i : Nat} {a : ℝ × ℝ} (h : pts[i]? = some a) : pts.take (i + 1) = pts.take i ++ [a] := by
  rw [List.take_add_one, h]
  rfl

theorem trapzR_snoc (l : List (ℝ × ℝ)) (a b : ℝ × ℝ) : trapzR (l ++ [a, b]) = trapzR (l ++ [a]) + (b.1 - a.1) * (a.2 + b.2) / 2 := by
  induction l with
  | nil => simp [trapzR]
  | cons c l ih =>
    cases l with
    | nil => simp [trapzR]
    | cons d l =>
      simp only [List.cons_append, trapzR] at ih ⊢
      rw [ih]
      ring

/-- C354 fails: at a point, the square of the momentum thickness is computed with the integral up to the point before. -/
theorem C354_late_violated {nu tmax2 : ℝ} {pts : List (ℝ × ℝ)} {i : Nat} {a : ℝ × ℝ} (h : pts[i + 1]? = some a) :
    theta2 nu tmax2 pts (i + 1) = min (0.45 * nu / a.2 ^ 6 * fifthIntegral pts i) tmax2 := by
  unfold theta2 fifthIntegral
  rw [h]
  rfl

/-- C354 fails for flows that go towards the obstacle: the thickness is too small everywhere, but at the first point. -/
theorem C354_small_violated {nu tmax2 : ℝ} {pts : List (ℝ × ℝ)} {i : Nat} {a b : ℝ × ℝ} (ha : pts[i]? = some a) (hb : pts[i + 1]? = some b) (hn : 0 < nu)
    (hx : a.1 < b.1) (hua : 0 < a.2) (hub : 0 < b.2) (hmax : 0.45 * nu / b.2 ^ 6 * fifthIntegral pts (i + 1) ≤ tmax2) :
    theta2 nu tmax2 pts (i + 1) < 0.45 * nu / b.2 ^ 6 * fifthIntegral pts (i + 1) := by
  have hlt : fifthIntegral pts i < fifthIntegral pts (i + 1) := by
    unfold fifthIntegral
    rw [take_succ_snoc hb, take_succ_snoc ha]
    simp only [List.map_append, List.map_cons, List.map_nil, List.append_assoc, List.cons_append, List.nil_append]
    rw [trapzR_snoc]
    have : 0 < (b.1 - a.1) * (a.2 ^ 5 + b.2 ^ 5) / 2 := by
      have := sub_pos.mpr hx
      positivity
    simp only
    linarith
  rw [C354_late_violated hb]
  exact lt_of_le_of_lt (min_le_left _ _) (mul_lt_mul_of_pos_left hlt (by positivity))

/-- C354: at the first point the thickness is null. -/
theorem C354_first {nu tmax2 : ℝ} (pts : List (ℝ × ℝ)) (h : 0 ≤ tmax2) : theta2 nu tmax2 pts 0 = 0 := by
  unfold theta2
  simp only [List.take_zero, List.map_nil, trapzR, mul_zero]
  exact min_eq_left h

example : theta2 1 100 [(0, 1), (1, 2), (3, 1)] 2 < 0.45 * 1 / 1 ^ 6 * fifthIntegral [(0, 1), (1, 2), (3, 1)] 2 :=
  C354_small_violated (a := (1, 2)) (b := (3, 1)) (i := 1) rfl rfl (by norm_num) (by norm_num) (by norm_num) (by norm_num) (by
    simp only [fifthIntegral, List.take, List.map_cons, List.map_nil, trapzR]
    norm_num)

end IMT.Panel
