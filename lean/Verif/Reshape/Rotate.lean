import Verif.Reshape.Model

/-! Rotation of points and profiles: C235. -/

namespace IMT.Reshape

/-- Specification: `r'` is `r` turned by the angle `θ` around the origin, anticlockwise: same length, and scalar and vector
products of `r` by `r'` those of the angle. -/
def Turned (θ : ℝ) (r r' : ℝ × ℝ) : Prop :=
  r'.1 ^ 2 + r'.2 ^ 2 = r.1 ^ 2 + r.2 ^ 2 ∧ r.1 * r'.1 + r.2 * r'.2 = (r.1 ^ 2 + r.2 ^ 2) * Real.cos θ ∧
    r.1 * r'.2 - r.2 * r'.1 = (r.1 ^ 2 + r.2 ^ 2) * Real.sin θ

theorem turned_turn (θ : ℝ) (r : ℝ × ℝ) : Turned θ r (turn θ r) := by
  have h := Real.cos_sq_add_sin_sq θ
  refine ⟨?_, ?_, ?_⟩
  · simp only [turn]
    have : (r.1 * Real.cos θ - r.2 * Real.sin θ) ^ 2 + (r.2 * Real.cos θ + r.1 * Real.sin θ) ^ 2 =
        (r.1 ^ 2 + r.2 ^ 2) * (Real.cos θ ^ 2 + Real.sin θ ^ 2) := by ring
    rw [this, h, mul_one]
  · simp only [turn]; ring
  · simp only [turn]; ring

/-- There is one such vector. -/
theorem turned_unique {θ : ℝ} {r a b : ℝ × ℝ} (ha : Turned θ r a) (hb : Turned θ r b) : a = b := by
  obtain ⟨a1, a2, a3⟩ := ha
  obtain ⟨b1, b2, b3⟩ := hb
  by_cases hr : r.1 ^ 2 + r.2 ^ 2 = 0
  · have z : ∀ c : ℝ × ℝ, c.1 ^ 2 + c.2 ^ 2 = 0 → c = (0, 0) := by
      intro c hc
      have h1 : c.1 = 0 := by nlinarith [sq_nonneg c.1, sq_nonneg c.2]
      have h2 : c.2 = 0 := by nlinarith [sq_nonneg c.1, sq_nonneg c.2]
      exact Prod.ext h1 h2
    rw [z a (a1.trans hr), z b (b1.trans hr)]
  · have e1 : r.1 * (a.1 - b.1) + r.2 * (a.2 - b.2) = 0 := by linarith
    have e2 : r.1 * (a.2 - b.2) - r.2 * (a.1 - b.1) = 0 := by linarith
    have h1 : (r.1 ^ 2 + r.2 ^ 2) * (a.1 - b.1) = 0 := by linear_combination r.1 * e1 - r.2 * e2
    have h2 : (r.1 ^ 2 + r.2 ^ 2) * (a.2 - b.2) = 0 := by linear_combination r.2 * e1 + r.1 * e2
    have h1 := (mul_eq_zero.1 h1).resolve_left hr
    have h2 := (mul_eq_zero.1 h2).resolve_left hr
    exact Prod.ext (by linarith) (by linarith)

/-- C235: `Points.rotate(angle)` turns every point anticlockwise by the angle around the origin, in place in the list. -/
theorem C235_points (θ : ℝ) (xy : List (ℝ × ℝ)) :
    (rotatePoints θ xy).length = xy.length ∧
      ∀ (i : Nat) (r : ℝ × ℝ), xy[i]? = some r → ∃ r', (rotatePoints θ xy)[i]? = some r' ∧ Turned θ r r' := by
  refine ⟨by simp [rotatePoints], fun i r h => ⟨turn θ r, ?_, turned_turn θ r⟩⟩
  unfold rotatePoints
  rw [List.getElem?_map, h]
  rfl

/-- C235: distances are kept. -/
theorem C235_distance (θ : ℝ) (xy : List (ℝ × ℝ)) {i j : Nat} {a b a' b' : ℝ × ℝ} (ha : xy[i]? = some a) (hb : xy[j]? = some b)
    (ha' : (rotatePoints θ xy)[i]? = some a') (hb' : (rotatePoints θ xy)[j]? = some b') :
    (a'.1 - b'.1) ^ 2 + (a'.2 - b'.2) ^ 2 = (a.1 - b.1) ^ 2 + (a.2 - b.2) ^ 2 := by
  unfold rotatePoints at ha' hb'
  rw [List.getElem?_map, ha] at ha'
  rw [List.getElem?_map, hb] at hb'
  rw [← Option.some.inj ha', ← Option.some.inj hb']
  have h := Real.cos_sq_add_sin_sq θ
  simp only [turn]
  linear_combination ((a.1 - b.1) ^ 2 + (a.2 - b.2) ^ 2) * h

/-- C235: two rotations add up; the opposite rotation brings the points back, and so does a full turn. -/
theorem C235_group (θ φ : ℝ) (xy : List (ℝ × ℝ)) :
    rotatePoints θ (rotatePoints φ xy) = rotatePoints (θ + φ) xy ∧ rotatePoints (-θ) (rotatePoints θ xy) = xy ∧
      rotatePoints (θ + 2 * Real.pi) xy = rotatePoints θ xy := by
  have add : ∀ θ φ : ℝ, rotatePoints θ (rotatePoints φ xy) = rotatePoints (θ + φ) xy := by
    intro θ φ
    unfold rotatePoints
    rw [List.map_map]
    refine List.map_congr_left fun r _ => ?_
    simp only [Function.comp, turn, Real.cos_add, Real.sin_add]
    refine Prod.ext ?_ ?_ <;> simp only <;> ring
  refine ⟨add θ φ, ?_, ?_⟩
  · rw [add, neg_add_cancel]
    unfold rotatePoints
    have : turn 0 = id := by funext r; simp [turn]
    rw [this, List.map_id]
  · unfold rotatePoints
    refine List.map_congr_left fun r _ => ?_
    simp [turn]

/-- What is assumed of the sort of the setter: the same points, in the order of the abscissae. -/
def IsSort (sort : List (ℝ × ℝ) → List (ℝ × ℝ)) : Prop := ∀ l, (sort l).Perm l ∧ ((sort l).map Prod.fst).Pairwise (· ≤ ·)

/-- C235: `Profile.rotate(angle)` turns the points of the profile **clockwise**: the result is the profile turned by the
opposite angle, sorted. -/
theorem C235_profile_partial {sort : List (ℝ × ℝ) → List (ℝ × ℝ)} (hs : IsSort sort) (θ : ℝ) (l : List (ℝ × ℝ)) :
    (rotateProfile sort θ l).length = l.length ∧ ((rotateProfile sort θ l).map Prod.fst).Pairwise (· ≤ ·) ∧
      (∀ r ∈ l, ∃ r' ∈ rotateProfile sort θ l, Turned (-θ) r r') ∧
      (∀ r' ∈ rotateProfile sort θ l, ∃ r ∈ l, Turned (-θ) r r') := by
  unfold rotateProfile
  obtain ⟨hp, ho⟩ := hs (l.map (turn (-θ)))
  refine ⟨by rw [hp.length_eq, List.length_map], ho, ?_, ?_⟩
  · intro r hr
    exact ⟨turn (-θ) r, hp.mem_iff.2 (List.mem_map.2 ⟨r, hr, rfl⟩), turned_turn _ _⟩
  · intro r' hr'
    obtain ⟨r, hr, rfl⟩ := List.mem_map.1 (hp.mem_iff.1 hr')
    exact ⟨r, hr, turned_turn _ _⟩

/-- C235: so a point of a profile is not turned as a point of a set of points, unless the sine of the angle is 0. -/
theorem C235_sense_violated {sort : List (ℝ × ℝ) → List (ℝ × ℝ)} (hs : IsSort sort) {θ : ℝ} (hθ : Real.sin θ ≠ 0) {r : ℝ × ℝ}
    (hr : r ≠ (0, 0)) : ∃ a b, rotatePoints θ [r] = [a] ∧ rotateProfile sort θ [r] = [b] ∧ Turned θ r a ∧ ¬ Turned θ r b := by
  refine ⟨turn θ r, turn (-θ) r, rfl, ?_, turned_turn _ _, ?_⟩
  · exact List.perm_singleton.1 (hs _).1
  · intro hc
    obtain ⟨-, -, h1⟩ := hc
    obtain ⟨-, -, h2⟩ := turned_turn (-θ) r
    rw [Real.sin_neg] at h2
    have h3 : (r.1 ^ 2 + r.2 ^ 2) * Real.sin θ = 0 := by linarith
    rcases mul_eq_zero.1 h3 with h | h
    · apply hr
      have h1 : r.1 = 0 := by nlinarith [sq_nonneg r.1, sq_nonneg r.2]
      have h2 : r.2 = 0 := by nlinarith [sq_nonneg r.1, sq_nonneg r.2]
      exact Prod.ext h1 h2
    · exact hθ h

/-! A quarter of a turn. -/

open Classical in
example : IsSort fun l => l.insertionSort fun a b => a.1 ≤ b.1 := by
  intro l
  refine ⟨List.perm_insertionSort _ _, ?_⟩
  have : IsTrans (ℝ × ℝ) fun a b => a.1 ≤ b.1 := ⟨fun _ _ _ h1 h2 => le_trans h1 h2⟩
  have : Std.Total fun a b : ℝ × ℝ => a.1 ≤ b.1 := ⟨fun a b => le_total a.1 b.1⟩
  rw [List.pairwise_map]
  exact List.pairwise_insertionSort _ _

example : Turned (Real.pi / 2) (1, 0) (0, 1) := by simp [Turned]

example : rotatePoints (Real.pi / 2) [(1, 0), (0, 2)] = [(0, 1), (-2, 0)] := by simp [rotatePoints, turn]

example : Real.sin (Real.pi / 2) ≠ 0 := by simp

end IMT.Reshape
