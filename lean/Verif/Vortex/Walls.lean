import Verif.Vortex.History
import Verif.Vortex.Shape

/-!
C143: no flow goes through the walls of a vortex system.
-/

namespace IMT.Vortex

open Real

/-! ### specification -/

/-- The point is on the wall. -/
def Wall.On (w : Wall) (x y : ℝ) : Prop :=
  match w with
  | .atX p => x = p
  | .atY p => y = p

/-- The component of a vector across the wall. -/
def Wall.across (w : Wall) (u : ℝ × ℝ) : ℝ :=
  match w with
  | .atX _ => u.1
  | .atY _ => u.2

/-- The two walls are perpendicular. -/
def Wall.Perp : Wall → Wall → Prop
  | .atX _, .atY _ => True
  | .atY _, .atX _ => True
  | _, _ => False

/-- The vortices whose velocity depends on the distance to their centre only. -/
def Round : Kind → Prop
  | .hill _ _ => False
  | .chaplygin _ _ _ _ _ _ => False
  | _ => True

/-! ### lemmas -/

/-- A vector seen in the wall. -/
def Wall.reflect (w : Wall) (u : ℝ × ℝ) : ℝ × ℝ :=
  match w with
  | .atX _ => (-u.1, u.2)
  | .atY _ => (u.1, -u.2)

theorem reflect_add (w : Wall) (a b : ℝ × ℝ) : w.reflect (a + b) = w.reflect a + w.reflect b := by
  cases w <;> simp [Wall.reflect] <;> ring

theorem reflect_zero (w : Wall) : w.reflect 0 = 0 := by cases w <;> simp [Wall.reflect]

theorem reflect_sum {α : Type} (w : Wall) (l : List α) (f : α → ℝ × ℝ) :
    w.reflect (l.map f).sum = (l.map fun a => w.reflect (f a)).sum := by
  induction l with
  | nil => simp [reflect_zero]
  | cons a l ih => simp only [List.map_cons, List.sum_cons, reflect_add, ih]

theorem round_polar {k : Kind} (h : Round k) (d r t t' : ℝ) :
    (polar k (d * -1) r t').1 = (polar k d r t).1 ∧ (polar k (d * -1) r t').2 = -(polar k d r t).2 := by
  cases k with
  | hill _ _ => exact absurd h (by simp [Round])
  | chaplygin _ _ _ _ _ _ => exact absurd h (by simp [Round])
  | solid omega => simp [polar]
  | free gamma => simp only [polar]; split_ifs <;> simp
  | burger a b c => simp only [polar]; split_ifs <;> simp
  | lambOseen a b c => simp only [polar]; split_ifs <;> simp
  | rankine a b => simp only [polar]; split_ifs <;> simp
  | perso a b c d => simp only [polar]; split_ifs <;> simp

theorem round_centre {k : Kind} (h : Round k) (d t : ℝ) : polar k d 0 t = (0, 0) := by
  cases k with
  | hill _ _ => exact absurd h (by simp [Round])
  | chaplygin _ _ _ _ _ _ => exact absurd h (by simp [Round])
  | solid omega => simp [polar]
  | free gamma => simp [polar]
  | burger a b c => simp [polar]
  | lambOseen a b c => simp [polar]
  | rankine a b => simp [polar]
  | perso a b c d => simp [polar]

/-- The image of a round vortex moves the fluid as the vortex seen in the wall does. -/
theorem mirror_vector (w : Wall) {v : Vort} (h : Round v.kind) (x y : ℝ) :
    (mirror w v).vector x y = w.reflect (v.vector (w.symmetry (x, y)).1 (w.symmetry (x, y)).2) := by
  have hr : radius (mirror w v).x0 x (mirror w v).y0 y = radius v.x0 (w.symmetry (x, y)).1 v.y0 (w.symmetry (x, y)).2 := by
    unfold radius
    congr 1
    cases w <;> simp only [mirror, Wall.symmetry] <;> ring
  by_cases h0 : radius v.x0 (w.symmetry (x, y)).1 v.y0 (w.symmetry (x, y)).2 = 0
  · have e1 : (mirror w v).vector x y = (0, 0) := by
      unfold Vort.vector
      rw [hr, h0]
      have : polar (mirror w v).kind (mirror w v).rot 0 (theta (mirror w v).x0 x (mirror w v).y0 y) = (0, 0) :=
        round_centre (k := (mirror w v).kind) h _ _
      simp only [this, cart]
      simp
    have e2 : v.vector (w.symmetry (x, y)).1 (w.symmetry (x, y)).2 = (0, 0) := by
      unfold Vort.vector
      rw [h0, round_centre h]
      simp [cart]
    rw [e1, e2]
    cases w <;> simp [Wall.reflect]
  · set R := radius v.x0 (w.symmetry (x, y)).1 v.y0 (w.symmetry (x, y)).2 with hR
    have hpos : 0 < R := lt_of_le_of_ne (radius_nonneg _ _ _ _) (Ne.symm h0)
    have e1 : R ^ 2 = (x - (mirror w v).x0) ^ 2 + (y - (mirror w v).y0) ^ 2 := by rw [← hr]; exact radius_sq _ _ _ _
    have e2 : R ^ 2 = ((w.symmetry (x, y)).1 - v.x0) ^ 2 + ((w.symmetry (x, y)).2 - v.y0) ^ 2 := radius_sq _ _ _ _
    rw [vector_of hpos e1, vector_of hpos e2]
    obtain ⟨p1, p2⟩ := round_polar h v.rot R (theta v.x0 (w.symmetry (x, y)).1 v.y0 (w.symmetry (x, y)).2)
      (theta (mirror w v).x0 x (mirror w v).y0 y)
    have k1 : (polar (mirror w v).kind (mirror w v).rot R (theta (mirror w v).x0 x (mirror w v).y0 y)).1 =
        (polar v.kind v.rot R (theta v.x0 (w.symmetry (x, y)).1 v.y0 (w.symmetry (x, y)).2)).1 := p1
    have k2 : (polar (mirror w v).kind (mirror w v).rot R (theta (mirror w v).x0 x (mirror w v).y0 y)).2 =
        -(polar v.kind v.rot R (theta v.x0 (w.symmetry (x, y)).1 v.y0 (w.symmetry (x, y)).2)).2 := p2
    rw [k1, k2]
    generalize polar v.kind v.rot R (theta v.x0 (w.symmetry (x, y)).1 v.y0 (w.symmetry (x, y)).2) = P
    cases w <;> simp only [mirror, Wall.symmetry, Wall.reflect] <;> ext <;> simp only <;> ring

theorem induced_concat (ws : List Wall) (w : Wall) (vs : List Vort) (h : ∀ v ∈ vs, Round v.kind) (x y : ℝ) :
    induced (ws ++ [w]) vs x y =
      induced ws vs x y + w.reflect (induced ws vs (w.symmetry (x, y)).1 (w.symmetry (x, y)).2) := by
  unfold induced
  rw [List.sublists_concat, List.map_append, List.sum_append, List.map_map, reflect_sum]
  congr 2
  apply List.map_congr_left
  intro l _
  simp only [Function.comp]
  rw [reflect_sum]
  congr 1
  apply List.map_congr_left
  intro v hv
  rw [← mirror_vector w (v := seenIn l v) (h v hv)]
  apply vector_congr
  · rfl
  · simp only [seenIn, mirror, List.foldl_append, List.foldl_cons, List.foldl_nil]
  · simp only [seenIn, mirror, List.foldl_append, List.foldl_cons, List.foldl_nil]
  · simp only [seenIn, mirror, List.length_append, List.length_singleton, pow_succ]; ring

theorem induced_across (before after : List Wall) (w : Wall) (vs : List Vort) (h : ∀ v ∈ vs, Round v.kind)
    (hp : ∀ u ∈ after, w.Perp u) :
    ∀ x y, w.On x y → w.across (induced (before ++ w :: after) vs x y) = 0 := by
  induction after using List.reverseRecOn with
  | nil =>
    intro x y hw
    rw [induced_concat before w vs h]
    have e : w.symmetry (x, y) = (x, y) := by cases w <;> simp_all [Wall.symmetry, Wall.On]
    rw [e]
    cases w <;> simp [Wall.across, Wall.reflect]
  | append_singleton after u ih =>
    intro x y hw
    have ih' := ih (fun t ht => hp t (List.mem_append_left _ ht))
    have e : before ++ w :: (after ++ [u]) = (before ++ w :: after) ++ [u] := by simp
    rw [e, induced_concat _ u vs h]
    have h1 := ih' x y hw
    have hu := hp u (by simp)
    have h2 := ih' (u.symmetry (x, y)).1 (u.symmetry (x, y)).2 (by
      cases w <;> cases u <;> simp_all [Wall.symmetry, Wall.On, Wall.Perp])
    cases w <;> cases u <;> simp_all [Wall.across, Wall.reflect, Wall.Perp]

/-! ### C143 -/

/-- Whatever the history of a system of round vortices, no fluid goes through the last wall added, nor through a wall after which
only perpendicular walls were added. -/
theorem C143_wall_partial (h : Heap) (ops : List Op) (hc : Counted h.fn ⟨[], [], []⟩ ops)
    (hf : (ops.foldl (Content.step h.fn) ⟨[], [], []⟩).fields = [])
    (hr : ∀ v ∈ (ops.foldl (Content.step h.fn) ⟨[], [], []⟩).vs, Round v.kind)
    (before after : List Wall) (w : Wall)
    (hw : (ops.foldl (Content.step h.fn) ⟨[], [], []⟩).walls = before ++ w :: after) (hp : ∀ u ∈ after, w.Perp u)
    (x y : ℝ) (hon : w.On x y) :
    w.across ((ops.foldl step (h, Sys.new)).2.vector (ops.foldl step (h, Sys.new)).1 x y .all .all).2 = 0 := by
  rw [C144_history_partial h ops hc x y]
  unfold Content.velocity
  rw [hf, hw, List.map_nil, List.sum_nil, add_zero]
  exact induced_across before after w _ hr hp x y hon

/-- The hypotheses are met by a vortex of each round kind in a corner. -/
example (h : Heap) :
    let ops : List Op := [.addWall (.atX 0), .addVortex (mkFree 1 2 (-3) true), .addWall (.atY 0),
      .addVortex (mkRankine 2 1 1 1 false), .evolve 1]
    let c := ops.foldl (Content.step h.fn) ⟨[], [], []⟩
    Counted h.fn ⟨[], [], []⟩ ops ∧ c.fields = [] ∧ (∀ v ∈ c.vs, Round v.kind) ∧
      c.walls = [] ++ Wall.atX 0 :: [.atY 0] ∧ ∀ u ∈ [Wall.atY 0], (Wall.atX 0).Perp u := by
  refine ⟨by simp [Counted, Content.step], ?_, ?_, ?_, by simp [Wall.Perp]⟩
  · simp [Content.step]
  · simp [Content.step, bare, mkFree, mkRankine, Round]
  · simp [Content.step]

/-- A wall is made from exactly one position, and is there. -/
theorem C143_position (x y : Option ℝ) :
    ((∃ w, mkWall x y = .ok w) ↔ x.isSome ≠ y.isSome) ∧
    ∀ w, mkWall x y = .ok w → ∀ a b, w.On a b ↔ (x = some a ∨ y = some b) := by
  cases x <;> cases y <;> simp [mkWall, Wall.On, eq_comm]

/-- Two parallel walls: the flow of a free vortex goes through the first one, except in front of the vortex. -/
theorem C143_parallel_violated (a b L g y : ℝ) (m : Bool) (ha : a ≠ 0) (hL : L ≠ 0) (hg : g ≠ 0) (hy : y ≠ b)
    (h1 : a ≠ 2 * L) (h2 : a ≠ -(2 * L)) :
    (induced [.atX 0, .atX L] [mkFree a b g m] 0 y).1 ≠ 0 := by
  have key : ∀ (X : ℝ) (d : ℝ) (mv : Bool) (id : Nat), X ≠ 0 →
      ((⟨.free |g|, X, b, d, mv, id⟩ : Vort).vector 0 y).1 = -(|g| * d) * (y - b) / (2 * π * (X ^ 2 + (y - b) ^ 2)) := by
    intro X d mv id hX
    have hp : 0 < X ^ 2 + (y - b) ^ 2 := by positivity
    have hs : 0 < √(X ^ 2 + (y - b) ^ 2) := Real.sqrt_pos.mpr hp
    have e : √(X ^ 2 + (y - b) ^ 2) ^ 2 = (0 - X) ^ 2 + (y - b) ^ 2 := by rw [Real.sq_sqrt hp.le]; ring
    rw [vector_of (v := ⟨.free |g|, X, b, d, mv, id⟩) hs e]
    simp only [polar, hs.ne', if_false]
    have e2 : √(X ^ 2 + (y - b) ^ 2) ^ 2 = X ^ 2 + (y - b) ^ 2 := Real.sq_sqrt hp.le
    generalize √(X ^ 2 + (y - b) ^ 2) = R at hs e2
    rw [← e2]
    have := hs.ne'
    have hpi := Real.pi_ne_zero
    field_simp
    try ring
  have hsub : ([Wall.atX 0, .atX L] : List Wall).sublists = [[], [.atX 0], [.atX L], [.atX 0, .atX L]] := by rfl
  have k1 : ((seenIn [] (mkFree a b g m)).vector 0 y).1 = _ := key a (sign g * (-1) ^ 0) m 0 ha
  have k2 : ((seenIn [.atX 0] (mkFree a b g m)).vector 0 y).1 = _ := key (0 + (0 - a)) (sign g * (-1) ^ 1) m 0 (by simpa using ha)
  have k3 : ((seenIn [.atX L] (mkFree a b g m)).vector 0 y).1 = _ :=
    key (L + (L - a)) (sign g * (-1) ^ 1) m 0 (fun e => h1 (by linarith))
  have k4 : ((seenIn [.atX 0, .atX L] (mkFree a b g m)).vector 0 y).1 = _ :=
    key (L + (L - (0 + (0 - a)))) (sign g * (-1) ^ 2) m 0 (fun e => h2 (by linarith))
  unfold induced
  rw [hsub]
  simp only [List.map_cons, List.map_nil, List.sum_cons, List.sum_nil, add_zero, Prod.fst_add]
  rw [k1, k2, k3, k4]
  have hs := sign_mul_abs g
  have e0 : y - b ≠ 0 := sub_ne_zero.mpr hy
  have hq := sq_pos_of_ne_zero e0
  have p1 : 0 < a ^ 2 + (y - b) ^ 2 := by positivity
  have p3 : 0 < (L + (L - a)) ^ 2 + (y - b) ^ 2 := by positivity
  have p4 : 0 < (L + (L - (0 + (0 - a)))) ^ 2 + (y - b) ^ 2 := by positivity
  have e2 : (0 + (0 - a)) ^ 2 = a ^ 2 := by ring
  rw [e2]
  intro hz
  have hpi := Real.pi_ne_zero
  have hz' : g * (y - b) * (((L + (L - (0 + (0 - a)))) ^ 2 + (y - b) ^ 2) - ((L + (L - a)) ^ 2 + (y - b) ^ 2)) = 0 := by
    have e3 : -(|g| * (sign g * (-1) ^ 0)) * (y - b) / (2 * π * (a ^ 2 + (y - b) ^ 2)) +
        (-(|g| * (sign g * (-1) ^ 1)) * (y - b) / (2 * π * (a ^ 2 + (y - b) ^ 2)) +
        (-(|g| * (sign g * (-1) ^ 1)) * (y - b) / (2 * π * ((L + (L - a)) ^ 2 + (y - b) ^ 2)) +
        -(|g| * (sign g * (-1) ^ 2)) * (y - b) / (2 * π * ((L + (L - (0 + (0 - a)))) ^ 2 + (y - b) ^ 2)))) =
        (|g| * sign g) * (y - b) * (((L + (L - (0 + (0 - a)))) ^ 2 + (y - b) ^ 2) - ((L + (L - a)) ^ 2 + (y - b) ^ 2)) /
          (2 * π * ((L + (L - a)) ^ 2 + (y - b) ^ 2) * ((L + (L - (0 + (0 - a)))) ^ 2 + (y - b) ^ 2)) := by
      have := p1.ne'
      have := p3.ne'
      have := p4.ne'
      field_simp
      ring
    rw [e3, hs] at hz
    rcases div_eq_zero_iff.mp hz with h | h
    · exact h
    · exact absurd h (by positivity)
  have e5 : ((L + (L - (0 + (0 - a)))) ^ 2 + (y - b) ^ 2) - ((L + (L - a)) ^ 2 + (y - b) ^ 2) = 8 * L * a := by ring
  rw [e5] at hz'
  have : g * (y - b) * (8 * L * a) ≠ 0 := by
    refine mul_ne_zero (mul_ne_zero hg e0) (mul_ne_zero (mul_ne_zero (by norm_num) hL) ha)
  exact this hz'

/-- A Hill vortex and its image: fluid goes through the wall. -/
theorem C143_hill_violated (x0 y0 U rv d p y : ℝ) (m : Bool) (hU : U ≠ 0) (hx : x0 ≠ p) (hy : y ≠ y0)
    (hv : rv ≠ 0) (hne : (p - x0) ^ 2 + (y - y0) ^ 2 ≠ rv ^ 2) :
    (induced [.atX p] [mkHill x0 y0 U rv d m] p y).1 ≠ 0 := by
  have hd : p - x0 ≠ 0 := sub_ne_zero.mpr (Ne.symm hx)
  have he : y - y0 ≠ 0 := sub_ne_zero.mpr hy
  have hp : 0 < (p - x0) ^ 2 + (y - y0) ^ 2 := by positivity
  set R := √((p - x0) ^ 2 + (y - y0) ^ 2) with hR
  have hs : 0 < R := Real.sqrt_pos.mpr hp
  have hR2 : R ^ 2 = (p - x0) ^ 2 + (y - y0) ^ 2 := Real.sq_sqrt hp.le
  have hsub : ([Wall.atX p] : List Wall).sublists = [[], [.atX p]] := by rfl
  have key : ∀ (X D : ℝ), (p - X) ^ 2 = (p - x0) ^ 2 →
      ((⟨.hill U rv, X, y0, D, m, 0⟩ : Vort).vector p y).1 =
        -3 / 4 * U * R * (1 - R ^ 2 / rv ^ 2) * 2 * ((y - y0) / R) * ((p - X) / R) * ((p - X) / R) -
          3 / 2 * U * ((y - y0) / R) ^ 2 * R * (1 - 2 * R ^ 2 / rv ^ 2) * D * ((y - y0) / R) := by
    intro X D hX
    have e : R ^ 2 = (p - X) ^ 2 + (y - y0) ^ 2 := by rw [hX]; exact hR2
    have hrad := radius_of hs e
    have h0 : radius X p y0 y ≠ 0 := by rw [hrad]; exact hs.ne'
    rw [vector_of (v := ⟨.hill U rv, X, y0, D, m, 0⟩) hs e]
    simp only [polar, cos_theta h0, sin_theta h0, hrad]
  have k1 : ((seenIn [] (mkHill x0 y0 U rv d m)).vector p y).1 = _ := key x0 (d * (-1) ^ 0) rfl
  have k2 : ((seenIn [.atX p] (mkHill x0 y0 U rv d m)).vector p y).1 = _ := key (p + (p - x0)) (d * (-1) ^ 1) (by ring)
  unfold induced
  rw [hsub]
  simp only [List.map_cons, List.map_nil, List.sum_cons, List.sum_nil, add_zero, Prod.fst_add]
  rw [k1, k2]
  have e : -3 / 4 * U * R * (1 - R ^ 2 / rv ^ 2) * 2 * ((y - y0) / R) * ((p - x0) / R) * ((p - x0) / R) -
        3 / 2 * U * ((y - y0) / R) ^ 2 * R * (1 - 2 * R ^ 2 / rv ^ 2) * (d * (-1) ^ 0) * ((y - y0) / R) +
      (-3 / 4 * U * R * (1 - R ^ 2 / rv ^ 2) * 2 * ((y - y0) / R) * ((p - (p + (p - x0))) / R) * ((p - (p + (p - x0))) / R) -
        3 / 2 * U * ((y - y0) / R) ^ 2 * R * (1 - 2 * R ^ 2 / rv ^ 2) * (d * (-1) ^ 1) * ((y - y0) / R)) =
      -3 * U * (rv ^ 2 - R ^ 2) * (y - y0) * (p - x0) ^ 2 / (rv ^ 2 * R ^ 2) := by
    have := hs.ne'
    field_simp
    ring
  rw [e]
  refine div_ne_zero ?_ (by positivity)
  refine mul_ne_zero (mul_ne_zero (mul_ne_zero (mul_ne_zero (by norm_num) hU) ?_) he) (pow_ne_zero 2 hd)
  rw [hR2]
  exact sub_ne_zero.mpr (Ne.symm hne)

/-- A custom field is not seen in the walls: the flow through the wall at a point is the one of the custom field. -/
theorem C143_custom_violated (h : Heap) (k : Nat) (w : Wall) (v : Vort) (hr : Round v.kind) (x y : ℝ) (hon : w.On x y) :
    let t := [Op.addVortex v, .addWall w, .addField k].foldl step (h, Sys.new)
    w.across (t.2.vector t.1 x y .all .all).2 = w.across (h.fn k x y) := by
  intro t
  have e := C144_history_partial h [.addVortex v, .addWall w, .addField k] (by simp [Counted]) x y
  show w.across (t.2.vector t.1 x y .all .all).2 = _
  rw [e]
  have h1 := induced_across [] [] w [bare v] (by simpa [bare] using hr) (by simp) x y hon
  simp only [List.foldl_cons, List.foldl_nil, Content.step, Content.velocity, List.nil_append, List.map_cons, List.map_nil,
    List.sum_cons, List.sum_nil, add_zero] at h1 ⊢
  cases w <;> simp_all [Wall.across]

end IMT.Vortex
