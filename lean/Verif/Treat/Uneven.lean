import Verif.Treat.Grad

/-!
C119, C121: the gradients on uneven axes, where the first step of the axis is used everywhere.
-/

namespace IMT.Treat

theorem diff1_inner {l : List Rat} {i : Nat} {x x0 x1 : Rat} (hi : l[i]? = some x) (hi0 : l[i - 1]? = some x0)
    (hi1 : l[min (i + 1) (l.length - 1)]? = some x1) (h0 : x0 < x) (h1 : x < x1) {h : Rat} {g : Nat → Option Rat} {a b : Rat}
    (ha : g (i - 1) = some a) (hb : g (min (i + 1) (l.length - 1)) = some b) : diff1 l.length h g i = some ((b - a) / (2 * h)) := by
  have li := getElem?_some_lt hi
  have n0 : i ≠ 0 := by
    rintro rfl
    rw [hi] at hi0
    cases hi0
    exact lt_irrefl _ h0
  have n1 : i ≠ l.length - 1 := by
    intro e
    rw [show min (i + 1) (l.length - 1) = i by omega, hi] at hi1
    cases hi1
    exact lt_irrefl _ h1
  rw [show min (i + 1) (l.length - 1) = i + 1 by omega] at hb
  unfold diff1
  rw [if_neg n0, if_neg n1, ha, hb]
  rfl

theorem diff1_shown {n j : Nat} (hj : j < n) (h2 : 2 ≤ n) {h : Rat} {g : Nat → Option Rat} {a b : Rat}
    (ha : g (j - 1) = some a) (hb : g (min (j + 1) (n - 1)) = some b) : (diff1 n h g j).isNone = false := by
  unfold diff1
  by_cases h0 : j = 0
  · subst h0
    rw [show min (0 + 1) (n - 1) = 1 by omega] at hb
    rw [if_pos rfl]
    have ha : g 0 = some a := ha
    rw [ha, hb]
    rfl
  · rw [if_neg h0]
    by_cases h1 : j = n - 1
    · rw [if_pos h1]
      rw [show j - 1 = n - 2 by omega] at ha
      rw [show min (j + 1) (n - 1) = n - 1 by omega] at hb
      rw [ha, hb]
      rfl
    · rw [if_neg h1]
      rw [show min (j + 1) (n - 1) = j + 1 by omega] at hb
      rw [ha, hb]
      rfl

theorem slope_ne {a b d s k : Rat} (hab : a ≠ b) (hd : 0 < d) (hs : 0 < s) (hds : d ≠ 2 * s) (hk : 0 < k) :
    (b - a) / (2 * s) * k ≠ (b - a) / d * k := by
  intro h
  have h := mul_right_cancel₀ (ne_of_gt hk) h
  rw [div_eq_div_iff (by linarith) (ne_of_gt hd)] at h
  exact hds (mul_left_cancel₀ (sub_ne_zero.2 (Ne.symm hab)) h)

variable {x y x0 x1 y0 y1 : Rat}

/-- C119 fails at every point inside the grid where the distance of the two neighbours is not twice the first step of the axis, when the
values of the two neighbours differ: the gradient shown is their difference over twice the first step, not over their distance. -/
theorem C119_uneven_violated {f : SF} (hf : f.WF) (h2x : 2 ≤ f.ax.length) (h2y : 2 ≤ f.ay.length) (pu : 0 < f.uv.size) (px : 0 < f.ux.size)
    {s0 s1 : Rat} (e0 : f.ax[0]? = some s0) (e1 : f.ax[1]? = some s1) (hx : Around f.ax x x0 x1) (hy : Around f.ay y y0 y1) (h0 : x0 < x) (h1 : x < x1)
    (hne : x1 - x0 ≠ 2 * (s1 - s0)) {a b c d : Rat} (hab : a ≠ b)
    (ra : f.Reads x0 y (some a)) (rb : f.Reads x1 y (some b)) (rc : f.Reads x y0 (some c)) (rd : f.Reads x y1 (some d)) :
    ∃ gx gy v, gradients f = .ok (gx, gy) ∧ gx.Reads x y (some v) ∧ v * gx.uv.size = (b - a) / (2 * (s1 - s0)) * (f.uv.size / f.ux.size) ∧
      v * gx.uv.size ≠ (b - a) / (x1 - x0) * (f.uv.size / f.ux.size) := by
  obtain ⟨gx, gy, e, w1, w2, a1, a2, b1, b2, _, _, _, _, v1, _, hc⟩ := gradients_cells hf h2x h2y
  obtain ⟨i, hi, hi0, hi1⟩ := hx
  obtain ⟨j, hj, hj0, hj1⟩ := hy
  have hs : step f.ax = s1 - s0 := by
    unfold step
    rw [List.getD_eq_getElem?_getD, List.getD_eq_getElem?_getD, e0, e1]
    rfl
  have ps := step_pos hf.incx h2x
  rw [hs] at ps
  have gX : gradX f.ax f.cell i j = some ((b - a) / (2 * (s1 - s0))) := by
    unfold gradX
    rw [hs]
    exact diff1_inner hi hi0 hi1 h0 h1 (SF_cell_of hf ra hi0 hj) (SF_cell_of hf rb hi1 hj)
  have gY : (gradY f.ay f.cell i j).isNone = false :=
    diff1_shown (getElem?_some_lt hj) h2y (SF_cell_of hf rc hi hj0) (SF_cell_of hf rd hi hj1)
  have k := (hc i j).1
  rw [gX, gY] at k
  have val : (b - a) / (2 * (s1 - s0)) * SF.unitNum (f.uv.div f.ux) * gx.uv.size = (b - a) / (2 * (s1 - s0)) * (f.uv.size / f.ux.size) := by
    rw [v1]; exact unit_scale _ _
  refine ⟨gx, gy, _, e, ⟨i, j, by rw [a1]; exact hi, by rw [a2]; exact hj, k⟩, val, ?_⟩
  rw [val]
  exact slope_ne hab (by linarith) ps hne (div_pos pu px)

/-- C121 fails in the same way for the derivative of each component along x, for instance the first one. -/
theorem C121_uneven_violated {f : VF} (hf : f.WF) (h2x : 2 ≤ f.ax.length) (h2y : 2 ≤ f.ay.length) (pu : 0 < f.uv.size) (px : 0 < f.ux.size)
    {s0 s1 : Rat} (e0 : f.ax[0]? = some s0) (e1 : f.ax[1]? = some s1) (hx : Around f.ax x x0 x1) (hy : Around f.ay y y0 y1) (h0 : x0 < x) (h1 : x < x1)
    (hne : x1 - x0 ≠ 2 * (s1 - s0)) {p q r s : Rat × Rat} (hpq : p.1 ≠ q.1)
    (rp : f.Reads x0 y (some p)) (rq : f.Reads x1 y (some q)) (rr : f.Reads x y0 (some r)) (rs : f.Reads x y1 (some s)) :
    ∃ a b c d v, gradientsV f = .ok (a, b, c, d) ∧ a.Reads x y (some v) ∧
      v * a.uv.size = (q.1 - p.1) / (2 * (s1 - s0)) * (f.uv.size / f.ux.size) ∧
      v * a.uv.size ≠ (q.1 - p.1) / (x1 - x0) * (f.uv.size / f.ux.size) := by
  obtain ⟨a, b, c, d, e, ga, _, _, _, v1, _, _, _, hc⟩ := gradientsV_cells hf h2x h2y
  obtain ⟨i, hi, hi0, hi1⟩ := hx
  obtain ⟨j, hj, hj0, hj1⟩ := hy
  have li := getElem?_some_lt hi
  have lj := getElem?_some_lt hj
  have li0 := getElem?_some_lt hi0
  have li1 := getElem?_some_lt hi1
  have lj0 := getElem?_some_lt hj0
  have lj1 := getElem?_some_lt hj1
  have hs : step f.ax = s1 - s0 := by
    unfold step
    rw [List.getD_eq_getElem?_getD, List.getD_eq_getElem?_getD, e0, e1]
    rfl
  have ps := step_pos hf.incx h2x
  rw [hs] at ps
  have X : ∀ {i j : Nat} {x y : Rat} {v : Rat × Rat}, f.ax[i]? = some x → f.ay[j]? = some y → f.Reads x y (some v) →
      compX f i j = some v.1 ∧ compY f i j = some v.2 := by
    intro i j x y v h1 h2 h
    rw [(comp_cell hf (getElem?_some_lt h1) (getElem?_some_lt h2)).1, (comp_cell hf (getElem?_some_lt h1) (getElem?_some_lt h2)).2,
      VF_cell_of hf h h1 h2]
    exact ⟨rfl, rfl⟩
  have gX : gradX f.ax (compX f) i j = some ((q.1 - p.1) / (2 * (s1 - s0))) := by
    unfold gradX
    rw [hs]
    exact diff1_inner hi hi0 hi1 h0 h1 (X hi0 hj rp).1 (X hi1 hj rq).1
  have m : gradMask f i j = false := by
    unfold gradMask
    have m2 : (gradY f.ay (compX f) i j).isNone = false := diff1_shown lj h2y (X hi hj0 rr).1 (X hi hj1 rs).1
    have m3 : (gradX f.ax (compY f) i j).isNone = false := diff1_shown li h2x (X hi0 hj rp).2 (X hi1 hj rq).2
    have m4 : (gradY f.ay (compY f) i j).isNone = false := diff1_shown lj h2y (X hi hj0 rr).2 (X hi hj1 rs).2
    rw [gX, m2, m3, m4]
    rfl
  have k := (hc i j).1
  rw [gX, m] at k
  have val : (q.1 - p.1) / (2 * (s1 - s0)) * SF.unitNum (f.uv.div f.ux) * a.uv.size = (q.1 - p.1) / (2 * (s1 - s0)) * (f.uv.size / f.ux.size) := by
    rw [v1]; exact unit_scale _ _
  refine ⟨a, b, c, d, _, e, ⟨i, j, by rw [ga.2.1]; exact hi, by rw [ga.2.2.1]; exact hj, k⟩, val, ?_⟩
  rw [val]
  exact slope_ne hpq (by linarith) ps hne (div_pos pu px)

/-- The hypotheses are met by the field `2 x` on the axis 0, 1, 3, at the point (1, 0): the slope is 2, the gradient 3. -/
example : uneven.WF ∧ Around uneven.ax 1 0 3 ∧ Around uneven.ay 0 0 1 ∧ uneven.Reads 0 0 (some 0) ∧ uneven.Reads 3 0 (some 6) ∧
    uneven.Reads 1 0 (some 2) ∧ uneven.Reads 1 1 (some 2) ∧ (3 : Rat) - 0 ≠ 2 * (1 - 0) := by
  refine ⟨⟨by decide +kernel, by decide +kernel, by decide, by decide, rfl, rfl, rfl, rfl, ?_⟩, ⟨1, rfl, rfl, rfl⟩, ⟨0, rfl, rfl, rfl⟩,
    ⟨0, 0, rfl, rfl, rfl⟩, ⟨2, 0, rfl, rfl, rfl⟩, ⟨1, 0, rfl, rfl, rfl⟩, ⟨1, 1, rfl, rfl, rfl⟩, by decide +kernel⟩
  intro i j _ _ h
  simp [uneven] at h

/-- The same values as a vector field. -/
def unevenV : VF :=
  { ax := [0, 1, 3], ay := [0, 1], cx := uneven.val, cy := uneven.val, mask := ⟨3, 2, fun _ _ => false⟩, ux := Sym.one, uy := Sym.one, uv := Sym.one }

example : unevenV.WF ∧ unevenV.Reads 0 0 (some (0, 0)) ∧ unevenV.Reads 3 0 (some (6, 6)) ∧ unevenV.Reads 1 0 (some (2, 2)) ∧
    unevenV.Reads 1 1 (some (2, 2)) ∧ (match gradientsV unevenV with
    | .ok (a, _) => a.cell 1 0
    | .error _ => none) = some 3 := by
  refine ⟨⟨by decide +kernel, by decide +kernel, by decide, by decide, rfl, rfl, rfl, rfl, rfl, rfl, ?_, ?_⟩,
    ⟨0, 0, rfl, rfl, rfl⟩, ⟨2, 0, rfl, rfl, rfl⟩, ⟨1, 0, rfl, rfl, rfl⟩, ⟨1, 1, rfl, rfl, rfl⟩, by decide +kernel⟩ <;>
  · intro i j _ _ h
    simp [unevenV, uneven] at h

end IMT.Treat
