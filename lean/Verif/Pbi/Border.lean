import Verif.Pbi.Detect

/-! C85 and the witnesses for C58, C59: the cells detected over a whole field. -/

namespace IMT.Pbi

open Real Finset

open Classical in
/-- The cells that are reported: no masked corner (vd.py:111-119), sign test passed (vd.py:121-130), index not 0
(vd.py:147-151). -/
noncomputable def reported (vx vy : Nat → Nat → ℝ) (mask : Nat → Nat → Bool) (p : Nat × Nat) : Bool :=
  decide ((∀ a ∈ corners p.1 p.2, mask a.1 a.2 = false) ∧ examined vx vy p.1 p.2 ∧ cellIndex vx vy p.1 p.2 ≠ 0)

theorem reported_iff {vx vy : Nat → Nat → ℝ} {mask : Nat → Nat → Bool} {p : Nat × Nat} :
    reported vx vy mask p = true ↔
    (∀ a ∈ corners p.1 p.2, mask a.1 a.2 = false) ∧ examined vx vy p.1 p.2 ∧ cellIndex vx vy p.1 p.2 ≠ 0 := by
  classical
  unfold reported; exact decide_eq_true_iff

/-- `get_cp_cell_position`, vd.py:84-177: the cells (row, column) of a field with `n` rows and `m` columns for which a
critical point is reported, in the order of the loop. -/
noncomputable def detected (vx vy : Nat → Nat → ℝ) (mask : Nat → Nat → Bool) (n m : Nat) : List (Nat × Nat) :=
  ((List.range (n - 1)).flatMap fun i => (List.range (m - 1)).map fun j => (i, j)).filter
    (reported vx vy mask)

/-- C57: the index of a velocity cell is -1, 0 or 1. -/
theorem C57_velocity_cell (vx vy : Nat → Nat → ℝ) (i j : Nat) :
    cellIndex vx vy i j = -1 ∨ cellIndex vx vy i j = 0 ∨ cellIndex vx vy i j = 1 :=
  C57_cell_range (by have := pi_pos; linarith) _ _ _ fun a b => theta_range (vx a b) (vy a b)

theorem list_sum_range (f : Nat → ℝ) (k : Nat) : ((List.range k).map f).sum = ∑ x ∈ range k, f x := by
  induction k with
  | zero => simp
  | succ k ih => rw [List.range_succ, List.map_append, List.sum_append, ih, sum_range_succ]; simp

/-- C85: over a field without mask, without null vectors and without a cell having corners pointing exactly right and
exactly left, the indices of the reported cells add up to the index of the border of the field. -/
theorem C85_total_index_partial {vx vy : Nat → Nat → ℝ} {mask : Nat → Nat → Bool} {n m : Nat} (hn : 0 < n) (hm : 1 < m)
    (hmask : ∀ r c, mask r c = false) (hnz : ∀ r c, ¬ (vx r c = 0 ∧ vy r c = 0))
    (hopp : ∀ i j, ∀ a ∈ corners i j, ∀ b ∈ corners i j,
      ¬ (vy a.1 a.2 = 0 ∧ 0 < vx a.1 a.2 ∧ vy b.1 b.2 = 0 ∧ vx b.1 b.2 < 0)) :
    ((detected vx vy mask n m).map fun p => cellIndex vx vy p.1 p.2).sum =
      pbi (2 * π) (thetas vx vy) n (m - 1) := by
  have hT : (0 : ℝ) < 2 * π := by have := pi_pos; linarith
  rw [C57_additive_x hT _ hn (by omega), sum_comm]
  unfold detected
  have hfil : ∀ l : List (Nat × Nat), ((l.filter (reported vx vy mask)).map fun p => cellIndex vx vy p.1 p.2).sum =
      (l.map fun p => cellIndex vx vy p.1 p.2).sum := by
    intro l
    induction l with
    | nil => rfl
    | cons p l ih =>
      rw [List.filter_cons]
      by_cases h : reported vx vy mask p = true
      · rw [if_pos h, List.map_cons, List.sum_cons, ih, List.map_cons, List.sum_cons]
      · rw [if_neg h, ih, List.map_cons, List.sum_cons]
        have h0 : cellIndex vx vy p.1 p.2 = 0 := by
          by_contra hc
          apply h
          refine reported_iff.mpr ⟨fun a _ => hmask _ _, ?_, hc⟩
          by_contra he
          exact hc (C58_sign_test_partial vx vy p.1 p.2 he (fun a _ => hnz _ _) (hopp _ _))
        rw [h0, zero_add]
  rw [hfil]
  have hsum : ∀ k : Nat, (((List.range k).flatMap fun i => (List.range (m - 1)).map fun j => (i, j)).map
      fun p => cellIndex vx vy p.1 p.2).sum = ∑ r ∈ range k, ∑ c ∈ range (m - 1), cellIndex vx vy r c := by
    intro k
    induction k with
    | zero => simp
    | succ k ih =>
      rw [List.range_succ, List.flatMap_append, List.map_append, List.sum_append, ih, sum_range_succ]
      congr 1
      rw [List.flatMap_singleton, List.map_map, ← list_sum_range]
      rfl
  rw [hsum]
  rfl

/-- C85 without the hypothesis on the horizontal vectors: there is a field of two rows and two columns, without mask nor null vector, whose
border has an index that is not 0 although no cell is reported. -/
theorem C85_horizontal_violated :
    ∃ vx vy : Nat → Nat → ℝ, (∀ a ∈ corners 0 0, ¬ (vx a.1 a.2 = 0 ∧ vy a.1 a.2 = 0)) ∧
      detected vx vy (fun _ _ => false) 2 2 = [] ∧ pbi (2 * π) (thetas vx vy) 2 1 ≠ 0 := by
  obtain ⟨vx, vy, h1, h2, h3⟩ := C58_horizontal_violated
  refine ⟨vx, vy, h2, ?_, ?_⟩
  · have : reported vx vy (fun _ _ => false) (0, 0) = false := by
      rw [← Bool.not_eq_true, reported_iff]
      exact fun h => h1 h.2.1
    simp [detected, this]
  · have : shift (thetas vx vy) 0 0 = thetas vx vy := by
      funext r c
      simp [shift]
    unfold cellIndex at h3
    rwa [this] at h3

/-! ### Finding the cell again from its centre -/

/-- The centre given to a reported cell along one axis, vd.py:104-105 and 153-154: the first step of the axis is used
everywhere. -/
def centre (axe : List Rat) (j : Nat) : Rat := (axe[j]?).getD 0 + ((axe[1]?).getD 0 - (axe[0]?).getD 0) / 2

/-- `np.where(tmp_x < axe_x)[0][0] - 1`, vd.py:221-222 (the first coordinate is never above a centre, so the index is
not negative). -/
def lookup (axe : List Rat) (x : Rat) : Except Err Nat :=
  match axe.findIdx? fun a => decide (x < a) with
  | none => .error .indexError
  | some k => .ok (k - 1)

/-- C59: on an evenly spaced axis the cell found back from the centre is the reported cell. -/
theorem C59_lookup_partial {axe : List Rat} {d : Rat} (hd : 0 < d)
    (hev : ∀ k, k < axe.length → axe[k]? = some ((axe[0]?).getD 0 + k * d)) {j : Nat} (hj : j + 1 < axe.length) :
    lookup axe (centre axe j) = .ok j := by
  have h0 : (axe[1]?).getD 0 - (axe[0]?).getD 0 = d := by
    rw [hev 1 (by omega)]; simp
  have hcen : centre axe j = (axe[0]?).getD 0 + j * d + d / 2 := by
    unfold centre
    rw [h0, hev j (by omega)]; simp
  have hfind : axe.findIdx? (fun a => decide (centre axe j < a)) = some (j + 1) := by
    rw [List.findIdx?_eq_some_iff_getElem]
    have hget : ∀ k (hk : k < axe.length), axe[k] = (axe[0]?).getD 0 + k * d := by
      intro k hk
      have := hev k hk
      rw [List.getElem?_eq_getElem hk] at this
      exact Option.some.inj this
    refine ⟨hj, ?_, ?_⟩
    · rw [decide_eq_true_iff, hget _ hj, hcen]
      push_cast; linarith
    · intro k hk
      rw [Bool.not_eq_true, decide_eq_false_iff_not, hget _ (by omega), hcen]
      have : (k : Rat) ≤ j := by exact_mod_cast (by omega : k ≤ j)
      nlinarith
  unfold lookup
  rw [hfind]
  rfl

example : lookup [0, 2, 4, 6] (centre [0, 2, 4, 6] 1) = .ok 1 := by decide +kernel

/-- C59: on an irregular axis another cell is used, or `IndexError` is raised. -/
theorem C59_lookup_violated :
    lookup [0, 10, 11, 30] (centre [0, 10, 11, 30] 1) = .ok 2 ∧
    lookup [0, 10, 11] (centre [0, 10, 11] 1) = .error .indexError := by decide +kernel

/-! ### Witnesses -/

/-- Velocities turning anticlockwise around the cell, one per quadrant, give the index 1. -/
theorem turning_index {vx vy : Nat → Nat → ℝ} {i j : Nat}
    (h1 : 0 < vx i j ∧ vy i j < 0) (h2 : 0 < vx i (j + 1) ∧ 0 < vy i (j + 1))
    (h3 : vx (i + 1) j < 0 ∧ vy (i + 1) j < 0) (h4 : vx (i + 1) (j + 1) < 0 ∧ 0 < vy (i + 1) (j + 1)) :
    cellIndex vx vy i j = 1 := by
  have hp := pi_pos
  have hT : (0 : ℝ) < 2 * π := by linarith
  have a1 := theta_down (vx := vx i j) h1.2
  have b1 := theta_vx_pos (vy := vy i j) h1.1
  have a2 := theta_up (vx := vx i (j + 1)) h2.2
  have b2 := theta_vx_pos (vy := vy i (j + 1)) h2.1
  have a3 := theta_down (vx := vx (i + 1) j) h3.2
  have b3 := theta_vx_neg h3.1.le (ne_of_vy (vx := vx (i + 1) j) h3.2.ne)
  have a4 := theta_up (vx := vx (i + 1) (j + 1)) h4.2
  have b4 := theta_vx_neg h4.1.le (ne_of_vy (vx := vx (i + 1) (j + 1)) h4.2.ne')
  have c1 : 3 * π / 2 < theta (vx i j) (vy i j) := by rcases b1 with ⟨-, b⟩ | ⟨b, -⟩ <;> linarith
  have c2 : theta (vx i (j + 1)) (vy i (j + 1)) < π / 2 := by rcases b2 with ⟨-, b⟩ | ⟨b, -⟩ <;> linarith
  have hs := cell_sides hT (thetas vx vy) i j
  unfold cellIndex
  unfold W thetas at hs
  unfold thetas
  rw [wrap_inner (d := theta (vx i j) (vy i j) - theta (vx (i + 1) j) (vy (i + 1) j)) (by linarith) (by linarith),
    wrap_low (d := theta (vx i (j + 1)) (vy i (j + 1)) - theta (vx i j) (vy i j)) (by linarith),
    wrap_inner (d := theta (vx (i + 1) (j + 1)) (vy (i + 1) (j + 1)) - theta (vx i (j + 1)) (vy i (j + 1)))
      (by linarith) (by linarith),
    wrap_inner (d := theta (vx (i + 1) j) (vy (i + 1) j) - theta (vx (i + 1) (j + 1)) (vy (i + 1) (j + 1)))
      (by linarith) (by linarith)] at hs
  rw [← mul_left_inj' hT.ne', hs]
  ring

/-- The cell of the next example: (2, -1), (1, 2) below and (-1, -2), (-3, 1) above. -/
def exVx : Nat → Nat → ℝ := fun r c => if r = 0 then (if c = 0 then 2 else 1) else (if c = 0 then -1 else -3)
def exVy : Nat → Nat → ℝ := fun r c => if r = 0 then (if c = 0 then -1 else 2) else (if c = 0 then -2 else 1)

/-- The hypotheses of `C59_detected_partial` are met by a vortex. -/
example : cellIndex exVx exVy 0 0 ≠ 0 ∧ CleanSides (cellOf exVx exVy 0 0) ∧ sumZero (cellOf exVx exVy 0 0) = [] ∧
    ¬ anyZero (cellOf exVx exVy 0 0) ∧ (cellOf exVx exVy 0 0).dd ≠ 0 ∧ (cellOf exVx exVy 0 0).ee ≠ 0 := by
  refine ⟨?_, ?_, ?_, ?_, ?_, ?_⟩
  · rw [turning_index] <;> norm_num [exVx, exVy]
  · unfold CleanSides NotOpposite; norm_num [exVx, exVy, cellOf]
  · norm_num [sumZero, exVx, exVy, cellOf]
  · unfold anyZero; norm_num [exVx, exVy, cellOf]
  · unfold Cell.dd; norm_num [exVx, exVy, cellOf]
  · unfold Cell.ee; norm_num [exVx, exVy, cellOf]

/-- The hypotheses of `C85_total_index_partial` are met by the same field repeated, whose total index is not forced to
be 0. -/
example : (∀ r c, ¬ (exVx r c = 0 ∧ exVy r c = 0)) ∧ (∀ i j, ∀ a ∈ corners i j, ∀ b ∈ corners i j,
      ¬ (exVy a.1 a.2 = 0 ∧ 0 < exVx a.1 a.2 ∧ exVy b.1 b.2 = 0 ∧ exVx b.1 b.2 < 0)) ∧
    cellIndex exVx exVy 0 0 = 1 := by
  have h0 : ∀ r c, exVy r c ≠ 0 := by intro r c; unfold exVy; split <;> split <;> norm_num
  refine ⟨fun r c h => h0 r c h.2, fun i j a _ b _ h => h0 _ _ h.1, ?_⟩
  rw [turning_index] <;> norm_num [exVx, exVy]

/-- An affine velocity, and only its bilinear part matters, has `dd = 0`: the hypothesis of `C59_affine_violated` covers
every solid rotation, strain or shear. -/
theorem affine_dd {c : Cell ℝ} (hx : c.x1 + c.x4 = c.x2 + c.x3) (hy : c.y1 + c.y4 = c.y2 + c.y3) : c.dd = 0 := by
  have e1 : c.x4 = c.x2 + c.x3 - c.x1 := by linarith
  have e2 : c.y4 = c.y2 + c.y3 - c.y1 := by linarith
  unfold Cell.dd; rw [e1, e2]; ring

/-- C59: a detected vortex with an affine velocity, corners (2, -1), (1, 3) below and (-1, -3), (-2, 1) above: its
index is 1, its velocity vanishes at the centre of the cell, and the code drops it. -/
theorem C59_affine_dropped_violated :
    ∃ vx vy : Nat → Nat → ℝ, cellIndex vx vy 0 0 = 1 ∧ ZeroAt (cellOf vx vy 0 0) 1 1 (1/2) (1/2) ∧
      (inCell Real.sqrt (cellOf vx vy 0 0) 0 1 0 1 1 1 (1/2, 1/2) = .ok none ∨
       inCell Real.sqrt (cellOf vx vy 0 0) 0 1 0 1 1 1 (1/2, 1/2) = .error .indexError) := by
  refine ⟨fun r c => if r = 0 then (if c = 0 then 2 else 1) else (if c = 0 then -1 else -2),
    fun r c => if r = 0 then (if c = 0 then -1 else 3) else (if c = 0 then -3 else 1), ?_, ?_, ?_⟩
  · rw [turning_index] <;> norm_num
  · unfold ZeroAt bilin; norm_num [cellOf]
  · apply C59_affine_violated (fun a h => Real.sqrt_pos.mpr h) one_pos
    · norm_num [sumZero, cellOf]
    · apply affine_dd <;> norm_num [cellOf]

/-- C59: one corner with `vx + vy = 0`.  For the vortex (2, -1), (1, 2), (-1, -2), (-2, 2) the code returns the upper
right corner, where the velocity is (-2, 2). -/
theorem C59_corner_violated :
    let c : Cell Rat := ⟨2, 1, -1, -2, -1, 2, -2, 2⟩
    inCell (fun _ => 0) c 0 1 0 1 1 1 (1/2, 1/2) = .ok (some (1, 1)) ∧
    bilin 1 1 c.x1 c.x2 c.x3 c.x4 1 1 = -2 ∧ bilin 1 1 c.y1 c.y2 c.y3 c.y4 1 1 = 2 := by decide +kernel

/-- C59: the row and the column of that corner are exchanged: with (3, -3) at the lower right the code returns the
upper left corner. -/
theorem C59_corner_swapped_violated :
    inCell (K := Rat) (fun _ => 0) ⟨2, 3, -1, -3, -1, -3, -2, 1⟩ 0 1 0 1 1 1 (1/2, 1/2) = .ok (some (0, 1)) := by
  decide +kernel

/-- C59: one velocity component that is exactly 0 at a corner drops the critical point (vd.py:242-249). -/
theorem C59_null_component_violated :
    inCell (K := Rat) (fun _ => 0) ⟨2, 1, 0, -3, -1, 2, -2, 1⟩ 0 1 0 1 1 1 (1/2, 1/2) = .ok none := by
  decide +kernel

/-- C59: the result for two zeros is their mean, which is not a zero (such cells have index 0, `two_zeros_index`). -/
example :
    let c : Cell Rat := ⟨1, 3, -2, 1, 3, 1, -3, 2⟩
    inCell (fun _ => 2) c 0 1 0 1 1 1 (1/2, 1/2) = .ok (some (7/16, 11/15)) := by decide +kernel

/-- The hypotheses of `C59_unique_zero_partial` on a rational cell, and its result. -/
example :
    let c : Cell Rat := ⟨3, 2, 1, -3, 3, 1, 1, -2⟩
    c.dd ≠ 0 ∧ c.ee ≠ 0 ∧ c.disc = 4 ^ 2 ∧ inCell (fun _ => 4) c 0 1 0 1 1 1 (1/2, 1/2) = .ok (some (4/5, 1/2)) := by
  decide +kernel

end IMT.Pbi
