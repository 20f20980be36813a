import Verif.Pbi.Lemmas

/-! C57: the index of a loop is an integer, adds up over cells, and is -1, 0 or 1 for one cell. -/

namespace IMT.Pbi

open Finset

set_option linter.unusedSectionVars false

variable {K : Type} [Field K] [LinearOrder K] [IsStrictOrderedRing K]

/-- C57 (integer): before rounding, the index of every strip of columns is an integer; so rounding changes
nothing. -/
theorem C57_integer {T : K} (hT : 0 < T) (θ : Nat → Nat → K) (n i : Nat) : ∃ z : Int, pbi T θ n i = z := by
  obtain ⟨z, hz⟩ := closed_int T (border θ n i)
  refine ⟨z, ?_⟩
  unfold pbi
  rw [hz, mul_div_assoc, div_self (ne_of_gt hT), mul_one]

/-- The four sides of a cell. -/
theorem cell_sides {T : K} (hT : 0 < T) (θ : Nat → Nat → K) (r c : Nat) :
    pbi T (shift θ r c) 2 1 * T = W T (θ (r + 1) c) (θ r c) + W T (θ r c) (θ r (c + 1))
      + W T (θ r (c + 1)) (θ (r + 1) (c + 1)) + W T (θ (r + 1) (c + 1)) (θ (r + 1) c) := by
  rw [pbi_sides hT _ (by decide) (by decide), W_symm hT (θ (r + 1) c) (θ r c),
    W_symm hT (θ (r + 1) (c + 1)) (θ (r + 1) c)]
  simp [shift]
  ring

/-- C57 (additivity, along x): the index of the strip made of the columns `0..i` of a field with `n` rows is the
sum of the indices of its cells. -/
theorem C57_additive_x {T : K} (hT : 0 < T) (θ : Nat → Nat → K) {n i : Nat} (hn : 0 < n) (hi : 0 < i) :
    pbi T θ n i = ∑ c ∈ range i, ∑ r ∈ range (n - 1), pbi T (shift θ r c) 2 1 := by
  have hT' : T ≠ 0 := ne_of_gt hT
  rw [← mul_left_inj' hT', pbi_sides hT θ hn hi, sum_mul]
  have hcell : ∀ c, (∑ r ∈ range (n - 1), pbi T (shift θ r c) 2 1) * T =
      ((∑ r ∈ range (n - 1), W T (θ r (c + 1)) (θ (r + 1) (c + 1))) -
        ∑ r ∈ range (n - 1), W T (θ r c) (θ (r + 1) c)) +
      (W T (θ 0 c) (θ 0 (c + 1)) - W T (θ (n - 1) c) (θ (n - 1) (c + 1))) := by
    intro c
    rw [sum_mul]
    rw [← sum_range_sub' (fun r => W T (θ r c) (θ r (c + 1))) (n - 1), ← sum_sub_distrib, ← sum_add_distrib]
    apply sum_congr rfl
    intro r _
    rw [cell_sides hT, W_symm hT (θ (r + 1) c) (θ r c), W_symm hT (θ (r + 1) (c + 1)) (θ (r + 1) c)]
    ring
  rw [sum_congr rfl fun c _ => hcell c, sum_add_distrib,
    sum_range_sub (fun c => ∑ r ∈ range (n - 1), W T (θ r c) (θ (r + 1) c)) i, sum_sub_distrib]
  ring

/-- C57 (additivity, along y): the index `get_pbi('y')[k]` of a field with `n` rows and `m` columns is the sum of
the indices of the cells of the rows `k..n-1`. -/
theorem C57_additive_y {T : K} (hT : 0 < T) (θ : Nat → Nat → K) {n m k : Nat} (hm : 0 < m) :
    pbiY T θ n m k = ∑ r ∈ Ico k (n - 1), ∑ c ∈ range (m - 1), pbi T (shift θ r c) 2 1 := by
  unfold pbiY
  by_cases hk : n - 1 - k = 0
  · rw [if_pos hk, Ico_eq_empty (by omega), sum_empty]
  rw [if_neg hk, C57_additive_x hT _ hm (by omega)]
  have hT' : T ≠ 0 := ne_of_gt hT
  have hcell : ∀ j r, j < n - 1 - k →
      pbi T (shift (rot3 θ n) r j) 2 1 = pbi T (shift θ (n - 2 - j) r) 2 1 := by
    intro j r hj
    rw [← mul_left_inj' hT', cell_sides hT, cell_sides hT]
    unfold rot3
    rw [show n - 1 - j = (n - 2 - j) + 1 by omega, show n - 1 - (j + 1) = n - 2 - j by omega]
    ring
  rw [sum_congr rfl fun j hj => sum_congr rfl fun r _ => hcell j r (mem_range.mp hj)]
  rw [sum_Ico_eq_sum_range, ← sum_range_reflect]
  apply sum_congr rfl
  intro j hj
  have := mem_range.mp hj
  apply sum_congr rfl
  intro c _
  rw [show n - 2 - (n - 1 - k - 1 - j) = k + j by omega]

/-- A wrapped difference of two angles of one period is at most half a period, and equals half a period only if
nothing was wrapped. -/
theorem W_bound {T a b : K} (ha : 0 ≤ a) (haT : a < T) (hb : 0 ≤ b) (hbT : b < T) :
    (W T a b ≤ T / 2 ∧ -(T / 2) ≤ W T a b) ∧ (W T a b = T / 2 → b - a = T / 2) ∧
    (W T a b = -(T / 2) → b - a = -(T / 2)) := by
  unfold W wrap
  by_cases h1 : b - a > T / 2
  · simp only [if_pos h1]
    rw [if_neg (by linarith)]
    refine ⟨⟨by linarith, by linarith⟩, fun h => by linarith, fun h => by linarith⟩
  · simp only [if_neg h1]
    by_cases h2 : b - a < -(T / 2)
    · rw [if_pos h2]
      refine ⟨⟨by linarith, by linarith⟩, fun h => by linarith, fun h => by linarith⟩
    · rw [if_neg h2]
      refine ⟨⟨by linarith, by linarith⟩, fun h => h, fun h => h⟩

/-- C57 (range): the index of one cell is -1, 0 or 1. -/
theorem C57_cell_range {T : K} (hT : 0 < T) (θ : Nat → Nat → K) (r c : Nat)
    (h : ∀ a b, 0 ≤ θ a b ∧ θ a b < T) :
    pbi T (shift θ r c) 2 1 = -1 ∨ pbi T (shift θ r c) 2 1 = 0 ∨ pbi T (shift θ r c) 2 1 = 1 := by
  obtain ⟨z, hz⟩ := C57_integer hT (shift θ r c) 2 1
  have hs := cell_sides hT θ r c
  rw [hz] at hs ⊢
  obtain ⟨p1, p2⟩ := h (r + 1) c
  obtain ⟨q1, q2⟩ := h r c
  obtain ⟨u1, u2⟩ := h r (c + 1)
  obtain ⟨v1, v2⟩ := h (r + 1) (c + 1)
  obtain ⟨⟨a1, a2⟩, a3, a4⟩ := W_bound (T := T) p1 p2 q1 q2
  obtain ⟨⟨b1, b2⟩, b3, b4⟩ := W_bound (T := T) q1 q2 u1 u2
  obtain ⟨⟨c1, c2⟩, c3, c4⟩ := W_bound (T := T) u1 u2 v1 v2
  obtain ⟨⟨d1, d2⟩, d3, d4⟩ := W_bound (T := T) v1 v2 p1 p2
  have hup : z ≤ 1 := by
    by_contra hc
    have h2 : (2 : K) ≤ z := by exact_mod_cast (by omega : (2 : Int) ≤ z)
    have h3 : 2 * T ≤ z * T := mul_le_mul_of_nonneg_right h2 hT.le
    have := a3 (by linarith); have := b3 (by linarith); have := c3 (by linarith); have := d3 (by linarith)
    linarith
  have hlo : -1 ≤ z := by
    by_contra hc
    have h2 : (z : K) ≤ -2 := by exact_mod_cast (by omega : z ≤ -2)
    have h3 : z * T ≤ -2 * T := mul_le_mul_of_nonneg_right h2 hT.le
    have := a4 (by linarith); have := b4 (by linarith); have := c4 (by linarith); have := d4 (by linarith)
    linarith
  obtain h | h | h : z = -1 ∨ z = 0 ∨ z = 1 := by omega
  · left; rw [h]; norm_num
  · right; left; rw [h]; norm_num
  · right; right; rw [h]; norm_num

/-- A vortex (angles in degrees, `T = 360`, rows going up): index 1; a saddle: index -1; a uniform flow: 0. -/
example : pbi (360 : Rat) (fun r c => if r = 0 then (if c = 0 then 315 else 45) else (if c = 0 then 225 else 135)) 2 1
    = 1 := by decide +kernel
example : pbi (360 : Rat) (fun r c => if r = 0 then (if c = 0 then 45 else 315) else (if c = 0 then 135 else 225)) 2 1
    = -1 := by decide +kernel
example : pbi (360 : Rat) (fun _ _ => 30) 4 3 = 0 := by decide +kernel
/-- A strip of two cells holding a vortex and a saddle. -/
example : pbi (360 : Rat) (fun r c => if r = 0 then (if c = 0 then 315 else if c = 1 then 45 else 315)
      else (if c = 0 then 225 else if c = 1 then 135 else 225)) 2 2 = 0 := by decide +kernel

end IMT.Pbi
