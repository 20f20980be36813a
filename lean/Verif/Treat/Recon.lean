import Verif.Treat.Grad

/-!
Property C124: reconstruction of a field from its gradients.
-/

namespace IMT.Treat

/-! ### lemmas: the array part -/

section
variable {nx ny : Nat} {dx dy : Rat} {gx gy U : Arr}

/-- `U` has the given gradients, in the sense of the trapezoidal rule between neighbouring cells. -/
structure Trap (nx ny : Nat) (dx dy : Rat) (gx gy U : Arr) : Prop where
  x : ∀ i j, i + 1 < nx → j < ny → U (i + 1) j - U i j = trap dx (gx i j) (gx (i + 1) j)
  y : ∀ i j, i < nx → j + 1 < ny → U i (j + 1) - U i j = trap dy (gy i j) (gy i (j + 1))

theorem trap_comm (h a b : Rat) : trap h a b = trap h b a := by unfold trap; ring

theorem up_eq {n : Nat} {h : Rat} {g V : Nat → Rat} (hv : ∀ k, k + 1 < n → V (k + 1) - V k = trap h (g k) (g (k + 1))) :
    ∀ k, k < n → up h g k = V k - V 0 := by
  intro k
  induction k with
  | zero => intro _; simp [up]
  | succ k ih =>
    intro hk
    rw [up, ih (by omega), ← hv k hk]; ring

theorem down_eq {n : Nat} {h : Rat} {g V : Nat → Rat} (hv : ∀ k, k + 1 < n → V (k + 1) - V k = trap h (g k) (g (k + 1))) :
    ∀ k, k < n → down h g (n - 1) k = V (n - 1 - k) - V (n - 1) := by
  intro k
  induction k with
  | zero => intro _; simp [down]
  | succ k ih =>
    intro hk
    have e : n - 1 - k = n - 1 - k - 1 + 1 := by omega
    have := hv (n - 1 - k - 1) (by omega)
    rw [← e] at this
    rw [down, ih (by omega), trap_comm, ← this, show n - 1 - (k + 1) = n - 1 - k - 1 by omega]; ring

theorem onBorder_iff (i j : Nat) : onBorder nx ny i j = true ↔ (j = 0 ∨ j = ny - 1 ∨ i = 0 ∨ i = nx - 1) := by
  unfold onBorder; simp [or_assoc]

theorem joinA_eq (hx : 2 ≤ nx) (hy : 2 ≤ ny) (h : Trap nx ny dx dy gx gy U) {i j : Nat} (hi : i < nx) (hj : j < ny)
    (hb : onBorder nx ny i j = true) :
    joinA nx ny (b1 dx dy gx gy) (b4 nx ny dx dy gx gy) i j = U i j - U 0 0 := by
  have ux : ∀ j, j < ny → ∀ k, k < nx → up dx (fun k => gx k j) k = U k j - U 0 j := fun j hj =>
    up_eq (V := fun k => U k j) fun k hk => h.x k j hk hj
  have uy : ∀ i, i < nx → ∀ k, k < ny → up dy (fun k => gy i k) k = U i k - U i 0 := fun i hi =>
    up_eq (V := fun k => U i k) fun k hk => h.y i k hi hk
  have dX : ∀ j, j < ny → ∀ k, k < nx → down dx (fun k => gx k j) (nx - 1) k = U (nx - 1 - k) j - U (nx - 1) j := fun j hj =>
    down_eq (V := fun k => U k j) fun k hk => h.x k j hk hj
  have dY : ∀ i, i < nx → ∀ k, k < ny → down dy (fun k => gy i k) (ny - 1) k = U i (ny - 1 - k) - U i (ny - 1) := fun i hi =>
    down_eq (V := fun k => U i k) fun k hk => h.y i k hi hk
  have c1 : b1 dx dy gx gy (nx - 1) 0 = U (nx - 1) 0 - U 0 0 := by
    unfold b1; rw [if_pos rfl, ux 0 (by omega) _ (by omega)]
  have c2 : b1 dx dy gx gy 0 (ny - 1) = U 0 (ny - 1) - U 0 0 := by
    unfold b1; rw [if_neg (by omega), if_pos rfl, uy 0 (by omega) _ (by omega)]
  have c3 : b4 nx ny dx dy gx gy (nx - 1) 0 = U (nx - 1) 0 - U (nx - 1) (ny - 1) := by
    unfold b4
    rw [if_neg (by omega), if_pos rfl, dY (nx - 1) (by omega) _ (by omega), show ny - 1 - (ny - 1 - 0) = 0 by omega]
  have c4 : b4 nx ny dx dy gx gy 0 (ny - 1) = U 0 (ny - 1) - U (nx - 1) (ny - 1) := by
    unfold b4
    rw [if_pos rfl, dX (ny - 1) (by omega) _ (by omega), show nx - 1 - (nx - 1 - 0) = 0 by omega]
  have v1 : (j = 0 ∨ i = 0) → b1 dx dy gx gy i j = U i j - U 0 0 := by
    intro hc
    unfold b1
    by_cases h0 : j = 0
    · rw [if_pos h0, ux 0 (by omega) _ hi, h0]
    · have h1 : i = 0 := by tauto
      rw [if_neg h0, if_pos h1, uy 0 (by omega) _ hj, h1]
  have v1' : ¬ (j = 0 ∨ i = 0) → b1 dx dy gx gy i j = 0 := by
    intro hc
    unfold b1
    rw [if_neg (by tauto), if_neg (by tauto)]
  have v4 : (j = ny - 1 ∨ i = nx - 1) → b4 nx ny dx dy gx gy i j = U i j - U (nx - 1) (ny - 1) := by
    intro hc
    unfold b4
    by_cases h0 : j = ny - 1
    · rw [if_pos h0, dX (ny - 1) (by omega) _ (by omega), show nx - 1 - (nx - 1 - i) = i by omega, h0]
    · have h1 : i = nx - 1 := by tauto
      rw [if_neg h0, if_pos h1, dY (nx - 1) (by omega) _ (by omega), show ny - 1 - (ny - 1 - j) = j by omega, h1]
  unfold joinA
  dsimp only
  rw [c1, c2, c3, c4]
  rw [onBorder_iff] at hb
  by_cases hin : i < nx - 1 ∧ j < ny - 1
  · rw [if_pos hin, if_neg (by omega), v1 (by omega)]; ring
  · rw [if_neg hin, v4 (by omega)]
    by_cases hc : (i = nx - 1 ∧ j = 0) ∨ (i = 0 ∧ j = ny - 1)
    · rw [if_pos hc, v1 (by omega)]; ring
    · rw [if_neg hc, v1' (by omega)]; ring

theorem joinB_eq (hx : 2 ≤ nx) (hy : 2 ≤ ny) (h : Trap nx ny dx dy gx gy U) {i j : Nat} (hi : i < nx) (hj : j < ny)
    (hb : onBorder nx ny i j = true) :
    joinB nx ny (b2 ny dx dy gx gy) (b3 nx dx dy gx gy) i j = U i j - U 0 (ny - 1) := by
  have ux : ∀ j, j < ny → ∀ k, k < nx → up dx (fun k => gx k j) k = U k j - U 0 j := fun j hj =>
    up_eq (V := fun k => U k j) fun k hk => h.x k j hk hj
  have uy : ∀ i, i < nx → ∀ k, k < ny → up dy (fun k => gy i k) k = U i k - U i 0 := fun i hi =>
    up_eq (V := fun k => U i k) fun k hk => h.y i k hi hk
  have dX : ∀ j, j < ny → ∀ k, k < nx → down dx (fun k => gx k j) (nx - 1) k = U (nx - 1 - k) j - U (nx - 1) j := fun j hj =>
    down_eq (V := fun k => U k j) fun k hk => h.x k j hk hj
  have dY : ∀ i, i < nx → ∀ k, k < ny → down dy (fun k => gy i k) (ny - 1) k = U i (ny - 1 - k) - U i (ny - 1) := fun i hi =>
    down_eq (V := fun k => U i k) fun k hk => h.y i k hi hk
  have v2 : ∀ i j, i < nx → j < ny → (j = ny - 1 ∨ i = 0) → b2 ny dx dy gx gy i j = U i j - U 0 (ny - 1) := by
    intro i j hi hj hc
    unfold b2
    by_cases h0 : j = ny - 1
    · rw [if_pos h0, ux (ny - 1) (by omega) _ hi, h0]
    · have h1 : i = 0 := by tauto
      rw [if_neg h0, if_pos h1, dY 0 (by omega) _ (by omega), show ny - 1 - (ny - 1 - j) = j by omega, h1]
  have v2' : ¬ (j = ny - 1 ∨ i = 0) → b2 ny dx dy gx gy i j = 0 := by
    intro hc
    unfold b2
    rw [if_neg (by tauto), if_neg (by tauto)]
  have v3 : ∀ i j, i < nx → j < ny → (j = 0 ∨ i = nx - 1) → b3 nx dx dy gx gy i j = U i j - U (nx - 1) 0 := by
    intro i j hi hj hc
    unfold b3
    by_cases h0 : j = 0
    · rw [if_pos h0, dX 0 (by omega) _ (by omega), show nx - 1 - (nx - 1 - i) = i by omega, h0]
    · have h1 : i = nx - 1 := by tauto
      rw [if_neg h0, if_pos h1, uy (nx - 1) (by omega) _ hj, h1]
  unfold joinB
  dsimp only
  rw [v2 0 0 (by omega) (by omega) (by omega), v2 (nx - 1) (ny - 1) (by omega) (by omega) (by omega),
    v3 0 0 (by omega) (by omega) (by omega), v3 (nx - 1) (ny - 1) (by omega) (by omega) (by omega)]
  rw [onBorder_iff] at hb
  by_cases hin : i < nx - 1 ∧ 1 ≤ j
  · rw [if_pos hin, if_neg (by omega), v2 i j hi hj (by omega)]; ring
  · rw [if_neg hin, v3 i j hi hj (by omega)]
    by_cases hc : (i = 0 ∧ j = 0) ∨ (i = nx - 1 ∧ j = ny - 1)
    · rw [if_pos hc, v2 i j hi hj (by omega)]; ring
    · rw [if_neg hc, v2' (by omega)]; ring

theorem meanOver_congr {l : List (Nat × Nat)} {u v : Arr} (h : ∀ p ∈ l, u p.1 p.2 = v p.1 p.2) : meanOver l u = meanOver l v := by
  unfold meanOver
  rw [List.map_congr_left h]

theorem sum_shift (l : List (Nat × Nat)) (u : Arr) (a c : Rat) :
    (l.map fun p => (u p.1 p.2 - c) * a).sum = ((l.map fun p => u p.1 p.2).sum - c * l.length) * a := by
  induction l with
  | nil => simp
  | cons p l ih =>
    simp only [List.map_cons, List.sum_cons, List.length_cons, Nat.cast_add, Nat.cast_one]
    rw [ih]; ring

theorem meanOver_shift {l : List (Nat × Nat)} (hl : l ≠ []) (u : Arr) (a c : Rat) :
    meanOver l (fun i j => (u i j - c) * a) = (meanOver l u - c) * a := by
  have hp : (l.length : Rat) ≠ 0 := by
    have : 0 < l.length := List.length_pos_of_ne_nil hl
    exact_mod_cast this.ne'
  unfold meanOver
  rw [sum_shift]
  field_simp

theorem mem_cells {p : Nat × Nat} : p ∈ cells nx ny ↔ p.1 < nx ∧ p.2 < ny := by
  unfold cells
  simp only [List.mem_flatMap, List.mem_range, List.mem_map]
  constructor
  · rintro ⟨i, hi, j, hj, rfl⟩; exact ⟨hi, hj⟩
  · rintro ⟨hi, hj⟩; exact ⟨p.1, hi, p.2, hj, rfl⟩

/-- The centred border. -/
theorem centre_eq {u : Arr} {c : Rat} (hx : 2 ≤ nx) (hy : 2 ≤ ny)
    (h : ∀ i j, i < nx → j < ny → onBorder nx ny i j = true → u i j = U i j - c) {i j : Nat} (hi : i < nx) (hj : j < ny)
    (hb : onBorder nx ny i j = true) :
    centreBorder nx ny u i j = U i j - meanOver ((cells nx ny).filter fun p => onBorder nx ny p.1 p.2) U := by
  unfold centreBorder
  rw [if_pos hb, h i j hi hj hb]
  have hne : (cells nx ny).filter (fun p => onBorder nx ny p.1 p.2) ≠ [] := by
    apply List.ne_nil_of_mem (a := (0, 0))
    rw [List.mem_filter]
    exact ⟨mem_cells.mpr ⟨by simp; omega, by simp; omega⟩, by rw [onBorder_iff]; simp⟩
  have := meanOver_shift hne U 1 c
  simp only [mul_one] at this
  rw [meanOver_congr (v := fun i j => U i j - c), this]
  · ring
  · intro p hp
    rw [List.mem_filter, mem_cells] at hp
    exact h _ _ hp.1.1 hp.1.2 hp.2

theorem border_eq (hx : 2 ≤ nx) (hy : 2 ≤ ny) (h : Trap nx ny dx dy gx gy U) {i j : Nat} (hi : i < nx) (hj : j < ny)
    (hb : onBorder nx ny i j = true) :
    border nx ny dx dy gx gy i j = U i j - meanOver ((cells nx ny).filter fun p => onBorder nx ny p.1 p.2) U := by
  unfold border
  rw [centre_eq hx hy (fun i j hi hj hb => joinA_eq hx hy h hi hj hb) hi hj hb,
    centre_eq hx hy (fun i j hi hj hb => joinB_eq hx hy h hi hj hb) hi hj hb]
  ring

theorem sweep1_eq {u : Arr} {M : Rat} (hx : 2 ≤ nx) (hy : 2 ≤ ny) (h : Trap nx ny dx dy gx gy U)
    (hu : ∀ i j, i < nx → j < ny → onBorder nx ny i j = true → u i j = U i j - M) :
    ∀ i j, i < nx → j < ny → sweep1 dx dy gx gy u i j = U i j - M := by
  intro i
  induction i with
  | zero => intro j hi hj; rw [sweep1]; exact hu 0 j hi hj (by rw [onBorder_iff]; simp)
  | succ i ih =>
    intro j
    induction j with
    | zero => intro hi hj; rw [sweep1]; exact hu _ _ hi hj (by rw [onBorder_iff]; simp)
    | succ j ihj =>
      intro hi hj
      rw [sweep1, ih (j + 1) (by omega) hj, ihj hi (by omega), ← h.x i (j + 1) hi hj, ← h.y (i + 1) j hi hj]
      ring

theorem sweep2_eq {u : Arr} {M : Rat} (hx : 2 ≤ nx) (hy : 2 ≤ ny) (h : Trap nx ny dx dy gx gy U)
    (hu : ∀ i j, i < nx → j < ny → onBorder nx ny i j = true → u i j = U i j - M) :
    ∀ i k, i < nx → k < ny → sweep2 ny dx dy gx gy u i k = U i (ny - 1 - k) - M := by
  intro i
  induction i with
  | zero => intro j hi hj; rw [sweep2]; exact hu 0 _ hi (by omega) (by rw [onBorder_iff]; simp)
  | succ i ih =>
    intro k
    induction k with
    | zero => intro hi hj; rw [sweep2]; exact hu _ _ hi (by omega) (by rw [onBorder_iff]; simp)
    | succ k ihk =>
      intro hi hk
      have e : ny - 1 - k = ny - 1 - (k + 1) + 1 := by omega
      have hY := h.y (i + 1) (ny - 1 - (k + 1)) hi (by omega)
      rw [← e] at hY
      rw [sweep2, ih (k + 1) (by omega) hk, ihk hi (by omega), ← h.x i (ny - 1 - (k + 1)) hi (by omega), trap_comm dy, ← hY]
      ring

theorem sweep3_eq {u : Arr} {M : Rat} (hx : 2 ≤ nx) (hy : 2 ≤ ny) (h : Trap nx ny dx dy gx gy U)
    (hu : ∀ i j, i < nx → j < ny → onBorder nx ny i j = true → u i j = U i j - M) :
    ∀ k j, k < nx → j < ny → sweep3 nx dx dy gx gy u k j = U (nx - 1 - k) j - M := by
  intro k
  induction k with
  | zero => intro j hi hj; rw [sweep3]; exact hu _ j (by omega) hj (by rw [onBorder_iff]; simp)
  | succ k ih =>
    intro j
    induction j with
    | zero => intro hi hj; rw [sweep3]; exact hu _ _ (by omega) hj (by rw [onBorder_iff]; simp)
    | succ j ihj =>
      intro hk hj
      have e : nx - 1 - k = nx - 1 - (k + 1) + 1 := by omega
      have hX := h.x (nx - 1 - (k + 1)) (j + 1) (by omega) hj
      rw [← e] at hX
      rw [sweep3, ih (j + 1) (by omega) hj, ihj hk (by omega), ← h.y (nx - 1 - (k + 1)) j (by omega) hj, trap_comm dx, ← hX]
      ring

theorem sweep4_eq {u : Arr} {M : Rat} (hx : 2 ≤ nx) (hy : 2 ≤ ny) (h : Trap nx ny dx dy gx gy U)
    (hu : ∀ i j, i < nx → j < ny → onBorder nx ny i j = true → u i j = U i j - M) :
    ∀ k l, k < nx → l < ny → sweep4 nx ny dx dy gx gy u k l = U (nx - 1 - k) (ny - 1 - l) - M := by
  intro k
  induction k with
  | zero => intro l hi hj; rw [sweep4]; exact hu _ _ (by omega) (by omega) (by rw [onBorder_iff]; simp)
  | succ k ih =>
    intro l
    induction l with
    | zero => intro hi hj; rw [sweep4]; exact hu _ _ (by omega) (by omega) (by rw [onBorder_iff]; simp)
    | succ l ihl =>
      intro hk hl
      have e : nx - 1 - k = nx - 1 - (k + 1) + 1 := by omega
      have hX := h.x (nx - 1 - (k + 1)) (ny - 1 - (l + 1)) (by omega) (by omega)
      rw [← e] at hX
      have e' : ny - 1 - l = ny - 1 - (l + 1) + 1 := by omega
      have hY := h.y (nx - 1 - (k + 1)) (ny - 1 - (l + 1)) (by omega) (by omega)
      rw [← e'] at hY
      rw [sweep4, ih (l + 1) (by omega) hl, ihl hk (by omega), trap_comm dx, trap_comm dy, ← hX, ← hY]
      ring

theorem cornMean_congr (hx : 2 ≤ nx) {u v : Arr} (h : ∀ i j, i < nx → j < ny → u i j = v i j) :
    cornMean nx ny u = cornMean nx ny v := by
  unfold cornMean
  apply meanOver_congr
  intro p hp
  simp only [List.mem_flatMap, List.mem_map, List.mem_range] at hp
  obtain ⟨q, _, c, hc, rfl⟩ := hp
  apply h
  · dsimp only; split <;> omega
  · exact hc

/-- The reconstruction gives back the array up to a constant. -/
theorem reconRaw_eq (hx : 2 ≤ nx) (hy : 2 ≤ ny) (h : Trap nx ny dx dy gx gy U) :
    ∃ C, ∀ i j, i < nx → j < ny → reconRaw nx ny dx dy gx gy i j = U i j - C := by
  have hu : ∀ i j, i < nx → j < ny → onBorder nx ny i j = true → border nx ny dx dy gx gy i j =
      U i j - meanOver ((cells nx ny).filter fun p => onBorder nx ny p.1 p.2) U :=
    fun i j hi hj hb => border_eq hx hy h hi hj hb
  generalize meanOver ((cells nx ny).filter fun p => onBorder nx ny p.1 p.2) U = M at hu
  have q1 : ∀ i j, i < nx → j < ny → sweep1 dx dy gx gy (border nx ny dx dy gx gy) i j = U i j - M := sweep1_eq hx hy h hu
  have q2 : ∀ i j, i < nx → j < ny → sweep2 ny dx dy gx gy (border nx ny dx dy gx gy) i (ny - 1 - j) = U i j - M := by
    intro i j hi hj
    rw [sweep2_eq hx hy h hu i _ hi (by omega), show ny - 1 - (ny - 1 - j) = j by omega]
  have q3 : ∀ i j, i < nx → j < ny → sweep3 nx dx dy gx gy (border nx ny dx dy gx gy) (nx - 1 - i) j = U i j - M := by
    intro i j hi hj
    rw [sweep3_eq hx hy h hu _ j (by omega) hj, show nx - 1 - (nx - 1 - i) = i by omega]
  have q4 : ∀ i j, i < nx → j < ny →
      sweep4 nx ny dx dy gx gy (border nx ny dx dy gx gy) (nx - 1 - i) (ny - 1 - j) = U i j - M := by
    intro i j hi hj
    rw [sweep4_eq hx hy h hu _ _ (by omega) (by omega), show nx - 1 - (nx - 1 - i) = i by omega,
      show ny - 1 - (ny - 1 - j) = j by omega]
  refine ⟨M + cornMean nx ny (fun i j => U i j - M), ?_⟩
  intro i j hi hj
  unfold reconRaw
  dsimp only
  rw [cornMean_congr hx q1, cornMean_congr (u := fun i j => sweep2 ny dx dy gx gy (border nx ny dx dy gx gy) i (ny - 1 - j)) hx q2,
    cornMean_congr (u := fun i j => sweep3 nx dx dy gx gy (border nx ny dx dy gx gy) (nx - 1 - i) j) hx q3,
    cornMean_congr (u := fun i j => sweep4 nx ny dx dy gx gy (border nx ny dx dy gx gy) (nx - 1 - i) (ny - 1 - j)) hx q4]
  unfold blend
  dsimp only
  rw [q1 i j hi hj, q2 i j hi hj, q3 i j hi hj, q4 i j hi hj]
  have e1 : ((ny - 1 - j : Nat) : Rat) = (ny : Rat) - 1 - j := by
    rw [Nat.cast_sub (by omega), Nat.cast_sub (by omega)]; simp
  have e2 : ((nx - 1 - i : Nat) : Rat) = (nx : Rat) - 1 - i := by
    rw [Nat.cast_sub (by omega), Nat.cast_sub (by omega)]; simp
  rw [e1, e2]
  have px : (2 : Rat) ≤ nx := by exact_mod_cast hx
  have py : (2 : Rat) ≤ ny := by exact_mod_cast hy
  have : (ny : Rat) - 1 - j + (nx - 1 - i) + (j + (nx - 1 - i)) + (ny - 1 - j + i) + (j + i) ≠ 0 := by
    intro h; linarith
  rw [div_eq_iff this]
  ring

/-- The normalised reconstruction is the array minus its mean, times the unit factor. -/
theorem reconNorm_eq (hx : 2 ≤ nx) (hy : 2 ≤ ny) (h : Trap nx ny dx dy gx gy U) (fact : Rat) {i j : Nat} (hi : i < nx)
    (hj : j < ny) : reconNorm nx ny dx dy gx gy fact i j = (U i j - meanOver (cells nx ny) U) * fact := by
  obtain ⟨C, hC⟩ := reconRaw_eq hx hy h
  unfold reconNorm
  have hne : cells nx ny ≠ [] := List.ne_nil_of_mem (a := (0, 0)) (mem_cells.mpr ⟨by simp; omega, by simp; omega⟩)
  rw [meanOver_congr (v := fun i j => (U i j - C) * fact), meanOver_shift hne, hC i j hi hj]
  · ring
  · intro p hp
    rw [mem_cells] at hp
    rw [hC _ _ hp.1 hp.2]
end

/-! ### C124 -/

/-- The mean of a function over the grid points. -/
def gridMean (ax ay : List Rat) (U : Rat → Rat → Rat) : Rat :=
  (ax.map fun x => (ay.map fun y => U x y).sum).sum / (ax.length * ay.length)

theorem meanOver_cells (ax ay : List Rat) (U : Rat → Rat → Rat) :
    meanOver (cells ax.length ay.length) (fun i j => U (ax.getD i 0) (ay.getD j 0)) = gridMean ax ay U := by
  unfold meanOver gridMean cells
  have len : ((List.range ax.length).flatMap fun i => (List.range ay.length).map fun j => (i, j)).length =
      ax.length * ay.length := by
    simp [List.length_flatMap]
  have rg : ∀ (l : List Rat) (h : Rat → Rat), ((List.range l.length).map fun i => h (l.getD i 0)) = l.map h := by
    intro l h
    apply List.ext_getElem?
    intro k
    rw [List.getElem?_map, List.getElem?_map]
    by_cases hk : k < l.length
    · rw [List.getElem?_range hk, List.getElem?_eq_getElem hk]
      simp [List.getD_eq_getElem?_getD, List.getElem?_eq_getElem hk]
    · rw [List.getElem?_eq_none (by simp; omega), List.getElem?_eq_none (by omega)]; rfl
  rw [len, List.map_flatMap]
  congr 1
  · rw [List.flatMap_def, List.sum_flatten, List.map_map]
    rw [← rg ax (fun x => (ay.map fun y => U x y).sum)]
    congr 1
    apply List.map_congr_left
    intro i _
    simp only [Function.comp_apply, List.map_map]
    rw [← rg ay (fun y => U (ax.getD i 0) y)]
    rfl
  · push_cast; rfl

/-- `U` (physical values at the grid points) has the two gradients `fx` and `fy` in the sense of the trapezoidal rule: between
two neighbouring points it varies by the distance times the mean of the gradient at both. -/
structure HasGradients (fx fy : SF) (U : Rat → Rat → Rat) : Prop where
  x : ∀ (i : Nat) (x x' y p q : Rat), fx.ax[i]? = some x → fx.ax[i + 1]? = some x' → fx.Reads x y (some p) →
    fx.Reads x' y (some q) → U x' y - U x y = (x' - x) * fx.ux.size * ((p + q) / 2 * fx.uv.size)
  y : ∀ (j : Nat) (x y y' p q : Rat), fy.ay[j]? = some y → fy.ay[j + 1]? = some y' → fy.Reads x y (some p) →
    fy.Reads x y' (some q) → U x y' - U x y = (y' - y) * fy.uy.size * ((p + q) / 2 * fy.uv.size)

theorem anyMasked_false {f : SF} (hf : f.WF) (h : ∀ x y, ¬ f.Reads x y none) : anyMasked f = false := by
  unfold anyMasked Grid.any
  rw [Bool.eq_false_iff]
  intro hc
  rw [List.any_eq_true] at hc
  obtain ⟨i, hi, hc⟩ := hc
  rw [List.any_eq_true] at hc
  obtain ⟨j, hj, hc⟩ := hc
  rw [List.mem_range] at hi hj
  simp only [SF.values] at hi hj hc
  rw [hf.vx] at hi
  rw [hf.vy] at hj
  exact h _ _ ⟨i, j, List.getElem?_eq_getElem hi, List.getElem?_eq_getElem hj, Option.isNone_iff_eq_none.mp hc⟩

theorem anyMasked_true {f : SF} (hf : f.WF) {x y : Rat} (h : f.Reads x y none) : anyMasked f = true := by
  obtain ⟨i, j, hi, hj, hc⟩ := h
  unfold anyMasked Grid.any
  rw [List.any_eq_true]
  refine ⟨i, List.mem_range.mpr ?_, ?_⟩
  · simp only [SF.values]; rw [hf.vx]; exact getElem?_some_lt hi
  rw [List.any_eq_true]
  refine ⟨j, List.mem_range.mpr ?_, ?_⟩
  · simp only [SF.values]; rw [hf.vy]; exact getElem?_some_lt hj
  simp [SF.values, hc]

theorem recon_import {fx fy : SF} (hx : fx.WF) (hy : fy.WF) (ea : fx.ax = fy.ax) (eb : fx.ay = fy.ay) (h2x : 2 ≤ fx.ax.length)
    (h2y : 2 ≤ fx.ay.length) :
    ∃ g, reconstruct fx fy = .ok g ∧ g.WF ∧ g.ux = fx.ux ∧ g.uy = fx.uy ∧ g.uv = SF.unitSym (fx.uv.mul fx.ux) ∧
      ∀ x y r, g.Reads x y r ↔ ∃ i j, fx.ax[i]? = some x ∧ fx.ay[j]? = some y ∧
        r = if anyMasked fx || anyMasked fy then none
        else some (reconNorm fx.ax.length fx.ay.length (step fx.ax) (step fx.ay) (fun i j => (fx.cell i j).getD 0)
          (fun i j => (fy.cell i j).getD 0) (SF.unitNum (fx.uv.mul fx.ux)) i j) := by
  have s1 := hx.vx
  have s2 := hx.vy
  have s3 := hy.vx
  have s4 := hy.vy
  obtain ⟨g, e, w, r, u1, u2, u3⟩ := SF.C15_import_reads_partial (ax := fx.ax) (ay := fy.ay)
    (v := ⟨fx.val.nx, fx.val.ny, fun i j =>
        if anyMasked fx || anyMasked fy then none
        else some (reconNorm fx.val.nx fx.val.ny (step fx.ax) (step fy.ay) (fun i j => (fx.cell i j).getD 0)
          (fun i j => (fy.cell i j).getD 0) (SF.unitNum (fx.uv.mul fx.ux)) i j)⟩) (m := .none) (ux := fx.ux) (uy := fx.uy)
    (uv := SF.unitSym (fx.uv.mul fx.ux)) s1 (by rw [← eb]; exact s2) h2x (by rw [← eb]; exact h2y) trivial (.inl hx.incx)
    (.inl hy.incy) (.inl ⟨hx.incx, hy.incy⟩)
  refine ⟨g, ?_, w, u1, u2, u3, ?_⟩
  · unfold reconstruct
    rw [if_neg (by rw [← eb]; omega), if_neg (by rw [s1, s2, s3, s4, ea, eb]; simp)]
    exact e
  · intro x y q
    rw [r]
    simp only [SF.MaskArg.get, Bool.false_eq_true, if_false, s1, s2, ← eb]

/-- C124, the general form: whatever function has the given gradients (trapezoidal rule, y-gradient read in the units of the
x-gradient) is found back minus its mean over the grid. -/
theorem recon_core {fx fy : SF} (hx : fx.WF) (hy : fy.WF) (ea : fx.ax = fy.ax) (eb : fx.ay = fy.ay) (h2x : 2 ≤ fx.ax.length)
    (h2y : 2 ≤ fx.ay.length) (ex : Even fx.ax) (ey : Even fx.ay) (mx : ∀ x y, ¬ fx.Reads x y none) (my : ∀ x y, ¬ fy.Reads x y none)
    (pos : 0 < fx.uv.size * fx.ux.size) {U : Rat → Rat → Rat}
    (hX : ∀ (i : Nat) (x x' y p q : Rat), fx.ax[i]? = some x → fx.ax[i + 1]? = some x' → fx.Reads x y (some p) →
      fx.Reads x' y (some q) → U x' y - U x y = (x' - x) * ((p + q) / 2 * (fx.uv.size * fx.ux.size)))
    (hY : ∀ (j : Nat) (x y y' p q : Rat), fy.ay[j]? = some y → fy.ay[j + 1]? = some y' → fy.Reads x y (some p) →
      fy.Reads x y' (some q) → U x y' - U x y = (y' - y) * ((p + q) / 2 * (fx.uv.size * fx.ux.size))) :
    ∃ g, reconstruct fx fy = .ok g ∧ g.WF ∧ g.ax = fx.ax ∧ g.ay = fx.ay ∧ g.ux = fx.ux ∧ g.uy = fx.uy ∧
      g.uv.Compat (fx.uv.mul fx.ux) ∧
      ∀ x ∈ fx.ax, ∀ y ∈ fx.ay, ∃ v, g.Reads x y (some v) ∧ v * g.uv.size = U x y - gridMean fx.ax fx.ay U := by
  obtain ⟨g, e, w, u1, u2, u3, r⟩ := recon_import hx hy ea eb h2x h2y
  have gax : g.ax = fx.ax ∧ g.ay = fx.ay := by
    unfold reconstruct at e
    rw [if_neg (by rw [← eb]; omega), if_neg (by rw [hx.vx, hx.vy, hy.vx, hy.vy, ea, eb]; simp)] at e
    obtain ⟨g', e', gx, gy, _⟩ := SF.import_direct (ax := fx.ax) (ay := fy.ay)
      (v := ⟨fx.val.nx, fx.val.ny, fun i j =>
        if anyMasked fx || anyMasked fy then none
        else some (reconNorm fx.val.nx fx.val.ny (step fx.ax) (step fy.ay) (fun i j => (fx.cell i j).getD 0)
          (fun i j => (fy.cell i j).getD 0) (SF.unitNum (fx.uv.mul fx.ux)) i j)⟩) (m := .none) (ux := fx.ux) (uy := fx.uy)
      (uv := SF.unitSym (fx.uv.mul fx.ux)) hx.vx (by rw [← eb]; exact hx.vy) h2x (by rw [← eb]; exact h2y) trivial
    rw [e] at e'; cases e'
    rw [SF.rev_false hx.incx] at gx
    rw [SF.rev_false hy.incy] at gy
    exact ⟨by simpa using gx, by simpa [eb] using gy⟩
  refine ⟨g, e, w, gax.1, gax.2, u1, u2, u3 ▸ unitSym_compat _, ?_⟩
  have kpos : fx.uv.size * fx.ux.size ≠ 0 := ne_of_gt pos
  have cellx : ∀ i j, i < fx.ax.length → j < fx.ay.length → ∃ p, fx.cell i j = some p ∧
      fx.Reads (fx.ax.getD i 0) (fx.ay.getD j 0) (some p) := by
    intro i j hi hj
    have h1 : fx.ax[i]? = some (fx.ax.getD i 0) := by simp [List.getD_eq_getElem?_getD, List.getElem?_eq_getElem hi]
    have h2 : fx.ay[j]? = some (fx.ay.getD j 0) := by simp [List.getD_eq_getElem?_getD, List.getElem?_eq_getElem hj]
    cases hc : fx.cell i j with
    | none => exact absurd ⟨i, j, h1, h2, hc⟩ (mx _ _)
    | some p => exact ⟨p, rfl, i, j, h1, h2, hc⟩
  have celly : ∀ i j, i < fx.ax.length → j < fx.ay.length → ∃ p, fy.cell i j = some p ∧
      fy.Reads (fx.ax.getD i 0) (fx.ay.getD j 0) (some p) := by
    intro i j hi hj
    have h1 : fy.ax[i]? = some (fx.ax.getD i 0) := by
      rw [← ea]; simp [List.getD_eq_getElem?_getD, List.getElem?_eq_getElem hi]
    have h2 : fy.ay[j]? = some (fx.ay.getD j 0) := by
      rw [← eb]; simp [List.getD_eq_getElem?_getD, List.getElem?_eq_getElem hj]
    cases hc : fy.cell i j with
    | none => exact absurd ⟨i, j, h1, h2, hc⟩ (my _ _)
    | some p => exact ⟨p, rfl, i, j, h1, h2, hc⟩
  have gl : ∀ (l : List Rat) (i : Nat), i < l.length → l[i]? = some (l.getD i 0) := by
    intro l i hi; simp [List.getD_eq_getElem?_getD, List.getElem?_eq_getElem hi]
  have tr : Trap fx.ax.length fx.ay.length (step fx.ax) (step fx.ay) (fun i j => (fx.cell i j).getD 0)
      (fun i j => (fy.cell i j).getD 0) (fun i j => U (fx.ax.getD i 0) (fx.ay.getD j 0) / (fx.uv.size * fx.ux.size)) := by
    constructor
    · intro i j hi hj
      obtain ⟨p, c1, r1⟩ := cellx i j (by omega) hj
      obtain ⟨q, c2, r2⟩ := cellx (i + 1) j hi hj
      rw [c1, c2]
      have := hX i _ _ _ p q (gl fx.ax i (by omega)) (gl fx.ax (i + 1) hi) r1 r2
      rw [even_step ex h2x i _ _ (gl fx.ax i (by omega)) (gl fx.ax (i + 1) hi)] at this
      rw [← sub_div, this]
      unfold trap
      simp only [Option.getD_some]
      rw [div_eq_iff kpos]
      ring
    · intro i j hi hj
      obtain ⟨p, c1, r1⟩ := celly i j hi (by omega)
      obtain ⟨q, c2, r2⟩ := celly i (j + 1) hi hj
      rw [c1, c2]
      have := hY j _ _ _ p q (by rw [← eb]; exact gl fx.ay j (by omega)) (by rw [← eb]; exact gl fx.ay (j + 1) hj) r1 r2
      rw [even_step ey h2y j _ _ (gl fx.ay j (by omega)) (gl fx.ay (j + 1) hj)] at this
      rw [← sub_div, this]
      unfold trap
      simp only [Option.getD_some]
      rw [div_eq_iff kpos]
      ring
  intro x hx' y hy'
  obtain ⟨i, hi⟩ := List.getElem?_of_mem hx'
  obtain ⟨j, hj⟩ := List.getElem?_of_mem hy'
  have li := getElem?_some_lt hi
  have lj := getElem?_some_lt hj
  refine ⟨_, (r x y _).mpr ⟨i, j, hi, hj, by rw [anyMasked_false hx mx, anyMasked_false hy my]; rfl⟩, ?_⟩
  rw [reconNorm_eq h2x h2y tr _ li lj, u3, unit_scale]
  have ex' : fx.ax.getD i 0 = x := by simp [List.getD_eq_getElem?_getD, hi]
  have ey' : fx.ay.getD j 0 = y := by simp [List.getD_eq_getElem?_getD, hj]
  have hm : meanOver (cells fx.ax.length fx.ay.length)
      (fun i j => U (fx.ax.getD i 0) (fx.ay.getD j 0) / (fx.uv.size * fx.ux.size)) =
        gridMean fx.ax fx.ay U / (fx.uv.size * fx.ux.size) := by
    rw [meanOver_cells fx.ax fx.ay (fun x y => U x y / (fx.uv.size * fx.ux.size))]
    have hne : cells fx.ax.length fx.ay.length ≠ [] := List.ne_nil_of_mem (a := (0, 0)) (mem_cells.mpr ⟨by simp; omega, by simp; omega⟩)
    have := meanOver_shift hne (fun i j => U (fx.ax.getD i 0) (fx.ay.getD j 0)) (1 / (fx.uv.size * fx.ux.size)) 0
    simp only [sub_zero, mul_one_div] at this
    rw [meanOver_cells fx.ax fx.ay U, meanOver_cells fx.ax fx.ay (fun x y => U x y / (fx.uv.size * fx.ux.size))] at this
    exact this
  rw [hm, ex', ey', show (fx.uv.mul fx.ux).size = fx.uv.size * fx.ux.size from rfl, ← sub_div, div_mul_cancel₀ _ kpos]

/-- C124: two gradient fields without masked point, on one evenly spaced grid, being the gradients (trapezoidal rule) of some
field `U`, the reconstruction shows `U` minus its mean over the grid, at every point, as a physical quantity.
Partial: the unit of the y-gradient times the unit of y must be the unit of the x-gradient times the unit of x
(`C124_units_violated`); no masked point (`C124_masked_violated`); even axes. -/
theorem C124_reconstruct_partial {fx fy : SF} (hx : fx.WF) (hy : fy.WF) (ea : fx.ax = fy.ax) (eb : fx.ay = fy.ay)
    (h2x : 2 ≤ fx.ax.length) (h2y : 2 ≤ fx.ay.length) (ex : Even fx.ax) (ey : Even fx.ay) (mx : ∀ x y, ¬ fx.Reads x y none)
    (my : ∀ x y, ¬ fy.Reads x y none) (pos : 0 < fx.uv.size * fx.ux.size)
    (hu : fy.uv.size * fy.uy.size = fx.uv.size * fx.ux.size) {U : Rat → Rat → Rat} (hU : HasGradients fx fy U) :
    ∃ g, reconstruct fx fy = .ok g ∧ g.WF ∧ g.ax = fx.ax ∧ g.ay = fx.ay ∧ g.ux = fx.ux ∧ g.uy = fx.uy ∧
      g.uv.Compat (fx.uv.mul fx.ux) ∧
      ∀ x ∈ fx.ax, ∀ y ∈ fx.ay, ∃ v, g.Reads x y (some v) ∧ v * g.uv.size = U x y - gridMean fx.ax fx.ay U := by
  refine recon_core hx hy ea eb h2x h2y ex ey mx my pos ?_ ?_
  · intro i x x' y p q h1 h2 h3 h4
    rw [hU.x i x x' y p q h1 h2 h3 h4]; ring
  · intro j x y y' p q h1 h2 h3 h4
    rw [hU.y j x y y' p q h1 h2 h3 h4, ← hu]; ring

/-- C124: the exact gradients of a quadratic polynomial satisfy the hypothesis: any polynomial
`a + b x + c y + d x² + e x y + f y²` is reconstructed exactly, up to its mean, from its exact gradients
`b + 2 d x + e y` and `c + e x + 2 f y`.
Partial: one unit for both axes and for both gradients, no masked point, even axes. -/
theorem C124_quadratic_partial {fx fy : SF} (hx : fx.WF) (hy : fy.WF) (ea : fx.ax = fy.ax) (eb : fx.ay = fy.ay)
    (h2x : 2 ≤ fx.ax.length) (h2y : 2 ≤ fx.ay.length) (ex : Even fx.ax) (ey : Even fx.ay) (mx : ∀ x y, ¬ fx.Reads x y none)
    (my : ∀ x y, ¬ fy.Reads x y none) (pos : 0 < fx.uv.size * fx.ux.size) (u1 : fy.uv = fx.uv) (u2 : fy.uy = fx.ux)
    {b c d e f : Rat} (gx : ∀ x y v, fx.Reads x y (some v) → v = b + 2 * d * x + e * y)
    (gy : ∀ x y v, fy.Reads x y (some v) → v = c + e * x + 2 * f * y) (a : Rat) :
    let P : Rat → Rat → Rat := fun x y => a + b * x + c * y + d * x ^ 2 + e * x * y + f * y ^ 2
    ∃ g, reconstruct fx fy = .ok g ∧ g.WF ∧ ∀ x ∈ fx.ax, ∀ y ∈ fx.ay, ∃ v, g.Reads x y (some v) ∧
      v * g.uv.size = (P x y - gridMean fx.ax fx.ay P) * (fx.uv.size * fx.ux.size) := by
  intro P
  have hg : HasGradients fx fy (fun x y => P x y * (fx.uv.size * fx.ux.size)) := by
    constructor
    · intro i x x' y p q _ _ h3 h4
      rw [gx _ _ _ h3, gx _ _ _ h4]
      simp only [P]; ring
    · intro j x y y' p q _ _ h3 h4
      rw [gy _ _ _ h3, gy _ _ _ h4, u1, u2]
      simp only [P]; ring
  obtain ⟨g, e', w, _, _, _, _, _, r⟩ := C124_reconstruct_partial (U := fun x y => P x y * (fx.uv.size * fx.ux.size)) hx hy ea eb
    h2x h2y ex ey mx my pos (by rw [u1, u2]) hg
  · refine ⟨g, e', w, ?_⟩
    intro x hx' y hy'
    obtain ⟨v, h1, h2⟩ := r x hx' y hy'
    refine ⟨v, h1, ?_⟩
    rw [h2]
    have hne : cells fx.ax.length fx.ay.length ≠ [] := List.ne_nil_of_mem (a := (0, 0)) (mem_cells.mpr ⟨by simp; omega, by simp; omega⟩)
    have := meanOver_shift hne (fun i j => P (fx.ax.getD i 0) (fx.ay.getD j 0)) (fx.uv.size * fx.ux.size) 0
    simp only [sub_zero] at this
    rw [meanOver_cells fx.ax fx.ay P, meanOver_cells fx.ax fx.ay (fun x y => P x y * (fx.uv.size * fx.ux.size))] at this
    rw [this, sub_mul]

/-- C124 fails when the y-gradient does not share the units of the x-gradient: for the gradients of `U = q y` (x-gradient zero),
what is reconstructed is `U` multiplied by the ratio of the two unit products (field_treatment.py:233-235 look at the x-gradient
only). -/
theorem C124_units_violated {fx fy : SF} (hx : fx.WF) (hy : fy.WF) (ea : fx.ax = fy.ax) (eb : fx.ay = fy.ay)
    (h2x : 2 ≤ fx.ax.length) (h2y : 2 ≤ fx.ay.length) (ex : Even fx.ax) (ey : Even fx.ay) (mx : ∀ x y, ¬ fx.Reads x y none)
    (my : ∀ x y, ¬ fy.Reads x y none) (pos : 0 < fx.uv.size * fx.ux.size)
    {q : Rat} (gx : ∀ x y v, fx.Reads x y (some v) → v = 0) (gy : ∀ x y v, fy.Reads x y (some v) → v = q) :
    HasGradients fx fy (fun _ y => q * y * (fy.uv.size * fy.uy.size)) ∧
    ∃ g, reconstruct fx fy = .ok g ∧ ∀ x ∈ fx.ax, ∀ y ∈ fx.ay, ∃ v, g.Reads x y (some v) ∧
      v * g.uv.size = (q * y - gridMean fx.ax fx.ay (fun _ y => q * y)) * (fx.uv.size * fx.ux.size) := by
  refine ⟨⟨?_, ?_⟩, ?_⟩
  · intro i x x' y p r _ _ h3 h4
    rw [gx _ _ _ h3, gx _ _ _ h4]; ring
  · intro j x y y' p r _ _ h3 h4
    rw [gy _ _ _ h3, gy _ _ _ h4]; ring
  obtain ⟨g, e', w, _, _, _, _, _, r⟩ := recon_core (U := fun _ y => q * y * (fx.uv.size * fx.ux.size)) hx hy ea eb h2x h2y ex ey mx my
    pos (by
      intro i x x' y p r _ _ h3 h4
      rw [gx _ _ _ h3, gx _ _ _ h4]; ring) (by
      intro j x y y' p r _ _ h3 h4
      rw [gy _ _ _ h3, gy _ _ _ h4]; ring)
  refine ⟨g, e', ?_⟩
  intro x hx' y hy'
  obtain ⟨v, h1, h2⟩ := r x hx' y hy'
  refine ⟨v, h1, ?_⟩
  rw [h2]
  have hne : cells fx.ax.length fx.ay.length ≠ [] := List.ne_nil_of_mem (a := (0, 0)) (mem_cells.mpr ⟨by simp; omega, by simp; omega⟩)
  have := meanOver_shift hne (fun i j => (fun _ y => q * y : Rat → Rat → Rat) (fx.ax.getD i 0) (fx.ay.getD j 0))
    (fx.uv.size * fx.ux.size) 0
  simp only [sub_zero] at this
  rw [meanOver_cells fx.ax fx.ay (fun _ y => q * y),
    meanOver_cells fx.ax fx.ay (fun _ y => q * y * (fx.uv.size * fx.ux.size))] at this
  rw [this]; ring

/-- C124 fails with masked points: one masked point in one of the gradients masks the whole reconstructed field. -/
theorem C124_masked_violated {fx fy : SF} (hx : fx.WF) (hy : fy.WF) (ea : fx.ax = fy.ax) (eb : fx.ay = fy.ay)
    (h2x : 2 ≤ fx.ax.length) (h2y : 2 ≤ fx.ay.length) {x0 y0 : Rat} (hm : fx.Reads x0 y0 none ∨ fy.Reads x0 y0 none) :
    ∃ g, reconstruct fx fy = .ok g ∧ ∀ x ∈ fx.ax, ∀ y ∈ fx.ay, g.Reads x y none := by
  obtain ⟨g, e, w, u1, u2, u3, r⟩ := recon_import hx hy ea eb h2x h2y
  refine ⟨g, e, ?_⟩
  intro x hx' y hy'
  obtain ⟨i, hi⟩ := List.getElem?_of_mem hx'
  obtain ⟨j, hj⟩ := List.getElem?_of_mem hy'
  refine (r x y none).mpr ⟨i, j, hi, hj, ?_⟩
  rcases hm with h | h
  · rw [anyMasked_true hx h]; rfl
  · rw [anyMasked_true hy h]; simp

/-- C124, the round trip: the gradients given by `get_gradients` for an affine field without masked point lead back to the
field minus its mean.
Partial: affine fields on even axes of one unit. -/
theorem C124_roundtrip_partial {f : SF} (hf : f.WF) (h2x : 2 ≤ f.ax.length) (h2y : 2 ≤ f.ay.length) (ex : Even f.ax)
    (ey : Even f.ay) (hm : ∀ x y, ¬ f.Reads x y none) {a b c : Rat} (ha : Affine f a b c) (hu : f.ux = f.uy)
    (pv : 0 < f.uv.size) (px : 0 < f.ux.size) :
    ∃ gx gy g, gradients f = .ok (gx, gy) ∧ reconstruct gx gy = .ok g ∧ g.uv.Compat f.uv ∧
      ∀ x y v, f.Reads x y (some v) → ∃ w, g.Reads x y (some w) ∧
        w * g.uv.size = (v - gridMean f.ax f.ay (fun x y => a * x + b * y + c)) * f.uv.size := by
  obtain ⟨gx, gy, e, w1, w2, a1, a2, b1, b2, u1, u2, u3, u4, v1, v2, _⟩ := gradients_cells hf h2x h2y
  obtain ⟨gx', gy', e', s1, s2⟩ := C120_affine_partial hf h2x h2y ex ey ha
  rw [e] at e'; cases e'
  obtain ⟨gx', gy', e', sh⟩ := C120_shown hf h2x h2y
  rw [e] at e'; cases e'
  have nomask : ∀ x y, ¬ gx.Reads x y none ∧ ¬ gy.Reads x y none := by
    intro x y
    have aux : ∀ (g : SF), g.WF → g.ax = f.ax → g.ay = f.ay → (∀ x ∈ f.ax, ∀ y ∈ f.ay, ∃ v, g.Reads x y (some v)) → ¬ g.Reads x y none := by
      intro g wg p q hs hr
      have hx : x ∈ f.ax := by obtain ⟨i, j, hi, hj, _⟩ := hr; rw [p] at hi; exact List.mem_of_getElem? hi
      have hy : y ∈ f.ay := by obtain ⟨i, j, hi, hj, _⟩ := hr; rw [q] at hj; exact List.mem_of_getElem? hj
      obtain ⟨v, hv⟩ := hs x hx y hy
      exact absurd (hr.unique wg hv) (by simp)
    have shx : ∀ x ∈ f.ax, ∀ y ∈ f.ay, (∃ v, gx.Reads x y (some v)) ∧ ∃ v, gy.Reads x y (some v) := by
      intro x hx y hy
      obtain ⟨i, hi⟩ := List.getElem?_of_mem hx
      obtain ⟨j, hj⟩ := List.getElem?_of_mem hy
      obtain ⟨x0, x1, hx⟩ := around_exists h2x hi
      obtain ⟨y0, y1, hy⟩ := around_exists h2y hj
      obtain ⟨k1, k2⟩ := sh x y x0 x1 y0 y1 hx hy
      rw [k1, k2]
      simp [hm]
    exact ⟨aux gx w1 a1 a2 fun x hx y hy => (shx x hx y hy).1, aux gy w2 b1 b2 fun x hx y hy => (shx x hx y hy).2⟩
  have sx : gx.uv.size = (SF.unitSym (f.uv.div f.ux)).size := by rw [v1]
  have pgx : 0 < gx.uv.size := by rw [sx]; exact SF.unitSym_pos (div_pos pv px)
  have evv : gy.uv = gx.uv := by rw [v1, v2, hu]
  have cst : ∀ x y v, gx.Reads x y (some v) → v = a * (f.uv.size / f.ux.size) / gx.uv.size := by
    intro x y v h
    rw [eq_div_iff (ne_of_gt pgx)]; exact s1 x y v h
  have cst' : ∀ x y v, gy.Reads x y (some v) → v = b * (f.uv.size / f.ux.size) / gx.uv.size := by
    intro x y v h
    rw [eq_div_iff (ne_of_gt pgx)]
    have := s2 x y v h
    rw [evv, ← hu] at this
    exact this
  obtain ⟨g, eg, wg, rg⟩ := C124_quadratic_partial (fx := gx) (fy := gy) w1 w2 (a1.trans b1.symm) (a2.trans b2.symm)
    (by rw [a1]; exact h2x) (by rw [a2]; exact h2y) (by rw [a1]; exact ex) (by rw [a2]; exact ey)
    (fun x y => (nomask x y).1) (fun x y => (nomask x y).2) (by rw [u1]; exact mul_pos pgx px) evv (by rw [u4, u1, hu])
    (b := a * (f.uv.size / f.ux.size) / gx.uv.size) (c := b * (f.uv.size / f.ux.size) / gx.uv.size) (d := 0) (e := 0) (f := 0)
    (by intro x y v h; rw [cst x y v h]; ring) (by intro x y v h; rw [cst' x y v h]; ring)
    (c * (f.uv.size / f.ux.size) / gx.uv.size)
  refine ⟨gx, gy, g, e, eg, ?_, ?_⟩
  · obtain ⟨g', eg', _, _, _, u, _⟩ := recon_import w1 w2 (a1.trans b1.symm) (a2.trans b2.symm) (by rw [a1]; exact h2x)
      (by rw [a2]; exact h2y)
    rw [eg] at eg'; cases eg'
    rw [u]
    obtain ⟨p1, p2, p3⟩ := unitSym_compat (gx.uv.mul gx.ux)
    obtain ⟨q1, q2, q3⟩ := unitSym_compat (f.uv.div f.ux)
    rw [← v1] at q1 q2 q3
    refine ⟨?_, ?_, ?_⟩
    · rw [p1]; simp only [Sym.mul]; rw [q1, u1]; simp [Sym.div]
    · rw [p2]; simp only [Sym.mul]; rw [q2, u1]; simp [Sym.div]
    · rw [p3]; simp only [Sym.mul]; rw [q3, u1]; simp [Sym.div]
  · intro x y v hv
    obtain ⟨i, j, hi, hj, hc⟩ := id hv
    obtain ⟨w, h1, h2⟩ := rg x (by rw [a1]; exact List.mem_of_getElem? hi) y (by rw [a2]; exact List.mem_of_getElem? hj)
    refine ⟨w, h1, ?_⟩
    rw [h2, ha x y v hv, a1, a2, u1]
    have hne : cells f.ax.length f.ay.length ≠ [] := List.ne_nil_of_mem (a := (0, 0)) (mem_cells.mpr ⟨by simp; omega, by simp; omega⟩)
    have hs := meanOver_shift hne (fun i j => (fun x y => a * x + b * y + c : Rat → Rat → Rat) (f.ax.getD i 0) (f.ay.getD j 0))
      ((f.uv.size / f.ux.size) / gx.uv.size) 0
    simp only [sub_zero] at hs
    rw [meanOver_cells f.ax f.ay (fun x y => a * x + b * y + c),
      meanOver_cells f.ax f.ay (fun x y => (a * x + b * y + c) * (f.uv.size / f.ux.size / gx.uv.size))] at hs
    have hfun : (fun x y => c * (f.uv.size / f.ux.size) / gx.uv.size + a * (f.uv.size / f.ux.size) / gx.uv.size * x +
        b * (f.uv.size / f.ux.size) / gx.uv.size * y + 0 * x ^ 2 + 0 * x * y + 0 * y ^ 2 : Rat → Rat → Rat) =
        fun x y => (a * x + b * y + c) * (f.uv.size / f.ux.size / gx.uv.size) := by
      funext x y; ring
    have hpt := congrFun (congrFun hfun x) y
    rw [hfun, hs]
    field_simp

/-- Gradients of `x² + 2 y` on a 3×2 grid. -/
def sampleGx : SF :=
  { ax := [0, 1, 2], ay := [0, 1], val := ⟨3, 2, fun i _ => some (2 * i)⟩, mask := ⟨3, 2, fun _ _ => false⟩
    ux := Sym.mm, uy := Sym.mm, uv := Sym.one }
def sampleGy : SF := { sampleGx with val := ⟨3, 2, fun _ _ => some 2⟩ }

theorem even2 {a b : Rat} : Even [a, b] := by
  intro i p q r _ _ hr
  have := getElem?_some_lt hr; simp at this

/-- The field `x² + 2 y` is found back minus its mean. -/
example : ∃ g, reconstruct sampleGx sampleGy = .ok g ∧ g.WF ∧ ∀ x ∈ sampleGx.ax, ∀ y ∈ sampleGx.ay,
    ∃ v, g.Reads x y (some v) ∧ v * g.uv.size =
      ((0 + 0 * x + 2 * y + 1 * x ^ 2 + 0 * x * y + 0 * y ^ 2) - gridMean sampleGx.ax sampleGx.ay
        (fun x y => 0 + 0 * x + 2 * y + 1 * x ^ 2 + 0 * x * y + 0 * y ^ 2)) * (sampleGx.uv.size * sampleGx.ux.size) := by
  have w1 : sampleGx.WF := by
    refine ⟨by decide +kernel, by decide +kernel, by decide, by decide, rfl, rfl, rfl, rfl, ?_⟩
    intro i j _ _ h; simp [sampleGx] at h
  have w2 : sampleGy.WF := by
    refine ⟨by decide +kernel, by decide +kernel, by decide, by decide, rfl, rfl, rfl, rfl, ?_⟩
    intro i j _ _ h; simp [sampleGy, sampleGx] at h
  refine C124_quadratic_partial w1 w2 rfl rfl (by decide) (by decide) (even3 (by decide +kernel)) even2 ?_ ?_ (by decide +kernel)
    rfl rfl (b := 0) (c := 2) (d := 1) (e := 0) (f := 0) ?_ ?_ 0
  · rintro x y ⟨i, j, _, _, h⟩; simp [SF.cell, sampleGx] at h
  · rintro x y ⟨i, j, _, _, h⟩; simp [SF.cell, sampleGy, sampleGx] at h
  · rintro x y v ⟨i, j, hi, _, h⟩
    simp [SF.cell, sampleGx] at h
    have : i < 3 := getElem?_some_lt hi
    have : i = 0 ∨ i = 1 ∨ i = 2 := by omega
    rcases this with rfl | rfl | rfl <;> simp [sampleGx] at hi <;> rw [← h, ← hi] <;> norm_num
  · rintro x y v ⟨i, j, hi, _, h⟩
    simp [SF.cell, sampleGy, sampleGx] at h
    rw [← h]; norm_num

end IMT.Treat
