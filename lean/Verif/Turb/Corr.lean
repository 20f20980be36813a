import Verif.Turb.Props
import Mathlib.Algebra.BigOperators.Intervals
import Mathlib.Algebra.BigOperators.Field
import Mathlib.Algebra.Order.BigOperators.Group.Finset

/-!
Property C200: the auto-correlation in time.
-/

namespace IMT.Turb

variable {t : TVF} {u : Sym}

/-! ### specification -/

/-- The sum over the grid. -/
def gridSum (t : TVF) (g : Nat → Nat → Rat) : Rat := ∑ i ∈ Finset.range t.ax.length, ∑ j ∈ Finset.range t.ay.length, g i j

/-- The fields of a record without any masked point: `V k i j` is the vector of the field number `k` at the point `(i, j)`. -/
def Full (t : TVF) (V : Nat → Nat → Nat → Rat × Rat) : Prop :=
  ∀ (k : Nat) (f : VF), t.fields[k]? = some f → ∀ i j, i < t.ax.length → j < t.ay.length → f.cell i j = some (V k i j)

/-- The scalar product of two vectors. -/
def dot (a b : Rat × Rat) : Rat := a.1 * b.1 + a.2 * b.2

/-! ### helper lemmas -/

theorem fold_none (l : List (Option Rat)) : l.foldl (nanOp (· + ·)) none = none := by
  induction l with
  | nil => rfl
  | cons a l ih => rw [List.foldl_cons]; exact ih

theorem fold_some (l : List Rat) (a : Rat) : (l.map some).foldl (nanOp (· + ·)) (some a) = some (a + l.sum) := by
  induction l generalizing a with
  | nil => simp
  | cons b l ih => rw [List.map_cons, List.foldl_cons, List.sum_cons, ← add_assoc]; exact ih (a + b)

theorem fold_nan {l : List (Option Rat)} (h : none ∈ l) (a : Option Rat) : l.foldl (nanOp (· + ·)) a = none := by
  induction l generalizing a with
  | nil => cases h
  | cons b l ih =>
    rw [List.foldl_cons]
    rcases List.mem_cons.mp h with rfl | h
    · have : nanOp (· + ·) a (none : Option Rat) = none := by cases a <;> rfl
      rw [this]; exact fold_none l
    · exact ih h _

theorem npMean_some {g : Grid (Option Rat)} {G : Nat → Nat → Rat} (h : ∀ i j, i < g.nx → j < g.ny → g.get i j = some (G i j)) :
    npMean g = some ((∑ i ∈ Finset.range g.nx, ∑ j ∈ Finset.range g.ny, G i j) / (g.nx * g.ny : Nat)) := by
  unfold npMean
  have e : ((List.range g.nx).flatMap fun i => (List.range g.ny).map fun j => g.get i j) =
      ((List.range g.nx).flatMap fun i => (List.range g.ny).map fun j => G i j).map some := by
    rw [List.map_flatMap]
    refine List.flatMap_congr fun i hi => ?_
    rw [List.map_map]
    refine List.map_congr_left fun j hj => ?_
    exact h i j (List.mem_range.mp hi) (List.mem_range.mp hj)
  rw [e, fold_some, zero_add, Option.map_some]
  congr 2
  rw [List.flatMap_def, List.sum_flatten, List.map_map]
  have : ∀ (n : Nat) (φ : Nat → Rat), ((List.range n).map φ).sum = ∑ i ∈ Finset.range n, φ i := by
    intro n φ
    induction n with
    | zero => simp
    | succ n ih => rw [List.range_succ, List.map_append, List.sum_append, ih, Finset.sum_range_succ]; simp
  rw [this]
  exact Finset.sum_congr rfl fun i _ => this _ _

theorem npMean_none {g : Grid (Option Rat)} {i j : Nat} (hi : i < g.nx) (hj : j < g.ny) (h : g.get i j = none) : npMean g = none := by
  unfold npMean
  rw [fold_nan]
  · rfl
  · rw [List.mem_flatMap]
    exact ⟨i, List.mem_range.mpr hi, List.mem_map.mpr ⟨j, List.mem_range.mpr hj, h⟩⟩

theorem cell_comps {f : VF} {i j : Nat} {w : Rat × Rat} (h : f.cell i j = some w) : f.cx.get i j = some w.1 ∧ f.cy.get i j = some w.2 := by
  unfold VF.cell at h
  split at h
  · cases h
  · cases hx : f.cx.get i j with
    | none => rw [hx] at h; simp at h
    | some a => cases hy : f.cy.get i j with
      | none => rw [hx, hy] at h; simp at h
      | some b => rw [hx, hy] at h; simp only [Option.some.injEq] at h; rw [← h]; exact ⟨rfl, rfl⟩

theorem scal_some {f g : VF} (hf : OnV t u f) {A B : Nat → Nat → Rat × Rat}
    (ha : ∀ i j, i < t.ax.length → j < t.ay.length → f.cell i j = some (A i j))
    (hb : ∀ i j, i < t.ax.length → j < t.ay.length → g.cell i j = some (B i j)) :
    scal f g = some (gridSum t (fun i j => dot (A i j) (B i j)) / (t.ax.length * t.ay.length : Nat)) := by
  unfold scal
  rw [npMean_some (G := fun i j => dot (A i j) (B i j))]
  · show some (_ / ((f.cx.nx * f.cx.ny : Nat) : Rat)) = _
    rw [hf.wf.xx, hf.wf.xy, hf.ax, hf.ay]; rfl
  · intro i j hi hj
    have hi : i < f.cx.nx := hi
    have hj : j < f.cx.ny := hj
    rw [hf.wf.xx, hf.ax] at hi
    rw [hf.wf.xy, hf.ay] at hj
    obtain ⟨a1, a2⟩ := cell_comps (ha i j hi hj)
    obtain ⟨b1, b2⟩ := cell_comps (hb i j hi hj)
    simp only [a1, a2, b1, b2]
    rfl

theorem ratio_eq {S n N : Rat} (hn : n ≠ 0) (hN : N ≠ 0) : npDiv (some (S / n)) (some (N / n)) = .fin (S / N) := by
  unfold npDiv
  simp only
  rw [if_neg (div_ne_zero hN hn)]
  congr 1
  field_simp

theorem grid_ne (h : Record t u) : ((t.ax.length * t.ay.length : Nat) : Rat) ≠ 0 := by
  have h1 := h.lx
  have h2 := h.ly
  have : 0 < t.ax.length * t.ay.length := Nat.mul_pos (by omega) (by omega)
  exact_mod_cast this.ne'

/-! ### C200 -/

/-- C200, for a record without masked points whose first field is not zero everywhere: at the time number `k` the correlation is the sum
over the grid of the scalar products of the vectors with those of the first field, divided by the sum of the squared norms of the
latter. -/
theorem C200_correlation_partial (h : Record t u) {V : Nat → Nat → Nat → Rat × Rat} (hV : Full t V)
    (hN : gridSum t (fun i j => dot (V 0 i j) (V 0 i j)) ≠ 0) :
    ∃ l, autoCorr t = .ok l ∧ l.length = t.times.length ∧ ∀ k, k < t.times.length →
      l[k]? = some (.fin (gridSum t (fun i j => dot (V 0 i j) (V k i j)) / gridSum t (fun i j => dot (V 0 i j) (V 0 i j)))) := by
  obtain ⟨f0, fs, hfs⟩ := List.exists_cons_of_ne_nil h.ne
  have o0 := h.on (f := f0) (by rw [hfs]; simp)
  have c0 := hV 0 f0 (by rw [hfs]; rfl)
  refine ⟨(f0 :: fs).map fun f => npDiv (scal f0 f) (scal f0 f0), by unfold autoCorr; simp only [hfs], ?_, fun k hk => ?_⟩
  · rw [List.length_map, ← hfs, h.paired]
  · rw [h.paired] at hk
    rw [List.getElem?_map, ← hfs, List.getElem?_eq_getElem hk]
    simp only [Option.map_some, Option.some.injEq]
    rw [scal_some o0 c0 (hV k _ (List.getElem?_eq_getElem hk)), scal_some o0 c0 c0, ratio_eq (grid_ne h) hN]

/-- C200: the correlation at the first time is one. -/
theorem C200_first (h : Record t u) {V : Nat → Nat → Nat → Rat × Rat} (hV : Full t V)
    (hN : gridSum t (fun i j => dot (V 0 i j) (V 0 i j)) ≠ 0) : ∃ l, autoCorr t = .ok (.fin 1 :: l) := by
  obtain ⟨l, e, hl, hk⟩ := C200_correlation_partial h hV hN
  have h0 : 0 < t.times.length := by
    rw [h.paired]; exact List.length_pos_iff.mpr h.ne
  have := hk 0 h0
  rw [div_self hN] at this
  cases l with
  | nil => simp at this
  | cons a l =>
    simp only [List.getElem?_cons_zero, Option.some.injEq] at this
    exact ⟨l, by rw [e, this]⟩

/-- C200: the square of the correlation never exceeds the ratio of the squared norms of the two fields; in particular it lies between
-1 and 1 for a field of the same norm as the first one. -/
theorem C200_bound (h : Record t u) {V : Nat → Nat → Nat → Rat × Rat} (hV : Full t V)
    (hN : gridSum t (fun i j => dot (V 0 i j) (V 0 i j)) ≠ 0) {l : List Num} (e : autoCorr t = .ok l) {k : Nat} {c : Rat}
    (hk : l[k]? = some (.fin c)) :
    c ^ 2 * gridSum t (fun i j => dot (V 0 i j) (V 0 i j)) ≤ gridSum t (fun i j => dot (V k i j) (V k i j)) := by
  obtain ⟨l', e', hl, hr⟩ := C200_correlation_partial h hV hN
  rw [e] at e'
  cases e'
  have hlt : k < t.times.length := by rw [← hl]; exact (List.getElem?_eq_some_iff.mp hk).1
  have := hr k hlt
  rw [hk] at this
  simp only [Option.some.injEq, Num.fin.injEq] at this
  subst this
  have hpos : 0 < gridSum t (fun i j => dot (V 0 i j) (V 0 i j)) := by
    refine lt_of_le_of_ne ?_ (Ne.symm hN)
    refine Finset.sum_nonneg fun i _ => Finset.sum_nonneg fun j _ => ?_
    unfold dot; nlinarith [sq_nonneg (V 0 i j).1, sq_nonneg (V 0 i j).2]
  have hq : gridSum t (fun i j => dot (V 0 i j) (V k i j)) ^ 2 ≤
      gridSum t (fun i j => dot (V 0 i j) (V 0 i j)) * gridSum t (fun i j => dot (V k i j) (V k i j)) := by
    refine quad fun p q => ?_
    have : p ^ 2 * gridSum t (fun i j => dot (V 0 i j) (V 0 i j)) + q ^ 2 * gridSum t (fun i j => dot (V k i j) (V k i j)) +
        2 * p * q * gridSum t (fun i j => dot (V 0 i j) (V k i j)) =
        gridSum t (fun i j => (p * (V 0 i j).1 + q * (V k i j).1) ^ 2 + (p * (V 0 i j).2 + q * (V k i j).2) ^ 2) := by
      unfold gridSum
      simp only [Finset.mul_sum, ← Finset.sum_add_distrib]
      refine Finset.sum_congr rfl fun i _ => Finset.sum_congr rfl fun j _ => ?_
      unfold dot; ring
    rw [this]
    exact Finset.sum_nonneg fun i _ => Finset.sum_nonneg fun j _ => by positivity
  rw [div_pow, div_mul_eq_mul_div, div_le_iff₀ (by positivity)]
  calc _ ≤ gridSum t (fun i j => dot (V 0 i j) (V 0 i j)) * gridSum t (fun i j => dot (V k i j) (V k i j)) *
        gridSum t (fun i j => dot (V 0 i j) (V 0 i j)) := mul_le_mul_of_nonneg_right hq hpos.le
    _ = _ := by ring

/-- C200 fails as soon as one point of the first field is masked (masked components hold NaN): the correlation is NaN at every time. -/
theorem C200_masked_violated (h : Record t u) {f0 : VF} (h0 : t.fields[0]? = some f0) {i j : Nat} (hi : i < t.ax.length) (hj : j < t.ay.length)
    (hm : f0.cx.get i j = none) : ∃ l, autoCorr t = .ok l ∧ l.length = t.times.length ∧ ∀ r ∈ l, r = .nan := by
  obtain ⟨f0', fs, hfs⟩ := List.exists_cons_of_ne_nil h.ne
  have : f0' = f0 := by rw [hfs] at h0; simpa using h0
  subst this
  have o0 := h.on (f := f0') (by rw [hfs]; simp)
  refine ⟨(f0' :: fs).map fun f => npDiv (scal f0' f) (scal f0' f0'), by unfold autoCorr; simp only [hfs], by rw [List.length_map, ← hfs, h.paired], fun r hr => ?_⟩
  obtain ⟨f, _, rfl⟩ := List.mem_map.mp hr
  have : scal f0' f = none := by
    unfold scal
    refine npMean_none (i := i) (j := j) ?_ ?_ ?_
    · show i < f0'.cx.nx; rw [o0.wf.xx, o0.ax]; exact hi
    · show j < f0'.cx.ny; rw [o0.wf.xy, o0.ay]; exact hj
    · simp only [hm]; rfl
  rw [this]
  rfl

end IMT.Turb
