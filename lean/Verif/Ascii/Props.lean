import Verif.Ascii.Lemmas
import Mathlib.Data.List.ProdSigma

/-! Properties C64, C65, C116: fields written in and read from text tables. -/

namespace IMT.Ascii

/-- The table of the values `V` on the grid `xs × ys`, listed column by column (all the `y` of the first `x`, then …). -/
def byColumns (xs ys : List Rat) (V : Rat → Rat → Option Rat) : List Row :=
  xs.flatMap fun x => ys.map fun y => (x, y, V x y)

/-- The table of the values `V` on the grid `xs × ys`, listed row by row (all the `x` of the first `y`, then …). -/
def byRows (xs ys : List Rat) (V : Rat → Rat → Option Rat) : List Row :=
  ys.flatMap fun y => xs.map fun x => (x, y, V x y)

variable {xs ys zs : List Rat} {V : Rat → Rat → Option Rat} {ux uy uv : Sym}

theorem columns_get (i j : Nat) (hj : j < zs.length) :
    (byColumns xs zs V)[i * zs.length + j]? = xs[i]?.bind fun x => zs[j]?.map fun y => (x, y, V x y) := by
  unfold byColumns
  rw [flat_get _ zs.length _ (by simp) _ _ hj]
  simp [List.getElem?_map]

theorem columns_length : (byColumns xs zs V).length = xs.length * zs.length :=
  flat_length _ _ _ (by simp)

theorem rows_get (i j : Nat) (hj : j < xs.length) :
    (byRows xs zs V)[i * xs.length + j]? = zs[i]?.bind fun y => xs[j]?.map fun x => (x, y, V x y) := by
  unfold byRows
  rw [flat_get _ xs.length _ (by simp) _ _ hj]
  simp [List.getElem?_map]

theorem rows_length : (byRows xs zs V).length = zs.length * xs.length :=
  flat_length _ _ _ (by simp)

theorem columns_axes (hx : Inc xs) (hy : Inc ys) (hz : ∀ y, y ∈ zs ↔ y ∈ ys) (nx : xs ≠ []) (ny : ys ≠ []) :
    uniq ((byColumns xs zs V).map (·.1)) = xs ∧ uniq ((byColumns xs zs V).map (·.2.1)) = ys := by
  obtain ⟨x0, hx0⟩ := List.exists_mem_of_ne_nil _ nx
  obtain ⟨y0, hy0⟩ := List.exists_mem_of_ne_nil _ ny
  constructor
  · apply uniq_eq hx
    intro x
    simp only [byColumns, List.mem_map, List.mem_flatMap]
    constructor
    · rintro ⟨r, ⟨x', hx', y', hy', rfl⟩, rfl⟩; exact hx'
    · intro h; exact ⟨_, ⟨x, h, y0, (hz y0).mpr hy0, rfl⟩, rfl⟩
  · apply uniq_eq hy
    intro y
    simp only [byColumns, List.mem_map, List.mem_flatMap]
    constructor
    · rintro ⟨r, ⟨x', hx', y', hy', rfl⟩, rfl⟩; exact (hz _).mp hy'
    · intro h; exact ⟨_, ⟨x0, hx0, y, (hz y).mpr h, rfl⟩, rfl⟩

theorem rows_axes (hx : Inc xs) (hy : Inc ys) (hz : ∀ y, y ∈ zs ↔ y ∈ ys) (nx : xs ≠ []) (ny : ys ≠ []) :
    uniq ((byRows xs zs V).map (·.1)) = xs ∧ uniq ((byRows xs zs V).map (·.2.1)) = ys := by
  obtain ⟨x0, hx0⟩ := List.exists_mem_of_ne_nil _ nx
  obtain ⟨y0, hy0⟩ := List.exists_mem_of_ne_nil _ ny
  constructor
  · apply uniq_eq hx
    intro x
    simp only [byRows, List.mem_map, List.mem_flatMap]
    constructor
    · rintro ⟨r, ⟨x', hx', y', hy', rfl⟩, rfl⟩; exact hy'
    · intro h; exact ⟨_, ⟨y0, (hz y0).mpr hy0, x, h, rfl⟩, rfl⟩
  · apply uniq_eq hy
    intro y
    simp only [byRows, List.mem_map, List.mem_flatMap]
    constructor
    · rintro ⟨r, ⟨x', hx', y', hy', rfl⟩, rfl⟩; exact (hz _).mp hx'
    · intro h; exact ⟨_, ⟨y, (hz y).mpr h, x0, hx0, rfl⟩, rfl⟩

theorem shown_grid (v : Grid (Option Rat)) (i j : Nat) :
    (if (SF.MaskArg.array (v.map (·.isNone))).get i j then none else v.get i j) = v.get i j := by
  cases h : v.get i j <;> simp [SF.MaskArg.get, Grid.map, h]

/-- A table by columns, whatever the order of the ordinates in each column. -/
theorem columns_reads (hx : Inc xs) (hy : Inc ys) (hz : ∀ y, y ∈ zs ↔ y ∈ ys) (hl : zs.length = ys.length)
    (h2x : 2 ≤ xs.length) (h2y : 2 ≤ ys.length) :
    ∃ g, importSF (byColumns xs zs V) ux uy uv = .ok g ∧ g.WF ∧
      (∀ x y r, g.Reads x y r ↔ ∃ (i j : Nat) (y' : Rat), xs[i]? = some x ∧ ys[j]? = some y ∧ zs[j]? = some y' ∧ r = V x y') ∧
      g.ux = ux ∧ g.uy = uy ∧ g.uv = uv := by
  have nx : xs ≠ [] := by rintro rfl; simp at h2x
  have ny : ys ≠ [] := by rintro rfl; simp at h2y
  obtain ⟨a1, a2⟩ := columns_axes (V := V) hx hy hz nx ny
  have hlen : (byColumns xs zs V).length = xs.length * ys.length := by rw [columns_length, hl]
  have hlen' : (byColumns xs zs V).length = ys.length * xs.length := by rw [hlen, Nat.mul_comm]
  have hget : ∀ i j x y', xs[i]? = some x → zs[j]? = some y' → (byColumns xs zs V)[i * ys.length + j]? = some (x, y', V x y') := by
    intro i j x y' hi hj
    rw [← hl, columns_get i j (getElem?_some_lt hj), hi, hj]; rfl
  unfold importSF
  rw [a1, a2]
  unfold importOn reshape
  simp only [List.length_map]
  rw [if_pos hlen, if_pos hlen', if_pos hlen, if_pos hlen']
  simp only
  have hmean : rowMeans ⟨xs.length, ys.length, fun i j => ((byColumns xs zs V).map (·.1)).getD (i * ys.length + j) default⟩ = xs := by
    apply List.ext_getElem?
    intro i
    unfold rowMeans
    rw [List.getElem?_map]
    by_cases hi : i < xs.length
    · rw [List.getElem?_range hi, List.getElem?_eq_getElem hi]
      simp only [Option.map_some, Option.some.injEq]
      have : (List.range ys.length).map (fun j => ((byColumns xs zs V).map (·.1)).getD (i * ys.length + j) default)
          = (List.range ys.length).map fun _ => xs[i] := by
        apply List.map_congr_left
        intro j hj
        rw [List.mem_range] at hj
        have hj' : j < zs.length := by omega
        rw [List.getD_eq_getElem?_getD, List.getElem?_map,
          hget i j _ _ (List.getElem?_eq_getElem hi) (List.getElem?_eq_getElem hj')]
        rfl
      rw [this, sum_const]
      have : (ys.length : Rat) ≠ 0 := by
        have : 0 < ys.length := by omega
        positivity
      field_simp
    · rw [List.getElem?_eq_none (by simpa using hi), List.getElem?_eq_none (by simpa using hi)]; rfl
  rw [if_pos (by rw [hmean]; exact allclose_refl xs)]
  obtain ⟨g, e, w, hr, u⟩ := SF.C15_import_reads_partial (ax := xs) (ay := ys) (ux := ux) (uy := uy) (uv := uv)
    (v := ⟨xs.length, ys.length, fun i j => ((byColumns xs zs V).map (·.2.2)).getD (i * ys.length + j) default⟩)
    (m := .array (Grid.map (·.isNone) ⟨xs.length, ys.length, fun i j => ((byColumns xs zs V).map (·.2.2)).getD (i * ys.length + j) default⟩))
    rfl rfl h2x h2y ⟨rfl, rfl⟩ (Or.inl hx) (Or.inl hy) (Or.inl ⟨hx, hy⟩)
  refine ⟨g, e, w, ?_, u⟩
  intro x y r
  rw [hr]
  have key : ∀ i j x y', xs[i]? = some x → zs[j]? = some y' →
      ((byColumns xs zs V).map (·.2.2)).getD (i * ys.length + j) default = V x y' := by
    intro i j x y' hi hj
    rw [List.getD_eq_getElem?_getD, List.getElem?_map, hget i j x y' hi hj]; rfl
  constructor
  · rintro ⟨i, j, hi, hj, e⟩
    have hj' : j < zs.length := by have := getElem?_some_lt hj; omega
    refine ⟨i, j, zs[j], hi, hj, List.getElem?_eq_getElem hj', ?_⟩
    rw [e, shown_grid]
    exact key i j x _ hi (List.getElem?_eq_getElem hj')
  · rintro ⟨i, j, y', hi, hj, hj', e⟩
    refine ⟨i, j, hi, hj, ?_⟩
    rw [shown_grid, e]
    exact (key i j x y' hi hj').symm

/-- C116: a table listed column by column, both coordinates increasing, gives the field that shows each value at its
coordinates, NaN being masked. -/
theorem C116_columns (hx : Inc xs) (hy : Inc ys) (h2x : 2 ≤ xs.length) (h2y : 2 ≤ ys.length) :
    ∃ g, importSF (byColumns xs ys V) ux uy uv = .ok g ∧ g.WF ∧
      (∀ x y r, g.Reads x y r ↔ x ∈ xs ∧ y ∈ ys ∧ r = V x y) ∧ g.ux = ux ∧ g.uy = uy ∧ g.uv = uv := by
  obtain ⟨g, e, w, hr, u⟩ := columns_reads (V := V) (ux := ux) (uy := uy) (uv := uv) hx hy (fun _ => Iff.rfl) rfl h2x h2y
  refine ⟨g, e, w, ?_, u⟩
  intro x y r
  rw [hr]
  constructor
  · rintro ⟨i, j, y', hi, hj, hj', rfl⟩
    obtain rfl := Option.some.inj (hj.symm.trans hj')
    exact ⟨List.mem_of_getElem? hi, List.mem_of_getElem? hj, rfl⟩
  · rintro ⟨hx, hy, rfl⟩
    obtain ⟨i, hi⟩ := List.getElem?_of_mem hx
    obtain ⟨j, hj⟩ := List.getElem?_of_mem hy
    exact ⟨i, j, y, hi, hj, hj, rfl⟩

example : (match importSF (byColumns [0, 1, 3] [-1, 1/2] fun x y => if x = 1 ∧ y = -1 then none else some (10 * x + y)) Sym.mm Sym.mm Sym.one with
    | .ok g => (g.ax, g.ay, [g.cell 0 0, g.cell 1 0, g.cell 2 1])
    | .error _ => ([], [], [])) = (([0, 1, 3], [-1, 1/2], [some (-1), none, some (61/2)]) : List Rat × List Rat × List (Option Rat)) := by
  decide +kernel

/-- C116 fails when the ordinates decrease in each column: every value is shown at the mirrored ordinate. -/
theorem C116_columns_violated (hx : Inc xs) (hy : Inc ys) (h2x : 2 ≤ xs.length) (h2y : 2 ≤ ys.length) :
    ∃ g, importSF (byColumns xs ys.reverse V) ux uy uv = .ok g ∧
      ∀ x j y y', x ∈ xs → ys[j]? = some y → ys[ys.length - 1 - j]? = some y' → g.Reads x y (V x y') := by
  obtain ⟨g, e, w, hr, u⟩ := columns_reads (V := V) (ux := ux) (uy := uy) (uv := uv) (zs := ys.reverse) hx hy (by simp)
    (by simp) h2x h2y
  refine ⟨g, e, ?_⟩
  intro x j y y' hxx hj hj'
  rw [hr]
  obtain ⟨i, hi⟩ := List.getElem?_of_mem hxx
  have hlt := getElem?_some_lt hj
  exact ⟨i, j, y', hi, hj, by rw [List.getElem?_reverse hlt]; exact hj', rfl⟩

theorem range_sum_ge (f : Nat → Rat) (a b : Rat) (h0 : f 0 = a) (h1 : f 1 = b) : ∀ k, (∀ j, j < k + 2 → a ≤ f j) →
    (k + 1) * a + b ≤ ((List.range (k + 2)).map f).sum := by
  intro k
  induction k with
  | zero => intro _; simp [List.range_succ, h0, h1]
  | succ k ih =>
    intro h
    rw [List.range_succ, List.map_append, List.sum_append]
    have := ih fun j hj => h j (by omega)
    have := h (k + 2) (by omega)
    push_cast
    simp only [List.map_cons, List.map_nil, List.sum_cons, List.sum_nil, add_zero]
    linarith

/-- A table by rows, in whatever order the rows come: it is read as if the ordinates decreased. -/
theorem rows_reads (hx : Inc xs) (hy : Inc ys) (hz : ∀ y, y ∈ zs ↔ y ∈ ys) (hl : zs.length = ys.length)
    (h2y : 2 ≤ ys.length) {x0 x1 : Rat} (e0 : xs[0]? = some x0) (e1 : xs[1]? = some x1)
    (hsep : 1 / 100000000 + 1 / 100000 * |x0| < (x1 - x0) / ys.length) :
    ∃ g, importSF (byRows xs zs V) ux uy uv = .ok g ∧ g.WF ∧
      (∀ x y r, g.Reads x y r ↔ ∃ (i j : Nat) (y' : Rat), xs[i]? = some x ∧ ys[j]? = some y ∧ zs[ys.length - 1 - j]? = some y' ∧ r = V x y') ∧
      g.ux = ux ∧ g.uy = uy ∧ g.uv = uv := by
  have h2x : 2 ≤ xs.length := getElem?_some_lt e1
  have nx : xs ≠ [] := by rintro rfl; simp at h2x
  have ny : ys ≠ [] := by rintro rfl; simp at h2y
  obtain ⟨a1, a2⟩ := rows_axes (V := V) hx hy hz nx ny
  have hlen' : (byRows xs zs V).length = ys.length * xs.length := by rw [rows_length, hl]
  have hlen : (byRows xs zs V).length = xs.length * ys.length := by rw [hlen', Nat.mul_comm]
  have hget : ∀ i j x y', zs[i]? = some y' → xs[j]? = some x → (byRows xs zs V)[i * xs.length + j]? = some (x, y', V x y') := by
    intro i j x y' hi hj
    rw [rows_get i j (getElem?_some_lt hj), hi, hj]; rfl
  unfold importSF
  rw [a1, a2]
  unfold importOn reshape
  simp only [List.length_map]
  rw [if_pos hlen, if_pos hlen', if_pos hlen, if_pos hlen']
  simp only
  -- the first test fails on the first mean
  have hpos : (0 : Rat) < ys.length := by
    have : 0 < ys.length := by omega
    exact_mod_cast this
  have hfirst : allclose (rowMeans ⟨xs.length, ys.length, fun i j => ((byRows xs zs V).map (·.1)).getD (i * ys.length + j) default⟩) xs ≠ true := by
    intro hc
    unfold allclose at hc
    rw [List.all_eq_true] at hc
    have hmem := hc ((((List.range ys.length).map fun j => ((byRows xs zs V).map (·.1)).getD (0 * ys.length + j) default).sum) / ys.length, x0) (by
      rw [List.mem_iff_getElem?]
      refine ⟨0, ?_⟩
      rw [List.getElem?_zip_eq_some]
      refine ⟨?_, e0⟩
      unfold rowMeans
      rw [List.getElem?_map, List.getElem?_range (show 0 < xs.length by omega)]
      rfl)
    simp only [decide_eq_true_eq] at hmem
    obtain ⟨k, hk⟩ : ∃ k, ys.length = k + 2 := ⟨ys.length - 2, by omega⟩
    have hz0 : 0 < zs.length := by omega
    have hall : ∀ j, j < k + 2 → x0 ≤ ((byRows xs zs V).map (·.1)).getD (0 * ys.length + j) default := by
      intro j hj
      have hjl : 0 * ys.length + j < ((byRows xs zs V).map (·.1)).length := by
        rw [List.length_map, hlen, hk]; nlinarith
      rw [List.getD_eq_getElem?_getD, List.getElem?_eq_getElem hjl, Option.getD_some]
      have hin := List.getElem_mem hjl
      rw [← mem_uniq, a1] at hin
      obtain ⟨i, hi⟩ := List.getElem?_of_mem hin
      generalize ((byRows xs zs V).map (·.1))[0 * ys.length + j] = c at hi
      rcases Nat.eq_zero_or_pos i with rfl | hp
      · rw [e0] at hi; exact le_of_eq (Option.some.inj hi)
      · obtain ⟨hlt, rfl⟩ := List.getElem?_eq_some_iff.mp hi
        obtain ⟨hlt0, rfl⟩ := List.getElem?_eq_some_iff.mp e0
        exact le_of_lt (List.pairwise_iff_getElem.mp hx 0 i hlt0 hlt hp)
    have hs := range_sum_ge (fun j => ((byRows xs zs V).map (·.1)).getD (0 * ys.length + j) default) x0 x1
      (by
        have := hget 0 0 x0 zs[0] (List.getElem?_eq_getElem hz0) e0
        simp only [Nat.zero_mul, Nat.add_zero] at this ⊢
        rw [List.getD_eq_getElem?_getD, List.getElem?_map, this]; rfl)
      (by
        have := hget 0 1 x1 zs[0] (List.getElem?_eq_getElem hz0) e1
        simp only [Nat.zero_mul, Nat.zero_add] at this ⊢
        rw [List.getD_eq_getElem?_getD, List.getElem?_map, this]; rfl) k hall
    rw [← hk] at hs
    have hkq : (ys.length : Rat) = k + 2 := by rw [hk]; push_cast; ring
    have h3 : (x1 - x0) / ys.length ≤
        (((List.range ys.length).map fun j => ((byRows xs zs V).map (·.1)).getD (0 * ys.length + j) default).sum) / ys.length - x0 := by
      rw [le_sub_iff_add_le, div_add' _ _ _ hpos.ne', div_le_div_iff_of_pos_right hpos]
      rw [hkq]
      linarith
    have h4 := le_abs_self ((((List.range ys.length).map fun j => ((byRows xs zs V).map (·.1)).getD (0 * ys.length + j) default).sum) / ys.length - x0)
    linarith
  have hmean : colMeans ⟨ys.length, xs.length, fun i j => ((byRows xs zs V).map (·.1)).getD (i * xs.length + j) default⟩ = xs := by
    apply List.ext_getElem?
    intro j
    unfold colMeans
    rw [List.getElem?_map]
    by_cases hj : j < xs.length
    · rw [List.getElem?_range hj, List.getElem?_eq_getElem hj]
      simp only [Option.map_some, Option.some.injEq]
      have : (List.range ys.length).map (fun i => ((byRows xs zs V).map (·.1)).getD (i * xs.length + j) default)
          = (List.range ys.length).map fun _ => xs[j] := by
        apply List.map_congr_left
        intro i hi
        rw [List.mem_range] at hi
        have hi' : i < zs.length := by omega
        rw [List.getD_eq_getElem?_getD, List.getElem?_map,
          hget i j _ _ (List.getElem?_eq_getElem hi') (List.getElem?_eq_getElem hj)]
        rfl
      rw [this, sum_const]
      field_simp
    · rw [List.getElem?_eq_none (by simpa using hj), List.getElem?_eq_none (by simpa using hj)]; rfl
  rw [if_neg hfirst, if_pos (by rw [hmean]; exact allclose_refl xs)]
  obtain ⟨g, e, w, hr, u⟩ := SF.C15_import_reads_partial (ax := xs) (ay := ys) (ux := ux) (uy := uy) (uv := uv)
    (v := (Grid.transpose ⟨ys.length, xs.length, fun i j => ((byRows xs zs V).map (·.2.2)).getD (i * xs.length + j) default⟩).flipY)
    (m := .array (Grid.map (·.isNone) (Grid.transpose ⟨ys.length, xs.length, fun i j => ((byRows xs zs V).map (·.2.2)).getD (i * xs.length + j) default⟩).flipY))
    rfl rfl h2x h2y ⟨rfl, rfl⟩ (Or.inl hx) (Or.inl hy) (Or.inl ⟨hx, hy⟩)
  refine ⟨g, e, w, ?_, u⟩
  intro x y r
  rw [hr]
  have key : ∀ i j x y', zs[i]? = some y' → xs[j]? = some x →
      ((byRows xs zs V).map (·.2.2)).getD (i * xs.length + j) default = V x y' := by
    intro i j x y' hi hj
    rw [List.getD_eq_getElem?_getD, List.getElem?_map, hget i j x y' hi hj]; rfl
  constructor
  · rintro ⟨i, j, hi, hj, e⟩
    have hj' : ys.length - 1 - j < zs.length := by have := getElem?_some_lt hj; omega
    refine ⟨i, j, zs[ys.length - 1 - j], hi, hj, List.getElem?_eq_getElem hj', ?_⟩
    rw [e, shown_grid]
    exact key _ i x _ (List.getElem?_eq_getElem hj') hi
  · rintro ⟨i, j, y', hi, hj, hj', e⟩
    refine ⟨i, j, hi, hj, ?_⟩
    rw [shown_grid, e]
    exact (key _ i x y' hj' hi).symm

/-- C116: a table listed row by row, from the largest ordinate to the lowest, gives the field that shows each value at its
coordinates.  Partial: the first two abscissae must not be too close to each other (`np.allclose` decides how the table is
listed, see `C116_close_violated`). -/
theorem C116_rows_partial (hx : Inc xs) (hy : Inc ys) (h2y : 2 ≤ ys.length) {x0 x1 : Rat} (e0 : xs[0]? = some x0)
    (e1 : xs[1]? = some x1) (hsep : 1 / 100000000 + 1 / 100000 * |x0| < (x1 - x0) / ys.length) :
    ∃ g, importSF (byRows xs ys.reverse V) ux uy uv = .ok g ∧ g.WF ∧
      (∀ x y r, g.Reads x y r ↔ x ∈ xs ∧ y ∈ ys ∧ r = V x y) ∧ g.ux = ux ∧ g.uy = uy ∧ g.uv = uv := by
  obtain ⟨g, e, w, hr, u⟩ := rows_reads (V := V) (ux := ux) (uy := uy) (uv := uv) (zs := ys.reverse) hx hy (by simp) (by simp)
    h2y e0 e1 hsep
  refine ⟨g, e, w, ?_, u⟩
  have rev : ∀ j, j < ys.length → ys.reverse[ys.length - 1 - j]? = ys[j]? := by
    intro j hj
    rw [List.getElem?_reverse (by omega)]
    congr 1; omega
  intro x y r
  rw [hr]
  constructor
  · rintro ⟨i, j, y', hi, hj, hj', rfl⟩
    rw [rev j (getElem?_some_lt hj)] at hj'
    obtain rfl := Option.some.inj (hj.symm.trans hj')
    exact ⟨List.mem_of_getElem? hi, List.mem_of_getElem? hj, rfl⟩
  · rintro ⟨hx, hy, rfl⟩
    obtain ⟨i, hi⟩ := List.getElem?_of_mem hx
    obtain ⟨j, hj⟩ := List.getElem?_of_mem hy
    exact ⟨i, j, y, hi, hj, by rw [rev j (getElem?_some_lt hj)]; exact hj, rfl⟩

example : (match importSF (byRows [0, 1, 3] [1/2, -1] fun x y => if x = 1 ∧ y = -1 then none else some (10 * x + y)) Sym.mm Sym.mm Sym.one with
    | .ok g => (g.ax, g.ay, [g.cell 0 0, g.cell 1 0, g.cell 2 1])
    | .error _ => ([], [], [])) = (([0, 1, 3], [-1, 1/2], [some (-1), none, some (61/2)]) : List Rat × List Rat × List (Option Rat)) := by
  decide +kernel

/-- C116 fails for a table listed row by row with increasing ordinates: every value is shown at the mirrored ordinate. -/
theorem C116_rows_violated (hx : Inc xs) (hy : Inc ys) (h2y : 2 ≤ ys.length) {x0 x1 : Rat} (e0 : xs[0]? = some x0)
    (e1 : xs[1]? = some x1) (hsep : 1 / 100000000 + 1 / 100000 * |x0| < (x1 - x0) / ys.length) :
    ∃ g, importSF (byRows xs ys V) ux uy uv = .ok g ∧
      ∀ x j y y', x ∈ xs → ys[j]? = some y → ys[ys.length - 1 - j]? = some y' → g.Reads x y (V x y') := by
  obtain ⟨g, e, w, hr, u⟩ := rows_reads (V := V) (ux := ux) (uy := uy) (uv := uv) (zs := ys) hx hy (fun _ => Iff.rfl) rfl
    h2y e0 e1 hsep
  refine ⟨g, e, ?_⟩
  intro x j y y' hxx hj hj'
  rw [hr]
  obtain ⟨i, hi⟩ := List.getElem?_of_mem hxx
  exact ⟨i, j, y', hi, hj, hj', rfl⟩

/-- C116 fails for abscissae closer than the tolerance of `np.allclose`: the table of the values `10 x' + y'` on a grid of two
columns one micrometre apart and two rows, listed by rows in the right order, is read as a table by columns. -/
theorem C116_close_violated :
    ∃ g, importSF (byRows [1, 1 + 1/1000000] [1, 0] fun x y => some (10 * x + y)) Sym.m Sym.m Sym.one = .ok g ∧
      g.Reads 1 0 (some 11) ∧ g.Reads 1 1 (some (11 + 1/100000)) := by
  have h : (match importSF (byRows [1, 1 + 1/1000000] [1, 0] fun x y => some (10 * x + y)) Sym.m Sym.m Sym.one with
      | .ok g => decide (g.ax[0]? = some 1 ∧ g.ay[0]? = some 0 ∧ g.cell 0 0 = some 11 ∧ g.ay[1]? = some 1 ∧
          g.cell 0 1 = some (11 + 1/100000))
      | .error _ => false) = true := by decide +kernel
  split at h
  · rename_i g e
    obtain ⟨h1, h2, h3, h4, h5⟩ := of_decide_eq_true h
    exact ⟨g, e, ⟨0, 0, h1, h2, h3⟩, ⟨0, 1, h1, h4, h5⟩⟩
  · cases h

/-- C116 fails for incomplete tables: when one point of the grid is missing, and no row is repeated, the table is refused (the
code that handles missing points comes after a reshape which does not accept them). -/
theorem C116_incomplete_violated {rows : List Row} (hn : (rows.map fun r => (r.1, r.2.1)).Nodup)
    {x y : Rat} (hx : ∃ r ∈ rows, r.1 = x) (hy : ∃ r ∈ rows, r.2.1 = y) (hno : ∀ r ∈ rows, ¬ (r.1 = x ∧ r.2.1 = y)) :
    importSF rows ux uy uv = .error .valueError := by
  have hlt : rows.length < (uniq (rows.map (·.1))).length * (uniq (rows.map (·.2.1))).length := by
    have nd : ∀ l, (uniq l).Nodup := fun l => (uniq_inc l).imp (fun h => ne_of_lt h)
    have hsub : (x, y) :: rows.map (fun r => (r.1, r.2.1)) ⊆ (uniq (rows.map (·.1))).product (uniq (rows.map (·.2.1))) := by
      intro p hp
      rw [List.pair_mem_product, mem_uniq, mem_uniq]
      rcases List.mem_cons.mp hp with rfl | hp
      · obtain ⟨r, hr, rfl⟩ := hx
        obtain ⟨s, hs, rfl⟩ := hy
        exact ⟨List.mem_map.mpr ⟨r, hr, rfl⟩, List.mem_map.mpr ⟨s, hs, rfl⟩⟩
      · obtain ⟨r, hr, rfl⟩ := List.mem_map.mp hp
        exact ⟨List.mem_map.mpr ⟨r, hr, rfl⟩, List.mem_map.mpr ⟨r, hr, rfl⟩⟩
    have hnd : ((x, y) :: rows.map (fun r => (r.1, r.2.1))).Nodup := by
      rw [List.nodup_cons]
      refine ⟨?_, hn⟩
      intro h
      obtain ⟨r, hr, he⟩ := List.mem_map.mp h
      simp only [Prod.mk.injEq] at he
      exact hno r hr he
    have hle := (List.subperm_of_subset hnd hsub).length_le
    have hp := List.length_product (uniq (rows.map (·.1))) (uniq (rows.map (·.2.1)))
    change ((uniq (rows.map (·.1))).product (uniq (rows.map (·.2.1)))).length = _ at hp
    rw [hp] at hle
    simp only [List.length_cons, List.length_map] at hle
    omega
  unfold importSF importOn reshape
  simp only [List.length_map]
  rw [if_neg (by omega)]

/-- C116: a complete table on a grid with different numbers of abscissae and ordinates, listed in an order that is neither by
columns nor by rows, shows each value at its coordinates. -/
theorem C116_any_order_partial {rows : List Row} (hn : (rows.map fun r => (r.1, r.2.1)).Nodup)
    (hlen : rows.length = (uniq (rows.map (·.1))).length * (uniq (rows.map (·.2.1))).length)
    (h2x : 2 ≤ (uniq (rows.map (·.1))).length) (h2y : 2 ≤ (uniq (rows.map (·.2.1))).length)
    (hne : (uniq (rows.map (·.1))).length ≠ (uniq (rows.map (·.2.1))).length)
    (t1 : ∀ X, reshape (rows.map (·.1)) (uniq (rows.map (·.1))).length (uniq (rows.map (·.2.1))).length = .ok X →
      allclose (rowMeans X) (uniq (rows.map (·.1))) = false)
    (t2 : ∀ X, reshape (rows.map (·.1)) (uniq (rows.map (·.2.1))).length (uniq (rows.map (·.1))).length = .ok X →
      allclose (colMeans X) (uniq (rows.map (·.1))) = false) :
    ∃ g, importSF rows ux uy uv = .ok g ∧ g.WF ∧ (∀ r ∈ rows, g.Reads r.1 r.2.1 r.2.2) ∧
      g.ux = ux ∧ g.uy = uy ∧ g.uv = uv := by
  unfold importSF importOn
  have r1 : ∀ {α : Type} [Inhabited α] (l : List α) (n m : Nat), l.length = n * m →
      reshape l n m = .ok ⟨n, m, fun i j => l.getD (i * m + j) default⟩ := by
    intro α _ l n m h; unfold reshape; rw [if_pos h]
  have hlen' : rows.length = (uniq (rows.map (·.2.1))).length * (uniq (rows.map (·.1))).length := by rw [hlen, Nat.mul_comm]
  rw [r1 _ _ _ (by rw [List.length_map]; exact hlen)] at t1
  rw [r1 _ _ _ (by rw [List.length_map]; exact hlen')] at t2
  rw [r1 _ _ _ (by rw [List.length_map]; exact hlen), r1 _ _ _ (by rw [List.length_map]; exact hlen'),
    r1 _ _ _ (by rw [List.length_map]; exact hlen), r1 _ _ _ (by rw [List.length_map]; exact hlen')]
  simp only
  rw [if_neg (by rw [t1 _ rfl]; simp), if_neg (by rw [t2 _ rfl]; simp)]
  unfold unstructured
  have hxs : ∀ r ∈ rows, r.1 ∈ uniq (rows.map (·.1)) := fun r hr => (mem_uniq _ _).mpr (List.mem_map.mpr ⟨r, hr, rfl⟩)
  have hys : ∀ r ∈ rows, r.2.1 ∈ uniq (rows.map (·.2.1)) := fun r hr => (mem_uniq _ _).mpr (List.mem_map.mpr ⟨r, hr, rfl⟩)
  have ix := uniq_inc (rows.map (·.1))
  have iy := uniq_inc (rows.map (·.2.1))
  generalize uniq (rows.map (·.1)) = xs at *
  generalize uniq (rows.map (·.2.1)) = ys at *
  have hsc : ∀ r ∈ rows, scatter xs ys rows (pos ys r.2.1) (pos xs r.1) = some r.2.2 := by
    intro r hr
    refine fold_put_in (fun r : Row => pos ys r.2.1) (fun r => pos xs r.1) (fun r => some r.2.2) rows _ ?_ r hr
    have := pos_nodup (fun r : Row => r.2.1) (fun r => r.1) rows hys hxs ?_
    · exact this
    · have he : rows.map (fun r => (r.2.1, r.1)) = (rows.map fun r => (r.1, r.2.1)).map Prod.swap := by simp
      rw [he]
      exact hn.map Prod.swap_injective
  rw [SF.C15_import_transposed rfl rfl hne ⟨rfl, rfl⟩]
  obtain ⟨g, e, w, hr, u⟩ := SF.C15_import_reads_partial (ax := xs) (ay := ys) (ux := ux) (uy := uy) (uv := uv)
    (v := ⟨xs.length, ys.length, fun i j => (scatter xs ys rows j i).getD (some 0)⟩)
    (m := .array ⟨xs.length, ys.length, fun i j => match scatter xs ys rows j i with
      | some (some _) => false
      | _ => true⟩) rfl rfl h2x h2y ⟨rfl, rfl⟩ (Or.inl ix) (Or.inl iy) (Or.inl ⟨ix, iy⟩)
  refine ⟨g, e, w, ?_, u⟩
  intro r hrr
  rw [hr]
  refine ⟨pos xs r.1, pos ys r.2.1, pos_get (hxs r hrr), pos_get (hys r hrr), ?_⟩
  have hm : (SF.MaskArg.array ⟨xs.length, ys.length, fun i j => match scatter xs ys rows j i with
      | some (some _) => false
      | _ => true⟩).get (pos xs r.1) (pos ys r.2.1) = r.2.2.isNone := by
    simp only [SF.MaskArg.get, hsc r hrr]
    cases r.2.2 <;> rfl
  rw [hm]
  simp only [hsc r hrr, Option.getD_some]
  cases r.2.2 <;> simp

/-- The hypotheses of `C116_any_order_partial` hold for a shuffled table of a 3 × 2 grid. -/
example : (match importSF [(0, 0, some 5), (3, 2, some 8), (1, 0, some 6), (0, 2, some 7), (3, 0, none), (1, 2, some 9)] Sym.m Sym.m Sym.one with
    | .ok g => (g.ax, g.ay, [g.cell 0 0, g.cell 0 1, g.cell 1 0, g.cell 1 1, g.cell 2 0, g.cell 2 1])
    | .error _ => ([], [], [])) =
    (([0, 1, 3], [0, 2], [some 5, some 7, some 6, some 9, none, some 8]) : List Rat × List Rat × List (Option Rat)) := by
  decide +kernel

/-- C116 fails for such an order on a square grid: the field is transposed.  Here the value given at `(1, 0)` is shown at
`(0, 2)` and the one given at `(0, 2)` is shown at `(1, 0)`. -/
theorem C116_square_violated :
    ∃ g, importSF [(0, 0, some 5), (1, 2, some 8), (1, 0, some 6), (0, 2, some 7)] Sym.m Sym.m Sym.one = .ok g ∧
      g.Reads 0 2 (some 6) ∧ g.Reads 1 0 (some 7) := by
  have h : (match importSF [(0, 0, some 5), (1, 2, some 8), (1, 0, some 6), (0, 2, some 7)] Sym.m Sym.m Sym.one with
      | .ok g => decide (g.ax[0]? = some 0 ∧ g.ay[1]? = some 2 ∧ g.cell 0 1 = some 6 ∧ g.ax[1]? = some 1 ∧ g.ay[0]? = some 0 ∧
          g.cell 1 0 = some 7)
      | .error _ => false) = true := by decide +kernel
  split at h
  · rename_i g e
    obtain ⟨h1, h2, h3, h4, h5, h6⟩ := of_decide_eq_true h
    exact ⟨g, e, ⟨0, 1, h1, h2, h3⟩, ⟨1, 0, h4, h5, h6⟩⟩
  · cases h

/-! ### round trips -/

/-- C64: a scalar field written as text and read again with its units is the same field: same grid, same values, same masked
points, same units. -/
theorem C64_roundtrip {f : SF} (hf : f.WF) (h2x : 2 ≤ f.ax.length) (h2y : 2 ≤ f.ay.length) :
    ∃ g, importSF (exportSF f) f.ux f.uy f.uv = .ok g ∧ g.WF ∧ (∀ x y r, g.Reads x y r ↔ f.Reads x y r) ∧
      g.ux = f.ux ∧ g.uy = f.uy ∧ g.uv = f.uv := by
  have hV : exportSF f = byColumns f.ax f.ay fun x y => f.cell (pos f.ax x) (pos f.ay y) := by
    unfold exportSF byColumns
    have hz : ∀ (l : List Rat) (β : Type) (F : Rat → Nat → List β), Inc l →
        l.zipIdx.flatMap (fun p => F p.1 p.2) = l.flatMap fun x => F x (pos l x) := by
      intro l β F hl
      have : l.zipIdx = l.map fun x => (x, pos l x) := by
        apply List.ext_getElem?
        intro i
        rw [List.getElem?_zipIdx, List.getElem?_map]
        cases h : l[i]? with
        | none => rfl
        | some x => simp [pos_eq hl h]
      rw [this, List.flatMap_map]
    rw [hz f.ax Row (fun x i => f.ay.zipIdx.map fun q => (x, q.1, f.values.get i q.2)) hf.incx]
    congr 1
    funext x
    have : f.ay.zipIdx = f.ay.map fun y => (y, pos f.ay y) := by
      apply List.ext_getElem?
      intro i
      rw [List.getElem?_zipIdx, List.getElem?_map]
      cases h : f.ay[i]? with
      | none => rfl
      | some x => simp [pos_eq hf.incy h]
    rw [this, List.map_map]
    rfl
  obtain ⟨g, e, w, hr, u⟩ := C116_columns (V := fun x y => f.cell (pos f.ax x) (pos f.ay y)) (ux := f.ux) (uy := f.uy)
    (uv := f.uv) hf.incx hf.incy h2x h2y
  rw [← hV] at e
  refine ⟨g, e, w, ?_, u⟩
  intro x y r
  rw [hr]
  constructor
  · rintro ⟨hx, hy, rfl⟩
    exact ⟨_, _, pos_get hx, pos_get hy, rfl⟩
  · rintro ⟨i, j, hi, hj, rfl⟩
    refine ⟨List.mem_of_getElem? hi, List.mem_of_getElem? hj, ?_⟩
    rw [pos_eq hf.incx hi, pos_eq hf.incy hj]

/-- The vector of a row: nothing when a component is NaN. -/
def vec (r : VRow) : Option (Rat × Rat) :=
  match r.2.2.1, r.2.2.2 with
  | some u, some v => some (u, v)
  | _, _ => none

/-- C65: a table of vectors in any order, possibly incomplete, each point at most once, with at least two abscissae and two
ordinates, gives the field on the grid of all abscissae and ordinates that shows the vector of each row at its coordinates;
points without row are masked. -/
theorem C65_import_rows {rows : List VRow} (hn : (rows.map fun r => (r.1, r.2.1)).Nodup)
    (hx : ∃ r ∈ rows, ∃ s ∈ rows, r.1 ≠ s.1) (hy : ∃ r ∈ rows, ∃ s ∈ rows, r.2.1 ≠ s.2.1) :
    ∃ g, importVF rows ux uy uv = .ok g ∧ g.WF ∧
      (∀ x, (∃ y r, g.Reads x y r) ↔ ∃ r ∈ rows, r.1 = x) ∧ (∀ y, (∃ x r, g.Reads x y r) ↔ ∃ r ∈ rows, r.2.1 = y) ∧
      (∀ r ∈ rows, g.Reads r.1 r.2.1 (vec r)) ∧
      (∀ x y v, g.Reads x y v → (∀ r ∈ rows, ¬ (r.1 = x ∧ r.2.1 = y)) → v = none) ∧
      g.ux = ux ∧ g.uy = uy ∧ g.uv = uv := by
  have two : ∀ l : List Rat, (∃ a ∈ l, ∃ b ∈ l, a ≠ b) → 2 ≤ (uniq l).length := by
    rintro l ⟨a, ha, b, hb, hab⟩
    have h1 := pos_lt ((mem_uniq a l).mpr ha)
    have h2 := pos_lt ((mem_uniq b l).mpr hb)
    have h3 : pos (uniq l) a ≠ pos (uniq l) b := fun h => hab (pos_inj ((mem_uniq a l).mpr ha) ((mem_uniq b l).mpr hb) h)
    omega
  have h2x : 2 ≤ (uniq (rows.map (·.1))).length := by
    obtain ⟨r, hr, s, hs, h⟩ := hx
    exact two _ ⟨_, List.mem_map.mpr ⟨r, hr, rfl⟩, _, List.mem_map.mpr ⟨s, hs, rfl⟩, h⟩
  have h2y : 2 ≤ (uniq (rows.map (·.2.1))).length := by
    obtain ⟨r, hr, s, hs, h⟩ := hy
    exact two _ ⟨_, List.mem_map.mpr ⟨r, hr, rfl⟩, _, List.mem_map.mpr ⟨s, hs, rfl⟩, h⟩
  unfold importVF
  have hxs : ∀ x, x ∈ uniq (rows.map (·.1)) ↔ ∃ r ∈ rows, r.1 = x := fun x => by rw [mem_uniq, List.mem_map]
  have hys : ∀ y, y ∈ uniq (rows.map (·.2.1)) ↔ ∃ r ∈ rows, r.2.1 = y := fun y => by rw [mem_uniq, List.mem_map]
  have ix := uniq_inc (rows.map (·.1))
  have iy := uniq_inc (rows.map (·.2.1))
  generalize uniq (rows.map (·.1)) = xs at *
  generalize uniq (rows.map (·.2.1)) = ys at *
  have hin : ∀ (c : VRow → Option Rat), ∀ r ∈ rows, scatterV xs ys c rows (pos xs r.1) (pos ys r.2.1) = some (c r) := by
    intro c r hr
    refine fold_put_in (fun r : VRow => pos xs r.1) (fun r => pos ys r.2.1) (fun r => some (c r)) rows _ ?_ r hr
    exact pos_nodup (fun r : VRow => r.1) (fun r => r.2.1) rows (fun r hr => (hxs _).mpr ⟨r, hr, rfl⟩)
      (fun r hr => (hys _).mpr ⟨r, hr, rfl⟩) hn
  have hout : ∀ (c : VRow → Option Rat) (i j : Nat) (x y : Rat), xs[i]? = some x → ys[j]? = some y →
      (∀ r ∈ rows, ¬ (r.1 = x ∧ r.2.1 = y)) → scatterV xs ys c rows i j = none := by
    intro c i j x y hi hj h
    refine fold_put_out (fun r : VRow => pos xs r.1) (fun r => pos ys r.2.1) (fun r => some (c r)) i j rows _ ?_
    rintro r hr ⟨h1, h2⟩
    refine h r hr ⟨?_, ?_⟩
    · have := pos_get ((hxs r.1).mpr ⟨r, hr, rfl⟩)
      rw [h1, hi] at this; exact (Option.some.inj this).symm
    · have := pos_get ((hys r.2.1).mpr ⟨r, hr, rfl⟩)
      rw [h2, hj] at this; exact (Option.some.inj this).symm
  unfold importOnV
  obtain ⟨g, e, w, hr, u⟩ := VF.C111_import_reads_partial (ax := xs) (ay := ys) (ux := ux) (uy := uy) (uv := uv)
    (cx := ⟨xs.length, ys.length, fun i j => (scatterV xs ys (·.2.2.1) rows i j).getD (some 0)⟩)
    (cy := ⟨xs.length, ys.length, fun i j => (scatterV xs ys (·.2.2.2) rows i j).getD (some 0)⟩)
    (m := .array ⟨xs.length, ys.length, fun i j => match scatterV xs ys (·.2.2.1) rows i j with
      | some (some _) => false
      | _ => true⟩) rfl rfl rfl rfl h2x h2y rfl rfl (Or.inl ix) (Or.inl iy) (Or.inl ⟨ix, iy⟩)
  have hax : ∀ x y, (∃ v, g.Reads x y v) ↔ x ∈ xs ∧ y ∈ ys := by
    intro x y
    constructor
    · rintro ⟨v, h⟩
      obtain ⟨i, j, hi, hj, _⟩ := (hr x y v).mp h
      exact ⟨List.mem_of_getElem? hi, List.mem_of_getElem? hj⟩
    · rintro ⟨h1, h2⟩
      exact ⟨_, (hr x y _).mpr ⟨_, _, pos_get h1, pos_get h2, rfl⟩⟩
  refine ⟨g, e, w, ?_, ?_, ?_, ?_, u⟩
  · intro x
    rw [← hxs]
    constructor
    · rintro ⟨y, v, h⟩; exact ((hax x y).mp ⟨v, h⟩).1
    · intro h
      obtain ⟨r, hr, _⟩ := hy
      obtain ⟨v, hv⟩ := (hax x r.2.1).mpr ⟨h, (hys _).mpr ⟨r, hr, rfl⟩⟩
      exact ⟨_, v, hv⟩
  · intro y
    rw [← hys]
    constructor
    · rintro ⟨x, v, h⟩; exact ((hax x y).mp ⟨v, h⟩).2
    · intro h
      obtain ⟨r, hr, _⟩ := hx
      obtain ⟨v, hv⟩ := (hax r.1 y).mpr ⟨(hxs _).mpr ⟨r, hr, rfl⟩, h⟩
      exact ⟨_, v, hv⟩
  · intro r hrr
    rw [hr]
    refine ⟨pos xs r.1, pos ys r.2.1, pos_get ((hxs _).mpr ⟨r, hrr, rfl⟩), pos_get ((hys _).mpr ⟨r, hrr, rfl⟩), ?_⟩
    simp only [VF.MaskArg.grid, hin _ r hrr, Option.getD_some]
    unfold vec VF.shown
    cases r.2.2.1 <;> cases r.2.2.2 <;> rfl
  · intro x y v hv hno
    obtain ⟨i, j, hi, hj, rfl⟩ := (hr x y v).mp hv
    simp only [VF.MaskArg.grid, hout _ i j x y hi hj hno]
    rfl

example : (match importVF [(1, 2, some 5, some 6), (0, 0, some 1, some 2), (0, 2, none, some 3)] Sym.m Sym.m Sym.one with
    | .ok g => (g.ax, g.ay, [g.cell 0 0, g.cell 0 1, g.cell 1 0, g.cell 1 1])
    | .error _ => ([], [], [])) =
    (([0, 1], [0, 2], [some (1, 2), none, none, some (5, 6)]) : List Rat × List Rat × List (Option (Rat × Rat))) := by
  decide +kernel

theorem mem_exportVF {f : VF} (r : VRow) :
    r ∈ exportVF f ↔ ∃ i j : Nat, f.ax[i]? = some r.1 ∧ f.ay[j]? = some r.2.1 ∧ r.2.2.1 = f.cx.get i j ∧ r.2.2.2 = f.cy.get i j := by
  unfold exportVF
  rw [List.mem_flatMap]
  constructor
  · rintro ⟨⟨x, i⟩, hp, h⟩
    obtain ⟨⟨y, j⟩, hq, rfl⟩ := List.mem_map.mp h
    rw [List.mk_mem_zipIdx_iff_getElem?] at hp hq
    exact ⟨i, j, hp, hq, rfl, rfl⟩
  · rintro ⟨i, j, hi, hj, hu, hv⟩
    refine ⟨(r.1, i), List.mk_mem_zipIdx_iff_getElem?.mpr hi, List.mem_map.mpr ⟨(r.2.1, j), List.mk_mem_zipIdx_iff_getElem?.mpr hj, ?_⟩⟩
    obtain ⟨a, b, c, d⟩ := r
    simp only at hu hv ⊢
    rw [hu, hv]

theorem export_nodup {f : VF} (hf : f.WF) : ((exportVF f).map fun r => (r.1, r.2.1)).Nodup := by
  have : (exportVF f).map (fun r => (r.1, r.2.1)) = f.ax.flatMap fun x => f.ay.map fun y => (x, y) := by
    unfold exportVF
    rw [List.map_flatMap]
    have hz : ∀ (l : List Rat) (G : Rat → List (Rat × Rat)), l.zipIdx.flatMap (fun p => G p.1) = l.flatMap G := by
      intro l G
      have := List.flatMap_map Prod.fst G l.zipIdx
      rw [List.zipIdx_map_fst] at this
      exact this.symm
    rw [← hz f.ax]
    congr 1
    funext p
    rw [List.map_map]
    conv_rhs => rw [← List.zipIdx_map_fst 0 f.ay, List.map_map]
    rfl
  rw [this]
  exact List.Nodup.product (hf.incx.imp fun h => ne_of_lt h) (hf.incy.imp fun h => ne_of_lt h)

theorem export_two {f : VF} (hf : f.WF) (h2x : 2 ≤ f.ax.length) (h2y : 2 ≤ f.ay.length) :
    (∃ r ∈ exportVF f, ∃ s ∈ exportVF f, r.1 ≠ s.1) ∧ (∃ r ∈ exportVF f, ∃ s ∈ exportVF f, r.2.1 ≠ s.2.1) := by
  have hr : ∀ i j, (hi : i < f.ax.length) → (hj : j < f.ay.length) →
      (f.ax[i], f.ay[j], f.cx.get i j, f.cy.get i j) ∈ exportVF f := fun i j hi hj =>
    (mem_exportVF _).mpr ⟨i, j, List.getElem?_eq_getElem hi, List.getElem?_eq_getElem hj, rfl, rfl⟩
  refine ⟨⟨_, hr 0 0 (by omega) (by omega), _, hr 1 0 (by omega) (by omega), ?_⟩,
    ⟨_, hr 0 0 (by omega) (by omega), _, hr 0 1 (by omega) (by omega), ?_⟩⟩
  · exact ne_of_lt (List.pairwise_iff_getElem.mp hf.incx 0 1 (by omega) (by omega) (by omega))
  · exact ne_of_lt (List.pairwise_iff_getElem.mp hf.incy 0 1 (by omega) (by omega) (by omega))

/-- C65: a vector field written as text and read again, the rows in any order, is the same field.  Partial: provided its
masked points hold a NaN component, as after an import (see `C65_masked_violated`). -/
theorem C65_roundtrip_partial {f : VF} (hf : f.WF) (h2x : 2 ≤ f.ax.length) (h2y : 2 ≤ f.ay.length)
    (hc : ∀ i j, i < f.ax.length → j < f.ay.length → f.mask.get i j = true → f.cx.get i j = none ∨ f.cy.get i j = none)
    {rows : List VRow} (hp : rows.Perm (exportVF f)) :
    ∃ g, importVF rows f.ux f.uy f.uv = .ok g ∧ g.WF ∧ (∀ x y r, g.Reads x y r ↔ f.Reads x y r) ∧
      g.ux = f.ux ∧ g.uy = f.uy ∧ g.uv = f.uv := by
  obtain ⟨⟨r1, a1, r2, a2, a3⟩, ⟨r3, b1, r4, b2, b3⟩⟩ := export_two hf h2x h2y
  obtain ⟨g, e, w, hx, hy, hr, -, u⟩ := C65_import_rows (ux := f.ux) (uy := f.uy) (uv := f.uv)
    ((hp.map _).nodup_iff.mpr (export_nodup hf))
    ⟨r1, hp.mem_iff.mpr a1, r2, hp.mem_iff.mpr a2, a3⟩ ⟨r3, hp.mem_iff.mpr b1, r4, hp.mem_iff.mpr b2, b3⟩
  refine ⟨g, e, w, ?_, u⟩
  have key : ∀ i j x y, f.ax[i]? = some x → f.ay[j]? = some y → g.Reads x y (f.cell i j) := by
    intro i j x y hi hj
    have hm : (x, y, f.cx.get i j, f.cy.get i j) ∈ rows :=
      hp.mem_iff.mpr ((mem_exportVF _).mpr ⟨i, j, hi, hj, rfl, rfl⟩)
    have h := hr _ hm
    have hv : vec (x, y, f.cx.get i j, f.cy.get i j) = f.cell i j := by
      unfold vec VF.cell
      by_cases hmk : f.mask.get i j = true
      · rw [if_pos hmk]
        rcases hc i j (getElem?_some_lt hi) (getElem?_some_lt hj) hmk with h | h
        · simp [h]
        · simp [h]
      · rw [if_neg hmk]
        cases f.cx.get i j <;> cases f.cy.get i j <;> rfl
    rw [hv] at h
    exact h
  intro x y r
  constructor
  · intro h
    obtain ⟨r', hr', e1⟩ := (hx x).mp ⟨y, r, h⟩
    obtain ⟨s', hs', e2⟩ := (hy y).mp ⟨x, r, h⟩
    obtain ⟨i, j', hi, hj', -⟩ := (mem_exportVF _).mp (hp.mem_iff.mp hr')
    obtain ⟨i', j, hi', hj, -⟩ := (mem_exportVF _).mp (hp.mem_iff.mp hs')
    rw [e1] at hi
    rw [e2] at hj
    have := key i j x y hi hj
    rw [h.unique w this]
    exact ⟨i, j, hi, hj, rfl⟩
  · rintro ⟨i, j, hi, hj, rfl⟩
    exact key i j x y hi hj

/-- C65 fails for masked points that hold numbers: they come back as valid vectors. -/
theorem C65_masked_violated {f : VF} (hf : f.WF) (h2x : 2 ≤ f.ax.length) (h2y : 2 ≤ f.ay.length) {i j : Nat} {x y u v : Rat}
    (hi : f.ax[i]? = some x) (hj : f.ay[j]? = some y) (hm : f.mask.get i j = true) (hu : f.cx.get i j = some u)
    (hv : f.cy.get i j = some v) :
    ∃ g, importVF (exportVF f) f.ux f.uy f.uv = .ok g ∧ f.Reads x y none ∧ g.Reads x y (some (u, v)) := by
  obtain ⟨hx, hy⟩ := export_two hf h2x h2y
  obtain ⟨g, e, w, -, -, hr, -⟩ := C65_import_rows (ux := f.ux) (uy := f.uy) (uv := f.uv) (export_nodup hf) hx hy
  refine ⟨g, e, ⟨i, j, hi, hj, by simp [VF.cell, hm]⟩, ?_⟩
  have := hr _ ((mem_exportVF (x, y, f.cx.get i j, f.cy.get i j)).mpr ⟨i, j, hi, hj, rfl, rfl⟩)
  simpa [vec, hu, hv] using this

/-- Such points appear with `extend`: the field below, extended by one column, shows a masked point that its text turns into a
null vector. -/
example : (match VF.sample.extend 1 0 0 0 with
    | .ok f => match importVF (exportVF f) f.ux f.uy f.uv with
      | .ok g => (f.cell 0 0, g.cell 0 0)
      | .error _ => (none, none)
    | .error _ => (none, none)) = ((none, some (0, 0)) : Option (Rat × Rat) × Option (Rat × Rat)) := by decide +kernel

end IMT.Ascii
