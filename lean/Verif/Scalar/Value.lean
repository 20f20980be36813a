import Verif.Scalar.ValueModel
import Verif.Scalar.Import
import Verif.Axis.Props

/-!
Property C23: interpolated reading of a field.
-/

namespace IMT.SF

/-! ### helper lemmas -/

theorem head_last_of_mem {l : List Rat} (h : Inc l) {i : Nat} {x : Rat} (hx : l[i]? = some x) :
    ∃ a b, l.head? = some a ∧ l.getLast? = some b ∧ a ≤ x ∧ x ≤ b := by
  have hne : l ≠ [] := by rintro rfl; simp at hx
  refine ⟨l.head hne, l.getLast hne, List.head?_eq_some_head hne, List.getLast?_eq_some_getLast hne, ?_, ?_⟩
  · have h0 : l[0]? = some (l.head hne) := by rw [← head?_eq_get0]; exact List.head?_eq_some_head hne
    exact h.get_le h0 hx (Nat.zero_le _)
  · have h0 : l[l.length - 1]? = some (l.getLast hne) := by
      rw [← getLast?_eq_get]; exact List.getLast?_eq_some_getLast hne
    have := getElem?_some_lt hx
    exact h.get_le hx h0 (by omega)

theorem bounds_node {l : List Rat} (h : Inc l) {i : Nat} {x : Rat} (hx : l[i]? = some x) :
    Axis.bounds l x = .ok (i, i) := by
  obtain ⟨a, b, ha, hb, h1, h2⟩ := head_last_of_mem h hx
  obtain ⟨p, q, e, hc⟩ := Axis.C01_bounds_bracket h ha hb h1 h2
  rcases hc with ⟨rfl, hp⟩ | ⟨hn, _⟩
  · rw [e, h.idx_inj hp hx]
  · exact absurd (List.mem_of_getElem? hx) hn

theorem bounds_between {l : List Rat} (h : Inc l) {i : Nat} {lo hi v : Rat} (hlo : l[i]? = some lo)
    (hhi : l[i + 1]? = some hi) (h1 : lo < v) (h2 : v < hi) : Axis.bounds l v = .ok (i, i + 1) := by
  obtain ⟨a, _, ha, _, ha', _⟩ := head_last_of_mem h hlo
  obtain ⟨_, b, _, hb, _, hb'⟩ := head_last_of_mem h hhi
  obtain ⟨p, q, e, hc⟩ := Axis.C01_bounds_bracket (v := v) h ha hb (by linarith) (by linarith)
  rcases hc with ⟨rfl, hp⟩ | ⟨_, rfl, lo', hi', hp, hq, l1, l2⟩
  · have := h.idx_lt hlo hp h1
    have := h.idx_lt hp hhi h2
    omega
  · have := h.idx_lt hlo hq (by linarith)
    have := h.idx_lt hp hhi (by linarith)
    have : p = i := by omega
    rw [e, this]

theorem getD_of_getElem? {l : List Rat} {i : Nat} {x d : Rat} (h : l[i]? = some x) : l.getD i d = x := by
  rw [List.getD_eq_getElem?_getD, h]; rfl

/-- The weights of `branch` are those of the linear interpolation. -/
theorem branch_eq {p1 p2 y a b : Rat} (h1 : p1 < y) (h2 : y < p2) :
    (b * |p1 - y| + a * |p2 - y|) / |p1 - p2| = a + (y - p1) / (p2 - p1) * (b - a) := by
  rw [abs_of_neg (by linarith), abs_of_pos (by linarith), abs_of_neg (by linarith)]
  have : p2 - p1 ≠ 0 := by linarith
  have : -(p1 - p2) ≠ 0 := by linarith
  rw [show -(p1 - p2) = p2 - p1 by ring]
  field_simp
  ring

theorem frac_mem {p1 p2 y : Rat} (h1 : p1 < y) (h2 : y < p2) :
    0 < (y - p1) / (p2 - p1) ∧ (y - p1) / (p2 - p1) < 1 := by
  constructor
  · exact div_pos (by linarith) (by linarith)
  · rw [div_lt_one (by linarith)]; linarith

/-! ### C23 -/

/-- C23: at a grid point, `get_value` returns what the field shows there (NaN if masked). -/
theorem C23_node (main : Bool) {f : SF} (hf : f.WF) {x y : Rat} {r : Option Rat} (h : f.Reads x y r) :
    f.getValue main x y = .ok r := by
  obtain ⟨i, j, hi, hj, rfl⟩ := h
  unfold getValue
  rw [bounds_node hf.incx hi, bounds_node hf.incy hj]
  simp only [interpAt, Bool.or_self, and_self, if_true]
  by_cases hm : f.mask.get i j = true
  · rw [if_pos hm]; unfold cell; rw [if_pos hm]
  · rw [if_neg hm]

/-- C23: outside of the axes, `get_value` raises ValueError. -/
theorem C23_out_of_range (main : Bool) {f : SF} (hf : f.WF) {x y : Rat}
    (h : (∀ a ∈ f.ax, x < a) ∨ (∀ a ∈ f.ax, a < x) ∨ (∀ b ∈ f.ay, y < b) ∨ (∀ b ∈ f.ay, b < y)) :
    f.getValue main x y = .error .valueError := by
  have out : ∀ (l : List Rat) (v : Rat), Inc l → l ≠ [] → ((∀ a ∈ l, v < a) ∨ (∀ a ∈ l, a < v)) →
      Axis.bounds l v = .error .valueError := by
    intro l v hl hne hv
    rw [Axis.C01_bounds_refused_iff hl (List.head?_eq_some_head hne) (List.getLast?_eq_some_getLast hne)]
    rcases hv with hv | hv
    · exact Or.inl (hv _ (List.head_mem hne))
    · exact Or.inr (hv _ (List.getLast_mem hne))
  have total : ∀ (l : List Rat) (v : Rat), Inc l → l ≠ [] →
      (∃ p, Axis.bounds l v = .ok p) ∨ Axis.bounds l v = .error .valueError := by
    intro l v hl hne
    by_cases hv : v < l.head hne ∨ l.getLast hne < v
    · exact Or.inr ((Axis.C01_bounds_refused_iff hl (List.head?_eq_some_head hne)
        (List.getLast?_eq_some_getLast hne)).mpr hv)
    · rw [not_or, not_lt, not_lt] at hv
      obtain ⟨i, j, e, _⟩ := Axis.C01_bounds_bracket hl (List.head?_eq_some_head hne)
        (List.getLast?_eq_some_getLast hne) hv.1 hv.2
      exact Or.inl ⟨_, e⟩
  unfold getValue
  have hX := total f.ax x hf.incx hf.nex
  rcases hX with ⟨p, hX⟩ | hX
  · have hy : Axis.bounds f.ay y = .error .valueError := by
      rcases h with h | h | h | h
      · rw [out _ _ hf.incx hf.nex (Or.inl h)] at hX; cases hX
      · rw [out _ _ hf.incx hf.nex (Or.inr h)] at hX; cases hX
      · exact out _ _ hf.incy hf.ney (Or.inl h)
      · exact out _ _ hf.incy hf.ney (Or.inr h)
    rw [hX, hy]
  · rw [hX]

/-- C23: between two neighbouring grid points of one column, the linear interpolation of their values, NaN when
one of them is masked. -/
theorem C23_edge_y (main : Bool) {f : SF} (hf : f.WF) {i j : Nat} {x y y1 y2 : Rat} (hx : f.ax[i]? = some x)
    (hy1 : f.ay[j]? = some y1) (hy2 : f.ay[j + 1]? = some y2) (h1 : y1 < y) (h2 : y < y2) :
    f.getValue main x y = .ok (match f.cell i j, f.cell i (j + 1) with
      | some a, some b => some (a + (y - y1) / (y2 - y1) * (b - a))
      | _, _ => none) := by
  have li := getElem?_some_lt hx
  have lj := getElem?_some_lt hy1
  have lj' := getElem?_some_lt hy2
  unfold getValue
  rw [bounds_node hf.incx hx, bounds_between hf.incy hy1 hy2 h1 h2]
  simp only [interpAt]
  rw [Reads.cellMask hf li lj, Reads.cellMask hf li lj', getD_of_getElem? hy1, getD_of_getElem? hy2]
  cases f.cell i j <;> cases f.cell i (j + 1) <;> simp [branch]
  exact branch_eq h1 h2

/-- C23: between two neighbouring grid points of one row, the linear interpolation of their values, NaN when one
of them is masked. -/
theorem C23_edge_x (main : Bool) {f : SF} (hf : f.WF) {i j : Nat} {x y x1 x2 : Rat} (hy : f.ay[j]? = some y)
    (hx1 : f.ax[i]? = some x1) (hx2 : f.ax[i + 1]? = some x2) (h1 : x1 < x) (h2 : x < x2) :
    f.getValue main x y = .ok (match f.cell i j, f.cell (i + 1) j with
      | some a, some b => some (a + (x - x1) / (x2 - x1) * (b - a))
      | _, _ => none) := by
  have lj := getElem?_some_lt hy
  have li := getElem?_some_lt hx1
  have li' := getElem?_some_lt hx2
  unfold getValue
  rw [bounds_between hf.incx hx1 hx2 h1 h2, bounds_node hf.incy hy]
  simp only [interpAt]
  rw [Reads.cellMask hf li lj, Reads.cellMask hf li' lj, getD_of_getElem? hx1, getD_of_getElem? hx2]
  cases f.cell i j <;> cases f.cell (i + 1) j <;> simp [branch]
  exact branch_eq h1 h2

/-- C23: on an edge the result lies between the two values. -/
theorem C23_edge_between (main : Bool) {f : SF} (hf : f.WF) {i j : Nat} {x y y1 y2 a b v : Rat} (hx : f.ax[i]? = some x)
    (hy1 : f.ay[j]? = some y1) (hy2 : f.ay[j + 1]? = some y2) (h1 : y1 < y) (h2 : y < y2)
    (ha : f.cell i j = some a) (hb : f.cell i (j + 1) = some b) (h : f.getValue main x y = .ok (some v)) :
    min a b ≤ v ∧ v ≤ max a b := by
  rw [C23_edge_y main hf hx hy1 hy2 h1 h2, ha, hb] at h
  simp only [Except.ok.injEq, Option.some.injEq] at h
  obtain ⟨t0, t1⟩ := frac_mem h1 h2
  subst h
  rcases le_total a b with hab | hab
  · rw [min_eq_left hab, max_eq_right hab]
    constructor <;> nlinarith
  · rw [min_eq_right hab, max_eq_left hab]
    constructor <;> nlinarith

/-- Common part of the statements about a point strictly inside of a cell. -/
theorem inside_eq (main : Bool) {f : SF} (hf : f.WF) {i j : Nat} {x y x1 x2 y1 y2 : Rat}
    (hx1 : f.ax[i]? = some x1) (hx2 : f.ax[i + 1]? = some x2) (hy1 : f.ay[j]? = some y1)
    (hy2 : f.ay[j + 1]? = some y2) (h1 : x1 < x) (h2 : x < x2) (h3 : y1 < y) (h4 : y < y2) :
    f.getValue main x y = .ok (if f.mask.get i j || f.mask.get (i + 1) (j + 1) then none else
      cellInterp main ((x - x1) / (x2 - x1)) ((y - y1) / (y2 - y1)) (f.cell i j) (f.cell (i + 1) j)
        (f.cell i (j + 1)) (f.cell (i + 1) (j + 1))) := by
  unfold getValue
  rw [bounds_between hf.incx hx1 hx2 h1 h2, bounds_between hf.incy hy1 hy2 h3 h4]
  simp only [interpAt, getD_of_getElem? hx1, getD_of_getElem? hx2, getD_of_getElem? hy1, getD_of_getElem? hy2]
  simp

/-- C23: inside a cell without masked corner, whatever the triangulation, a value is returned and it lies
between any bounds of the four corner values. -/
theorem C23_inside_between (main : Bool) {f : SF} (hf : f.WF) {i j : Nat} {x y x1 x2 y1 y2 a b c d lo hi : Rat}
    (hx1 : f.ax[i]? = some x1) (hx2 : f.ax[i + 1]? = some x2) (hy1 : f.ay[j]? = some y1)
    (hy2 : f.ay[j + 1]? = some y2) (h1 : x1 < x) (h2 : x < x2) (h3 : y1 < y) (h4 : y < y2)
    (ha : f.cell i j = some a) (hb : f.cell (i + 1) j = some b) (hc : f.cell i (j + 1) = some c)
    (hd : f.cell (i + 1) (j + 1) = some d)
    (hlo : lo ≤ a ∧ lo ≤ b ∧ lo ≤ c ∧ lo ≤ d) (hhi : a ≤ hi ∧ b ≤ hi ∧ c ≤ hi ∧ d ≤ hi) :
    ∃ v, f.getValue main x y = .ok (some v) ∧ lo ≤ v ∧ v ≤ hi := by
  rw [inside_eq main hf hx1 hx2 hy1 hy2 h1 h2 h3 h4,
    Reads.cellMask hf (getElem?_some_lt hx1) (getElem?_some_lt hy1),
    Reads.cellMask hf (getElem?_some_lt hx2) (getElem?_some_lt hy2), ha, hb, hc, hd]
  obtain ⟨u0, u1⟩ := frac_mem h1 h2
  obtain ⟨w0, w1⟩ := frac_mem h3 h4
  generalize (x - x1) / (x2 - x1) = u at *
  generalize (y - y1) / (y2 - y1) = w at *
  obtain ⟨l1, l2, l3, l4⟩ := hlo
  obtain ⟨g1, g2, g3, g4⟩ := hhi
  simp only [Option.isNone_some, Bool.or_self, Bool.false_eq_true, if_false]
  have conv : ∀ p q r s t z : Rat, 0 ≤ s → 0 ≤ t → 0 ≤ z → s + t + z = 1 → lo ≤ p → lo ≤ q → lo ≤ r → p ≤ hi → q ≤ hi →
      r ≤ hi → lo ≤ s * p + t * q + z * r ∧ s * p + t * q + z * r ≤ hi := by
    intro p q r s t z hs ht hz hsum a1 a2 a3 a4 a5 a6
    have e1 := mul_le_mul_of_nonneg_left a1 hs
    have e2 := mul_le_mul_of_nonneg_left a2 ht
    have e3 := mul_le_mul_of_nonneg_left a3 hz
    have e4 := mul_le_mul_of_nonneg_left a4 hs
    have e5 := mul_le_mul_of_nonneg_left a5 ht
    have e6 := mul_le_mul_of_nonneg_left a6 hz
    have f1 : s * lo + t * lo + z * lo = lo := by rw [← add_mul, ← add_mul, hsum, one_mul]
    have f2 : s * hi + t * hi + z * hi = hi := by rw [← add_mul, ← add_mul, hsum, one_mul]
    constructor <;> linarith
  unfold cellInterp
  cases main
  · simp only [Bool.false_eq_true, if_false]
    by_cases hw : u + w ≤ 1
    · rw [if_pos hw]
      refine ⟨_, rfl, ?_⟩
      have := conv a b c (1 - u - w) u w (by linarith) (by linarith) (by linarith) (by ring) l1 l2 l3 g1 g2 g3
      have e : a + u * (b - a) + w * (c - a) = (1 - u - w) * a + u * b + w * c := by ring
      rw [← e] at this
      exact this
    · rw [if_neg hw]
      refine ⟨_, rfl, ?_⟩
      have := conv d c b (u + w - 1) (1 - u) (1 - w) (by linarith) (by linarith) (by linarith) (by ring) l4 l3 l2 g4 g3 g2
      have e : d + (1 - u) * (c - d) + (1 - w) * (b - d) = (u + w - 1) * d + (1 - u) * c + (1 - w) * b := by ring
      rw [← e] at this
      exact this
  · simp only [if_true]
    by_cases hw : w ≤ u
    · rw [if_pos hw]
      refine ⟨_, rfl, ?_⟩
      have := conv a b d (1 - u) (u - w) w (by linarith) (by linarith) (by linarith) (by ring) l1 l2 l4 g1 g2 g4
      have e : a + u * (b - a) + w * (d - b) = (1 - u) * a + (u - w) * b + w * d := by ring
      rw [← e] at this
      exact this
    · rw [if_neg hw]
      refine ⟨_, rfl, ?_⟩
      have := conv a c d (1 - w) (w - u) u (by linarith) (by linarith) (by linarith) (by ring) l1 l3 l4 g1 g3 g4
      have e : a + w * (c - a) + u * (d - c) = (1 - w) * a + (w - u) * c + u * d := by ring
      rw [← e] at this
      exact this

/-- C23: a field that is affine on a cell is interpolated exactly there, whatever the triangulation. -/
theorem C23_inside_affine (main : Bool) {f : SF} (hf : f.WF) {i j : Nat} {x y x1 x2 y1 y2 p q r : Rat}
    (hx1 : f.ax[i]? = some x1) (hx2 : f.ax[i + 1]? = some x2) (hy1 : f.ay[j]? = some y1)
    (hy2 : f.ay[j + 1]? = some y2) (h1 : x1 < x) (h2 : x < x2) (h3 : y1 < y) (h4 : y < y2)
    (ha : f.cell i j = some (p + q * x1 + r * y1)) (hb : f.cell (i + 1) j = some (p + q * x2 + r * y1))
    (hc : f.cell i (j + 1) = some (p + q * x1 + r * y2)) (hd : f.cell (i + 1) (j + 1) = some (p + q * x2 + r * y2)) :
    f.getValue main x y = .ok (some (p + q * x + r * y)) := by
  rw [inside_eq main hf hx1 hx2 hy1 hy2 h1 h2 h3 h4,
    Reads.cellMask hf (getElem?_some_lt hx1) (getElem?_some_lt hy1),
    Reads.cellMask hf (getElem?_some_lt hx2) (getElem?_some_lt hy2), ha, hb, hc, hd]
  have ex : (x - x1) / (x2 - x1) * (x2 - x1) = x - x1 := div_mul_cancel₀ _ (by linarith)
  have ey : (y - y1) / (y2 - y1) * (y2 - y1) = y - y1 := div_mul_cancel₀ _ (by linarith)
  generalize (x - x1) / (x2 - x1) = u at *
  generalize (y - y1) / (y2 - y1) = w at *
  have hx : x = x1 + u * (x2 - x1) := by linarith
  have hy : y = y1 + w * (y2 - y1) := by linarith
  simp only [Option.isNone_some, Bool.or_self, Bool.false_eq_true, if_false, Except.ok.injEq]
  unfold cellInterp
  cases main
  · simp only [Bool.false_eq_true, if_false]
    by_cases hw : u + w ≤ 1
    · rw [if_pos hw]; simp only [plane, Option.some.injEq]; rw [hx, hy]; ring
    · rw [if_neg hw]; simp only [plane, Option.some.injEq]; rw [hx, hy]; ring
  · simp only [if_true]
    by_cases hw : w ≤ u
    · rw [if_pos hw]; simp only [plane, Option.some.injEq]; rw [hx, hy]; ring
    · rw [if_neg hw]; simp only [plane, Option.some.injEq]; rw [hx, hy]; ring

/-- C23: inside a cell with a masked corner the result is NaN — proved for the two corners of the diagonal
(lower left, upper right), and for all four corners when the interpolator splits the cell along the other
diagonal.  Partial: see `C23_masked_corner_violated`. -/
theorem C23_masked_corner_partial (main : Bool) {f : SF} (hf : f.WF) {i j : Nat} {x y x1 x2 y1 y2 : Rat}
    (hx1 : f.ax[i]? = some x1) (hx2 : f.ax[i + 1]? = some x2) (hy1 : f.ay[j]? = some y1)
    (hy2 : f.ay[j + 1]? = some y2) (h1 : x1 < x) (h2 : x < x2) (h3 : y1 < y) (h4 : y < y2)
    (hm : f.cell i j = none ∨ f.cell (i + 1) (j + 1) = none ∨
      (main = false ∧ (f.cell (i + 1) j = none ∨ f.cell i (j + 1) = none))) :
    f.getValue main x y = .ok none := by
  rw [inside_eq main hf hx1 hx2 hy1 hy2 h1 h2 h3 h4,
    Reads.cellMask hf (getElem?_some_lt hx1) (getElem?_some_lt hy1),
    Reads.cellMask hf (getElem?_some_lt hx2) (getElem?_some_lt hy2)]
  rcases hm with hm | hm | ⟨rfl, hm⟩
  · rw [hm]; simp
  · rw [hm]; simp
  · congr 1
    by_cases hc : ((f.cell i j).isNone || (f.cell (i + 1) (j + 1)).isNone) = true
    · rw [if_pos hc]
    · rw [if_neg hc]
      unfold cellInterp
      simp only [Bool.false_eq_true, if_false]
      split
      · rcases hm with hm | hm
        · rw [hm]; cases f.cell i j <;> rfl
        · rw [hm]; cases f.cell i j <;> cases f.cell (i + 1) j <;> rfl
      · rcases hm with hm | hm
        · rw [hm]; cases f.cell (i + 1) (j + 1) <;> cases f.cell i (j + 1) <;> rfl
        · rw [hm]; cases f.cell (i + 1) (j + 1) <;> rfl

/-- C23 fails for a masked upper left corner when the interpolator splits the cell along the main diagonal:
the mask is tested at two corners only (core/scalarfield.py:572). -/
theorem C23_masked_corner_violated :
    ∃ f : SF, f.WF ∧ f.Reads 0 1 none ∧ f.getValue true (3/4) (1/4) = .ok (some 2) := by
  refine ⟨{ sample with ax := [0, 1], ay := [0, 1], val := ⟨2, 2, fun i j => if i = 0 ∧ j = 1 then none else some 2⟩,
                        mask := ⟨2, 2, fun i j => i == 0 && j == 1⟩ }, ?_, ⟨0, 1, rfl, rfl, rfl⟩, by decide +kernel⟩
  refine ⟨show Inc [0, 1] by decide +kernel, show Inc [0, 1] by decide +kernel, show ([0, 1] : List Rat) ≠ [] by simp,
    show ([0, 1] : List Rat) ≠ [] by simp, rfl, rfl, rfl, rfl, ?_⟩
  intro i j _ _ h
  simp only at h ⊢
  by_cases hc : i = 0 ∧ j = 1
  · simp [hc]
  · rw [if_neg hc] at h; cases h

example : [sample.getValue true 1 (-1), sample.getValue true 2 (-1), sample.getValue true 0 (-1/4),
      sample.getValue false (1/2) 0, sample.getValue true 2 1]
    = [.ok (some 10), .ok (some 15), .ok (some (1/2)), .ok none, .error .valueError] := by decide +kernel

end IMT.SF
