import Verif.Scalar.Lemmas

/-! Helper lemmas for cropping, extending and importing scalar fields. -/

namespace IMT

namespace Axis

/-- The index window of a value crop selects exactly the coordinates in the window. -/
theorem cropInds_window {l : List Rat} {a b : Rat} {lo hi : Nat} (h : Inc l) (hc : cropInds l a b = .ok (lo, hi))
    {i : Nat} {x : Rat} (hx : l[i]? = some x) : (lo ≤ i ∧ i < hi + 1) ↔ (a ≤ x ∧ x ≤ b) := by
  have hne : l ≠ [] := by rintro rfl; simp at hx
  obtain ⟨first, hf⟩ : ∃ c, l.head? = some c := by
    cases l with
    | nil => exact absurd rfl hne
    | cons c _ => exact ⟨c, rfl⟩
  obtain ⟨last, hl⟩ : ∃ c, l.getLast? = some c := ⟨_, List.getLast?_eq_some_getLast hne⟩
  have hab : a ≤ b := by
    by_contra hn
    unfold cropInds at hc
    rw [if_pos (not_le.mp hn)] at hc
    cases hc
  have hw : ¬ ((a < first ∧ b < first) ∨ (a > last ∧ b > last)) := by
    intro hn
    unfold cropInds at hc
    rw [if_neg (not_lt.mpr hab)] at hc
    simp only [hf, hl] at hc
    rw [if_pos hn] at hc
    cases hc
  have h1 : first ≤ b := by
    by_contra hn
    exact hw (Or.inl ⟨lt_of_le_of_lt hab (not_le.mp hn), not_le.mp hn⟩)
  have h2 : a ≤ last := by
    by_contra hn
    exact hw (Or.inr ⟨not_le.mp hn, lt_of_lt_of_le (not_le.mp hn) hab⟩)
  obtain ⟨lo', hi', e, e1, e2⟩ := cropInds_ok h hf hl hab h1 h2
  rw [e] at hc
  cases hc
  obtain ⟨hi', rfl⟩ := List.getElem?_eq_some_iff.mp hx
  rw [e2, e1]
  constructor
  · rintro ⟨p, q⟩
    constructor
    · have hlen : l.findIdx (fun c => decide (a ≤ c)) < l.length := by omega
      have := @List.findIdx_getElem _ (fun c => decide (a ≤ c)) l hlen
      have := of_decide_eq_true this
      exact le_trans this (h.get_le (List.getElem?_eq_getElem hlen) (List.getElem?_eq_getElem hi') p)
    · have := List.not_of_lt_findIdx q
      simpa using this
  · rintro ⟨p, q⟩
    constructor
    · by_contra hn
      have := List.not_of_lt_findIdx (not_le.mp hn)
      simp only [decide_eq_false_iff_not] at this
      exact this p
    · by_contra hn
      have hle := not_lt.mp hn
      have hlen : l.findIdx (fun c => decide (b < c)) < l.length := by omega
      have := @List.findIdx_getElem _ (fun c => decide (b < c)) l hlen
      have := of_decide_eq_true this
      have := h.get_le (List.getElem?_eq_getElem hlen) (List.getElem?_eq_getElem hi') hle
      linarith

end Axis

namespace SF
variable {f g : SF}

theorem cut_cell (f : SF) (x0 x1 y0 y1 i j : Nat) :
    (f.cut x0 x1 y0 y1).cell i j = f.cell (x0 + i) (y0 + j) := by
  unfold cell cut Grid.sub values
  simp only
  unfold cell
  by_cases h : f.mask.get (x0 + i) (y0 + j) = true <;> simp [h]

/-- What a cut field shows. -/
theorem cut_reads (f : SF) (x0 x1 y0 y1 : Nat) (x y : Rat) (r : Option Rat) :
    (f.cut x0 x1 y0 y1).Reads x y r ↔ ∃ i j, f.ax[i]? = some x ∧ f.ay[j]? = some y ∧ f.cell i j = r ∧
      (x0 ≤ i ∧ i < x1 + 1) ∧ (y0 ≤ j ∧ j < y1 + 1) := by
  constructor
  · rintro ⟨i, j, hi, hj, hr⟩
    rw [cut_cell] at hr
    simp only [cut] at hi hj
    rw [slice_getElem?] at hi hj
    split at hi
    · split at hj
      · rename_i h1 h2
        exact ⟨x0 + i, y0 + j, hi, hj, hr, ⟨by omega, h1⟩, ⟨by omega, h2⟩⟩
      · cases hj
    · cases hi
  · rintro ⟨i, j, hi, hj, hr, ⟨h1, h2⟩, ⟨h3, h4⟩⟩
    refine ⟨i - x0, j - y0, ?_, ?_, ?_⟩
    · simp only [cut]; rw [slice_getElem?, show x0 + (i - x0) = i by omega, if_pos h2, hi]
    · simp only [cut]; rw [slice_getElem?, show y0 + (j - y0) = j by omega, if_pos h4, hj]
    · rw [cut_cell, show x0 + (i - x0) = i by omega, show y0 + (j - y0) = j by omega, hr]

theorem cut_WF (hf : f.WF) {x0 x1 y0 y1 : Nat} (hx : slice f.ax x0 (x1 + 1) ≠ [])
    (hy : slice f.ay y0 (y1 + 1) ≠ []) : (f.cut x0 x1 y0 y1).WF := by
  refine ⟨slice_inc hf.incx _ _, slice_inc hf.incy _ _, hx, hy, ?_, ?_, ?_, ?_, ?_⟩
  · simp [cut, Grid.sub, values, slice_length, hf.vx]
  · simp [cut, Grid.sub, values, slice_length, hf.vy]
  · simp [cut, Grid.sub, slice_length, hf.mx]
  · simp [cut, Grid.sub, slice_length, hf.my]
  · intro i j hi hj h
    simp only [cut, slice_length] at hi hj
    simp only [cut, Grid.sub, values] at *
    rw [Reads.cellMask hf (by omega) (by omega), h]; rfl

/-! ### Scaling -/

/-- The index permutation of a possibly reversed axis. -/
def flipIdx (rev : Bool) (n i : Nat) : Nat := if rev then n - 1 - i else i

theorem scaleAxis_spec {l : List Rat} (h : Inc l) (u : Sym) (s : Option Unum) (hs : factor s ≠ 0) :
    Inc (scaleAxis l u s).1 ∧ AxMap l (scaleAxis l u s).1 (· * factor s) (flipIdx (scaleAxis l u s).2.2 l.length) ∧
    True := by
  cases s with
  | none =>
    refine ⟨h, ⟨rfl, fun _ h => h, fun _ _ => rfl, fun i _ => ?_⟩, trivial⟩
    simp [scaleAxis, factor, flipIdx]
  | some s =>
    simp only [factor] at hs
    by_cases hneg : s.num < 0
    · simp only [scaleAxis, hneg, if_true, factor]
      exact ⟨h.map_mul_neg hneg, AxMap.revMap _ _, trivial⟩
    · simp only [scaleAxis, hneg, if_false, factor]
      exact ⟨h.map_mul_pos (lt_of_le_of_ne (not_lt.mp hneg) (Ne.symm hs)), AxMap.map _ _, trivial⟩

theorem map_map_cell (r : Option Rat) (c : Rat) : r.map (· * c) = Option.map (· * c) r := rfl

theorem scale_core (hf : f.WF) {sx sy : Option Unum} (sv : Option Unum)
    (mx : AxMap f.ax (scaleAxis f.ax f.ux sx).1 (· * factor sx) (flipIdx (scaleAxis f.ax f.ux sx).2.2 f.ax.length))
    (my : AxMap f.ay (scaleAxis f.ay f.uy sy).1 (· * factor sy) (flipIdx (scaleAxis f.ay f.uy sy).2.2 f.ay.length))
    (wx : Inc (scaleAxis f.ax f.ux sx).1) (wy : Inc (scaleAxis f.ay f.uy sy).1) :
    (f.scale sx sy sv).WF ∧
    (∀ x' y' r', (f.scale sx sy sv).Reads x' y' r' ↔
      ∃ x y r, f.Reads x y r ∧ x' = x * factor sx ∧ y' = y * factor sy ∧ r' = r.map (· * factor sv)) := by
  rcases hX : scaleAxis f.ax f.ux sx with ⟨ax, ux, rx⟩
  rcases hY : scaleAxis f.ay f.uy sy with ⟨ay, uy, ry⟩
  simp only [hX, hY] at mx my wx wy
  unfold scale
  simp only [hX, hY]
  -- the field after the treatment of the values
  set f1 : SF := { f with ax := ax, ay := ay, ux := ux, uy := uy } with hf1
  have w1 : f1.WF := by
    refine ⟨wx, wy, ?_, ?_, ?_, ?_, ?_, ?_, ?_⟩
    · intro e; have := mx.len; simp only [hf1] at e; rw [e] at this
      exact hf.nex (List.length_eq_zero_iff.mp this.symm)
    · intro e; have := my.len; simp only [hf1] at e; rw [e] at this
      exact hf.ney (List.length_eq_zero_iff.mp this.symm)
    · rw [hf.vx]; exact mx.len.symm
    · rw [hf.vy]; exact my.len.symm
    · rw [hf.mx]; exact mx.len.symm
    · rw [hf.my]; exact my.len.symm
    · intro i j hi hj; exact hf.nan i j (mx.len ▸ hi) (my.len ▸ hj)
  set f2 : SF := scaleVals f1 sv with hf2
  have w2 : f2.WF ∧ f2.ax = ax ∧ f2.ay = ay ∧ ∀ i j, f2.cell i j = (f.cell i j).map (· * factor sv) := by
    cases sv with
    | none =>
      refine ⟨w1, rfl, rfl, fun i j => ?_⟩
      simp only [factor, mul_one]
      show f1.cell i j = _
      simp [f1, cell]
    | some s =>
      have := setValues_WF (v := f1.values.map (Option.map (· * s.num))) w1 (by
        simp [Grid.map, values, w1.vx]) (by simp [Grid.map, values, w1.vy])
      refine ⟨⟨this.incx, this.incy, this.nex, this.ney, this.vx, this.vy, this.mx, this.my, this.nan⟩,
        rfl, rfl, fun i j => ?_⟩
      have := setValues_cell f1 (f1.values.map (Option.map (· * s.num))) i j
      exact this
  obtain ⟨w2, ax2, ay2, c2⟩ := w2
  have main : ∀ g : SF, g.ax = ax → g.ay = ay →
      (∀ i j, i < f.ax.length → j < f.ay.length →
        g.cell i j = f2.cell (flipIdx rx f.ax.length i) (flipIdx ry f.ay.length j)) →
      ∀ x' y' r', g.Reads x' y' r' ↔
        ∃ x y r, f.Reads x y r ∧ x' = x * factor sx ∧ y' = y * factor sy ∧ r' = r.map (· * factor sv) := by
    intro g hgx hgy hgc x' y' r'
    refine reads_axmap (f := f) (ψ := fun r => r.map (· * factor sv)) (σx := flipIdx rx f.ax.length)
      (σy := flipIdx ry f.ay.length) (φx := (· * factor sx)) (φy := (· * factor sy)) ?_ ?_ ?_ x' y' r'
    · rw [hgx]; exact mx
    · rw [hgy]; exact my
    · intro i j hi hj; rw [hgc i j hi hj, c2]
  have lx : f2.values.nx = f.ax.length := by simp only [values]; rw [w2.vx, ax2, mx.len]
  have ly : f2.values.ny = f.ay.length := by simp only [values]; rw [w2.vy, ay2, my.len]
  have lx' : f2.ax.length = f.ax.length := by rw [ax2, mx.len]
  have ly' : f2.ay.length = f.ay.length := by rw [ay2, my.len]
  cases rx <;> cases ry <;> simp only [Bool.and_true, Bool.and_false, if_true, if_false, Bool.false_eq_true]
  · exact ⟨w2, main f2 ax2 ay2 (fun i j _ _ => rfl)⟩
  · refine ⟨setValues_WF w2 (lx.trans lx'.symm) (ly.trans ly'.symm), main _ ax2 ay2 (fun i j hi hj => ?_)⟩
    rw [setValues_cell]; simp only [Grid.flipY, ly, flipIdx]; rfl
  · refine ⟨setValues_WF w2 (lx.trans lx'.symm) (ly.trans ly'.symm), main _ ax2 ay2 (fun i j hi hj => ?_)⟩
    rw [setValues_cell]; simp only [Grid.flipX, lx, flipIdx]; rfl
  · refine ⟨setValues_WF w2 (lx.trans lx'.symm) (ly.trans ly'.symm), main _ ax2 ay2 (fun i j hi hj => ?_)⟩
    rw [setValues_cell]; simp only [Grid.flipX, Grid.flipY, lx, ly, flipIdx]; rfl

theorem mul_size_iff {a b u n : Rat} (hn : 0 < n) : a * n = b * u ↔ a = b * (u / n) := by
  constructor
  · intro h; rw [← mul_div_assoc, ← h]; field_simp
  · intro h; rw [h]; field_simp

theorem map_size_iff {r s : Option Rat} {u n : Rat} (hn : 0 < n) :
    r.map (· * n) = s.map (· * u) ↔ r = s.map (· * (u / n)) := by
  cases r <;> cases s <;> simp [mul_size_iff hn]

theorem map_same_iff {r s : Option Rat} {n : Rat} (hn : 0 < n) :
    r.map (· * n) = s.map (· * n) ↔ r = s := by
  rw [map_size_iff hn]; cases s <;> simp [div_self (ne_of_gt hn)]

end SF
end IMT
