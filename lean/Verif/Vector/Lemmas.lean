import Verif.Vector.Model
import Verif.Scalar.Import
import Verif.Scalar.Border

/-! What a vector field shows, and helper lemmas. -/

namespace IMT.VF
open SF (AxMap)

/-- At the grid point `(x, y)` the field shows `r`: `some (u, v)` is the vector of components `u` and `v`, `none` is a
masked point. -/
def Reads (f : VF) (x y : Rat) (r : Option (Rat × Rat)) : Prop :=
  ∃ i j : Nat, f.ax[i]? = some x ∧ f.ay[j]? = some y ∧ f.cell i j = r

variable {f g : VF}

theorem Reads.unique (hf : f.WF) {x y : Rat} {r s : Option (Rat × Rat)} (h1 : f.Reads x y r) (h2 : f.Reads x y s) : r = s := by
  obtain ⟨i, j, hi, hj, hr⟩ := h1
  obtain ⟨i', j', hi', hj', hs⟩ := h2
  obtain rfl := hf.incx.idx_inj' hi hi'
  obtain rfl := hf.incy.idx_inj' hj hj'
  rw [← hr, ← hs]

theorem WF.cellMask (hf : f.WF) {i j : Nat} (hi : i < f.ax.length) (hj : j < f.ay.length) :
    f.mask.get i j = (f.cell i j).isNone := by
  unfold cell
  by_cases h : f.mask.get i j = true
  · simp [h]
  · simp only [h, Bool.false_eq_true, if_false]
    cases hu : f.cx.get i j with
    | none => exact absurd (hf.nanx i j hi hj hu) h
    | some u => cases hv : f.cy.get i j with
      | none => exact absurd (hf.nany i j hi hj hv) h
      | some v => simp

/-- A field on the axes of another one, each point moved. -/
theorem reads_axmap {φx φy : Rat → Rat} {σx σy : Nat → Nat} {ψ : Option (Rat × Rat) → Option (Rat × Rat)}
    (hx : AxMap f.ax g.ax φx σx) (hy : AxMap f.ay g.ay φy σy)
    (hc : ∀ i j, i < f.ax.length → j < f.ay.length → g.cell i j = ψ (f.cell (σx i) (σy j)))
    (x' y' : Rat) (r' : Option (Rat × Rat)) :
    g.Reads x' y' r' ↔ ∃ x y r, f.Reads x y r ∧ x' = φx x ∧ y' = φy y ∧ r' = ψ r := by
  constructor
  · rintro ⟨i, j, hi, hj, hr⟩
    obtain ⟨x, h1, rfl⟩ := hx.to hi
    obtain ⟨y, h2, rfl⟩ := hy.to hj
    refine ⟨x, y, _, ⟨σx i, σy j, h1, h2, rfl⟩, rfl, rfl, ?_⟩
    rw [← hr, hc i j (hx.len ▸ getElem?_some_lt hi) (hy.len ▸ getElem?_some_lt hj)]
  · rintro ⟨x, y, r, ⟨i, j, hi, hj, hr⟩, rfl, rfl, rfl⟩
    have li := getElem?_some_lt hi
    have lj := getElem?_some_lt hj
    refine ⟨σx i, σy j, hx.from hi, hy.from hj, ?_⟩
    rw [hc _ _ (hx.lt i li) (hy.lt j lj), hx.inv i li, hy.inv j lj, hr]

/-- Same, with exchanged axes. -/
theorem reads_axswap {φx φy : Rat → Rat} {σx σy : Nat → Nat} {ψ : Option (Rat × Rat) → Option (Rat × Rat)}
    (hx : AxMap f.ax g.ay φx σx) (hy : AxMap f.ay g.ax φy σy)
    (hc : ∀ i j, i < f.ax.length → j < f.ay.length → g.cell j i = ψ (f.cell (σx i) (σy j)))
    (x' y' : Rat) (r' : Option (Rat × Rat)) :
    g.Reads x' y' r' ↔ ∃ x y r, f.Reads x y r ∧ x' = φy y ∧ y' = φx x ∧ r' = ψ r := by
  constructor
  · rintro ⟨j, i, hj, hi, hr⟩
    obtain ⟨x, h1, rfl⟩ := hx.to hi
    obtain ⟨y, h2, rfl⟩ := hy.to hj
    refine ⟨x, y, _, ⟨σx i, σy j, h1, h2, rfl⟩, rfl, rfl, ?_⟩
    rw [← hr, hc i j (hx.len ▸ getElem?_some_lt hi) (hy.len ▸ getElem?_some_lt hj)]
  · rintro ⟨x, y, r, ⟨i, j, hi, hj, hr⟩, rfl, rfl, rfl⟩
    have li := getElem?_some_lt hi
    have lj := getElem?_some_lt hj
    refine ⟨σy j, σx i, hy.from hj, hx.from hi, ?_⟩
    rw [hc _ _ (hx.lt i li) (hy.lt j lj), hx.inv i li, hy.inv j lj, hr]

theorem reads_map (hax : g.ax = f.ax) (hay : g.ay = f.ay) (φ : Option (Rat × Rat) → Option (Rat × Rat))
    (h : ∀ i j, i < f.ax.length → j < f.ay.length → g.cell i j = φ (f.cell i j)) (x y : Rat) (r : Option (Rat × Rat)) :
    g.Reads x y r ↔ ∃ s, f.Reads x y s ∧ r = φ s := by
  constructor
  · rintro ⟨i, j, hi, hj, hr⟩
    rw [hax] at hi; rw [hay] at hj
    exact ⟨f.cell i j, ⟨i, j, hi, hj, rfl⟩, by rw [← hr, h i j (getElem?_some_lt hi) (getElem?_some_lt hj)]⟩
  · rintro ⟨s, ⟨i, j, hi, hj, hs⟩, rfl⟩
    exact ⟨i, j, by rw [hax]; exact hi, by rw [hay]; exact hj, by rw [h i j (getElem?_some_lt hi) (getElem?_some_lt hj), hs]⟩

theorem reads_pointwise {h : VF} (hf : f.WF) (hx : f.ax = g.ax) (hy : f.ay = g.ay)
    (hhx : h.ax = f.ax) (hhy : h.ay = f.ay) (op : Option (Rat × Rat) → Option (Rat × Rat) → Option (Rat × Rat))
    (hc : ∀ i j, i < f.ax.length → j < f.ay.length → h.cell i j = op (f.cell i j) (g.cell i j))
    (x y : Rat) (r : Option (Rat × Rat)) :
    h.Reads x y r ↔ ∃ a b, f.Reads x y a ∧ g.Reads x y b ∧ r = op a b := by
  constructor
  · rintro ⟨i, j, hi, hj, rfl⟩
    rw [hhx] at hi
    rw [hhy] at hj
    exact ⟨_, _, ⟨i, j, hi, hj, rfl⟩, ⟨i, j, hx ▸ hi, hy ▸ hj, rfl⟩,
      hc i j (getElem?_some_lt hi) (getElem?_some_lt hj)⟩
  · rintro ⟨a, b, ⟨i, j, hi, hj, rfl⟩, ⟨i', j', hi', hj', rfl⟩, rfl⟩
    rw [← hx] at hi'
    rw [← hy] at hj'
    obtain rfl := hf.incx.idx_inj' hi hi'
    obtain rfl := hf.incy.idx_inj' hj hj'
    exact ⟨i, j, hhx ▸ hi, hhy ▸ hj, hc i j (getElem?_some_lt hi) (getElem?_some_lt hj)⟩

/-- The three cases of a cell of a consistent field. -/
theorem WF.cell_cases (hf : f.WF) {i j : Nat} (hi : i < f.ax.length) (hj : j < f.ay.length) :
    (f.mask.get i j = true ∧ f.cell i j = none) ∨
    (f.mask.get i j = false ∧ ∃ u v, f.cx.get i j = some u ∧ f.cy.get i j = some v ∧ f.cell i j = some (u, v)) := by
  unfold cell
  by_cases h : f.mask.get i j = true
  · left; exact ⟨h, by rw [if_pos h]⟩
  · right
    refine ⟨by simpa using h, ?_⟩
    rw [if_neg h]
    cases hu : f.cx.get i j with
    | none => exact absurd (hf.nanx i j hi hj hu) h
    | some u => cases hv : f.cy.get i j with
      | none => exact absurd (hf.nany i j hi hj hv) h
      | some v => exact ⟨u, v, rfl, rfl, rfl⟩

theorem cell_some {i j : Nat} {u v : Rat} (hm : f.mask.get i j = false) (hx : f.cx.get i j = some u)
    (hy : f.cy.get i j = some v) : f.cell i j = some (u, v) := by
  unfold cell; rw [hm, hx, hy]; rfl

theorem cell_masked {i j : Nat} (hm : f.mask.get i j = true) : f.cell i j = none := by
  unfold cell; rw [if_pos hm]

/-! ### sub-rectangles -/

theorem cut_cell (f : VF) (x0 x1 y0 y1 i j : Nat) : (f.cut x0 x1 y0 y1).cell i j = f.cell (x0 + i) (y0 + j) := rfl

theorem cut_reads (f : VF) (x0 x1 y0 y1 : Nat) (x y : Rat) (r : Option (Rat × Rat)) :
    (f.cut x0 x1 y0 y1).Reads x y r ↔ ∃ i j, f.ax[i]? = some x ∧ f.ay[j]? = some y ∧ f.cell i j = r ∧
      (x0 ≤ i ∧ i < x1 + 1) ∧ (y0 ≤ j ∧ j < y1 + 1) := by
  constructor
  · rintro ⟨i, j, hi, hj, hr⟩
    rw [cut_cell] at hr
    simp only [cut] at hi hj
    rw [slice_getElem?] at hi hj
    split at hi
    · split at hj
      · rename_i h1 h2
        exact ⟨x0 + i, y0 + j, hi, hj, hr, ⟨by omega, h1⟩, ⟨by omega, h2⟩⟩
      · cases hj
    · cases hi
  · rintro ⟨i, j, hi, hj, hr, ⟨h1, h2⟩, ⟨h3, h4⟩⟩
    refine ⟨i - x0, j - y0, ?_, ?_, ?_⟩
    · simp only [cut]; rw [slice_getElem?, show x0 + (i - x0) = i by omega, if_pos h2, hi]
    · simp only [cut]; rw [slice_getElem?, show y0 + (j - y0) = j by omega, if_pos h4, hj]
    · rw [cut_cell, show x0 + (i - x0) = i by omega, show y0 + (j - y0) = j by omega, hr]

/-- Consistency without the non-emptiness of the axes. -/
structure Loose (f : VF) : Prop where
  incx : Inc f.ax
  incy : Inc f.ay
  xx : f.cx.nx = f.ax.length
  xy : f.cx.ny = f.ay.length
  yx : f.cy.nx = f.ax.length
  yy : f.cy.ny = f.ay.length
  mx : f.mask.nx = f.ax.length
  my : f.mask.ny = f.ay.length
  nanx : ∀ i j, i < f.ax.length → j < f.ay.length → f.cx.get i j = none → f.mask.get i j = true
  nany : ∀ i j, i < f.ax.length → j < f.ay.length → f.cy.get i j = none → f.mask.get i j = true

theorem WF.loose (h : f.WF) : f.Loose := ⟨h.incx, h.incy, h.xx, h.xy, h.yx, h.yy, h.mx, h.my, h.nanx, h.nany⟩

theorem cut_loose (hf : f.Loose) (x0 x1 y0 y1 : Nat) : (f.cut x0 x1 y0 y1).Loose := by
  refine ⟨slice_inc hf.incx _ _, slice_inc hf.incy _ _, ?_, ?_, ?_, ?_, ?_, ?_, ?_, ?_⟩
  · simp [cut, Grid.sub, slice_length, hf.xx]
  · simp [cut, Grid.sub, slice_length, hf.xy]
  · simp [cut, Grid.sub, slice_length, hf.yx]
  · simp [cut, Grid.sub, slice_length, hf.yy]
  · simp [cut, Grid.sub, slice_length, hf.mx]
  · simp [cut, Grid.sub, slice_length, hf.my]
  · intro i j hi hj h
    simp only [cut, slice_length] at hi hj
    exact hf.nanx (x0 + i) (y0 + j) (by omega) (by omega) h
  · intro i j hi hj h
    simp only [cut, slice_length] at hi hj
    exact hf.nany (x0 + i) (y0 + j) (by omega) (by omega) h

theorem Loose.wf (h : f.Loose) (hx : f.ax ≠ []) (hy : f.ay ≠ []) : f.WF :=
  ⟨h.incx, h.incy, hx, hy, h.xx, h.xy, h.yx, h.yy, h.mx, h.my, h.nanx, h.nany⟩

/-- `g` is a sub-rectangle of `f`: consecutive rows and columns, with the same readings and units. -/
def SubRect (g f : VF) : Prop :=
  g.ax <:+: f.ax ∧ g.ay <:+: f.ay ∧
  (∀ x y r, g.Reads x y r ↔ f.Reads x y r ∧ x ∈ g.ax ∧ y ∈ g.ay) ∧ g.ux = f.ux ∧ g.uy = f.uy ∧ g.uv = f.uv

theorem cut_subRect (hf : f.Loose) (x0 x1 y0 y1 : Nat) : SubRect (f.cut x0 x1 y0 y1) f := by
  refine ⟨SF.slice_infix _ _ _, SF.slice_infix _ _ _, ?_, rfl, rfl, rfl⟩
  intro x y r
  rw [cut_reads]
  constructor
  · rintro ⟨i, j, hi, hj, hr, h1, h2⟩
    exact ⟨⟨i, j, hi, hj, hr⟩, (SF.mem_slice hf.incx hi).mpr h1, (SF.mem_slice hf.incy hj).mpr h2⟩
  · rintro ⟨⟨i, j, hi, hj, hr⟩, h1, h2⟩
    exact ⟨i, j, hi, hj, hr, (SF.mem_slice hf.incx hi).mp h1, (SF.mem_slice hf.incy hj).mp h2⟩

theorem SubRect.trans {a b c : VF} (h1 : SubRect a b) (h2 : SubRect b c) : SubRect a c := by
  obtain ⟨a1, a2, a3, a4, a5, a6⟩ := h1
  obtain ⟨b1, b2, b3, b4, b5, b6⟩ := h2
  refine ⟨a1.trans b1, a2.trans b2, ?_, a4.trans b4, a5.trans b5, a6.trans b6⟩
  intro x y r
  rw [a3, b3]
  constructor
  · rintro ⟨⟨h, _, _⟩, h1, h2⟩; exact ⟨h, h1, h2⟩
  · rintro ⟨h, h1, h2⟩; exact ⟨⟨h, a1.subset h1, a2.subset h2⟩, h1, h2⟩

/-! ### the mask as a scalar field -/

theorem maskF_cut (f : VF) (x0 x1 y0 y1 : Nat) : (f.cut x0 x1 y0 y1).maskF = f.maskF.cut x0 x1 y0 y1 := by
  unfold maskF cut SF.cut SF.values SF.cell Grid.sub
  simp only [SF.mk.injEq, Grid.mk.injEq, true_and, and_true]
  funext i j
  by_cases h : f.mask.get (x0 + i) (y0 + j) = true <;> simp [h]

theorem maskF_loose (hf : f.Loose) : f.maskF.Loose := by
  refine ⟨hf.incx, hf.incy, hf.mx, hf.my, hf.mx, hf.my, ?_⟩
  intro i j _ _ h
  simp only [maskF] at h ⊢
  by_contra hc
  rw [if_neg hc] at h
  cases h

theorem maskF_WF (hf : f.WF) : f.maskF.WF := by
  have := maskF_loose hf.loose
  exact ⟨this.incx, this.incy, hf.nex, hf.ney, this.vx, this.vy, this.mx, this.my, this.nan⟩

/-- Masked points are the same. -/
theorem maskF_reads (hf : f.Loose) (x y : Rat) : f.maskF.Reads x y none ↔ f.Reads x y none := by
  have key : ∀ i j, i < f.ax.length → j < f.ay.length → (f.maskF.cell i j = none ↔ f.cell i j = none) := by
    intro i j hi hj
    by_cases h : f.mask.get i j = true
    · simp [SF.cell, cell, maskF, h]
    · have h : f.mask.get i j = false := by simpa using h
      cases hu : f.cx.get i j with
      | none => rw [hf.nanx i j hi hj hu] at h; cases h
      | some u => cases hv : f.cy.get i j with
        | none => rw [hf.nany i j hi hj hv] at h; cases h
        | some v => simp [SF.cell, cell, maskF, h, hu, hv]
  constructor
  · rintro ⟨i, j, hi, hj, hr⟩
    exact ⟨i, j, hi, hj, (key i j (getElem?_some_lt hi) (getElem?_some_lt hj)).mp hr⟩
  · rintro ⟨i, j, hi, hj, hr⟩
    exact ⟨i, j, hi, hj, (key i j (getElem?_some_lt hi) (getElem?_some_lt hj)).mpr hr⟩

/-- Valid points are the same. -/
theorem maskF_valid (hf : f.WF) (x y : Rat) : (∃ v, f.maskF.Reads x y (some v)) ↔ ∃ v, f.Reads x y (some v) := by
  constructor
  · rintro ⟨v, i, j, hi, hj, hr⟩
    rcases hf.cell_cases (getElem?_some_lt hi) (getElem?_some_lt hj) with ⟨h1, -⟩ | ⟨-, u, w, -, -, h⟩
    · simp [SF.cell, maskF, h1] at hr
    · exact ⟨_, i, j, hi, hj, h⟩
  · rintro ⟨v, i, j, hi, hj, hr⟩
    rcases hf.cell_cases (getElem?_some_lt hi) (getElem?_some_lt hj) with ⟨-, h1⟩ | ⟨h1, -⟩
    · rw [h1] at hr; cases hr
    · exact ⟨0, i, j, hi, hj, by simp [SF.cell, maskF, h1]⟩

theorem cropInd_maskF (f : VF) (ix iy : Option (Int × Int)) :
    (f.cropInd ix iy).map maskF = f.maskF.cropInd ix iy := by
  unfold cropInd SF.cropInd
  simp only [show f.maskF.ax = f.ax from rfl, show f.maskF.ay = f.ay from rfl]
  cases h1 : Axis.cropIndsInd (ix.getD (0, f.ax.length)).1 (ix.getD (0, f.ax.length)).2 with
  | error e => simp [Except.map]
  | ok p => cases h2 : Axis.cropIndsInd (iy.getD (0, f.ay.length)).1 (iy.getD (0, f.ay.length)).2 with
    | error e => simp [Except.map]
    | ok q => simp [Except.map, maskF_cut]

theorem cropInd_ok {ix iy : Option (Int × Int)} (h : f.cropInd ix iy = .ok g) :
    ∃ x0 x1 y0 y1, g = f.cut x0 x1 y0 y1 := by
  unfold cropInd at h
  cases h1 : Axis.cropIndsInd (ix.getD (0, f.ax.length)).1 (ix.getD (0, f.ax.length)).2 with
  | error e => rw [h1] at h; cases h
  | ok p => cases h2 : Axis.cropIndsInd (iy.getD (0, f.ay.length)).1 (iy.getD (0, f.ay.length)).2 with
    | error e => rw [h1, h2] at h; cases h
    | ok q => rw [h1, h2] at h; cases h; exact ⟨_, _, _, _, rfl⟩

theorem softCrop_maskF (f : VF) : f.softCrop.map maskF = f.maskF.softCrop := by
  unfold softCrop SF.softCrop
  simp only [show f.maskF.mask = f.mask from rfl]
  cases h1 : SF.firstLast ((List.range f.mask.nx).filter f.maskF.rowValid) with
  | error e => simp [Except.map]
  | ok p => cases h2 : SF.firstLast ((List.range f.mask.ny).filter f.maskF.colValid) with
    | error e => simp [Except.map]
    | ok q => exact cropInd_maskF f _ _

theorem softCrop_ok (h : f.softCrop = .ok g) : ∃ x0 x1 y0 y1, g = f.cut x0 x1 y0 y1 := by
  unfold softCrop at h
  cases h1 : SF.firstLast ((List.range f.mask.nx).filter f.maskF.rowValid) with
  | error e => rw [h1] at h; cases h
  | ok p => cases h2 : SF.firstLast ((List.range f.mask.ny).filter f.maskF.colValid) with
    | error e => rw [h1, h2] at h; cases h
    | ok q => rw [h1, h2] at h; exact cropInd_ok h

end IMT.VF
