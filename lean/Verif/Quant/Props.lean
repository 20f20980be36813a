import Verif.Quant.Model
import Verif.Vector.Arith
import Verif.Scalar.Arith
import Verif.Temporal.Interp

/-! C264 to C266: arithmetic of fields with numbers, quantities and arrays. -/

namespace IMT.Quant

/-! ### specification -/

/-- `h` is on the grid of `f`, in the same units of length, masked at the same points, and shows `φ` of what `f` shows. -/
def MapsS (f h : SF) (φ : Rat → Rat) : Prop :=
  h.WF ∧ (∀ x y r, h.Reads x y r ↔ ∃ s, f.Reads x y s ∧ r = s.map φ) ∧ h.ux = f.ux ∧ h.uy = f.uy

/-- The same for vector fields. -/
def MapsV (f h : VF) (φ : Rat × Rat → Rat × Rat) : Prop :=
  h.WF ∧ (∀ x y r, h.Reads x y r ↔ ∃ s, f.Reads x y s ∧ r = s.map φ) ∧ h.ux = f.ux ∧ h.uy = f.uy

/-- The dimension of `w` is the product of those of `u` and `v`. -/
def DimMul (w u v : Sym) : Prop := w.len = u.len + v.len ∧ w.time = u.time + v.time ∧ w.mass = u.mass + v.mass
/-- The dimension of `w` is the quotient of those of `u` and `v`. -/
def DimDiv (w u v : Sym) : Prop := w.len = u.len - v.len ∧ w.time = u.time - v.time ∧ w.mass = u.mass - v.mass

/-! ### lemmas -/

theorem mapV_spec {f : SF} (hf : f.WF) (φ : Rat → Rat) : MapsS f (f.mapV φ) φ :=
  ⟨SF.setValues_WF hf (by simp [Grid.map, SF.values, hf.vx]) (by simp [Grid.map, SF.values, hf.vy]),
    SF.reads_map (f := f) (g := f.mapV φ) rfl rfl (fun s => s.map φ) (fun _ _ _ _ => SF.setValues_cell _ _ _ _), rfl, rfl⟩

theorem MapsS.unit {f h : SF} {φ : Rat → Rat} (m : MapsS f h φ) (w : Sym) : MapsS f { h with uv := w } φ :=
  ⟨⟨m.1.incx, m.1.incy, m.1.nex, m.1.ney, m.1.vx, m.1.vy, m.1.mx, m.1.my, m.1.nan⟩, m.2.1, m.2.2.1, m.2.2.2⟩

theorem mulNum_spec {f : SF} (hf : f.WF) (q : Rat) : MapsS f (f.mulNum q) (· * q) :=
  ⟨Temporal.mulNum_WF hf q, SF.reads_map (f := f) (g := f.mulNum q) rfl rfl (fun s => s.map (· * q)) (fun _ _ _ _ => Temporal.mulNum_cell q _ _), rfl, rfl⟩

theorem MapsV.unit {f h : VF} {φ : Rat × Rat → Rat × Rat} (m : MapsV f h φ) (w : Sym) : MapsV f { h with uv := w } φ :=
  ⟨⟨m.1.incx, m.1.incy, m.1.nex, m.1.ney, m.1.xx, m.1.xy, m.1.yx, m.1.yy, m.1.mx, m.1.my, m.1.nanx, m.1.nany⟩, m.2.1, m.2.2.1, m.2.2.2⟩

theorem mapC_spec {f : VF} (hf : f.WF) (φ ψ : Rat → Rat) : MapsV f (f.mapC φ ψ) fun w => (φ w.1, ψ w.2) := by
  refine ⟨⟨hf.incx, hf.incy, hf.nex, hf.ney, hf.xx, hf.xy, hf.yx, hf.yy, hf.mx, hf.my, ?_, ?_⟩, ?_, rfl, rfl⟩
  · intro i j hi hj h
    by_contra hc
    simp only [VF.mapC, VF.setMask, VF.nanify, Grid.map] at h hc
    rw [if_neg hc] at h
    exact hc (hf.nanx i j hi hj (by simpa using h))
  · intro i j hi hj h
    by_contra hc
    simp only [VF.mapC, VF.setMask, VF.nanify, Grid.map] at h hc
    rw [if_neg hc] at h
    exact hc (hf.nany i j hi hj (by simpa using h))
  · refine VF.reads_map (f := f) (g := f.mapC φ ψ) rfl rfl _ ?_
    intro i j hi hj
    rcases hf.cell_cases hi hj with ⟨h1, h2⟩ | ⟨h1, u, v, h3, h4, h5⟩
    · rw [h2]; exact VF.cell_masked h1
    · rw [h5]
      refine VF.cell_some (u := φ u) (v := ψ v) h1 ?_ ?_
      · simp [VF.mapC, VF.setMask, VF.nanify, Grid.map, h1, h3]
      · simp [VF.mapC, VF.setMask, VF.nanify, Grid.map, h1, h4]

theorem ratio_size {u : Unum} {w : Sym} (hw : w.size ≠ 0) : Unum.ratio u ⟨1, w⟩ * w.size = u.phys := by
  unfold Unum.ratio Unum.phys
  field_simp

theorem unit_split {w : Sym} : SF.unitNum w * (SF.unitSym w).size = w.size ∧ (SF.unitSym w).len = w.len ∧ (SF.unitSym w).time = w.time ∧
    (SF.unitSym w).mass = w.mass := by
  unfold SF.unitNum SF.unitSym
  split
  · rename_i h
    obtain ⟨a, b, c⟩ := h
    exact ⟨by simp [Sym.one], a.symm, b.symm, c.symm⟩
  · simp

/-! ### C264: sums -/

/-- **C264** A scalar field plus or minus a number, and a number minus a field. -/
theorem C264_scalar_number {f : SF} (hf : f.WF) (q : Rat) :
    MapsS f (f.addNum q) (· + q) ∧ MapsS f (f.subNum q) (· - q) ∧ MapsS f (SF.rsubNum q f) (q - ·) ∧ (f.addNum q).uv = f.uv ∧ (f.subNum q).uv = f.uv ∧
      (SF.rsubNum q f).uv = f.uv := by
  refine ⟨mapV_spec hf _, ?_, ?_, rfl, rfl, rfl⟩
  · have e : (fun v : Rat => v - q) = (· + -q) := by funext v; ring
    rw [e]
    exact mapV_spec hf _
  · have h1 : MapsS f f.neg fun v => -v := mapV_spec hf _
    have h2 : MapsS f.neg (SF.rsubNum q f) (· + q) := mapV_spec h1.1 _
    refine ⟨h2.1, fun x y r => ?_, rfl, rfl⟩
    rw [h2.2.1]
    constructor
    · rintro ⟨s, hs, rfl⟩
      obtain ⟨t, ht, rfl⟩ := (h1.2.1 x y s).1 hs
      refine ⟨t, ht, ?_⟩
      rw [Option.map_map]
      congr 1
      funext v
      simp only [Function.comp_apply]
      ring
    · rintro ⟨t, ht, rfl⟩
      refine ⟨_, (h1.2.1 x y _).2 ⟨t, ht, rfl⟩, ?_⟩
      rw [Option.map_map]
      congr 1
      funext v
      simp only [Function.comp_apply]
      ring

/-- **C264** A scalar field plus a quantity of the same dimension: the quantity is written in the unit of the field, which is kept; other quantities are
refused. -/
theorem C264_scalar_quantity {f : SF} (hf : f.WF) (hu : f.uv.size ≠ 0) (u : Unum) :
    (f.uv.Compat u.sym → ∃ h c, f.addQty u = .ok h ∧ MapsS f h (· + c) ∧ h.uv = f.uv ∧ c * f.uv.size = u.phys) ∧
    (¬ f.uv.Compat u.sym → f.addQty u = .error .valueError) :=
  ⟨fun hc => ⟨_, _, if_pos hc, mapV_spec hf _, rfl, ratio_size hu⟩, fun hc => if_neg hc⟩

/-- **C264** A vector field plus a number, a vector, or an array of its shape. -/
theorem C264_vector {f : VF} (hf : f.WF) (q a b : Rat) :
    MapsV f (f.addNum q) (fun w => (w.1 + q, w.2 + q)) ∧ (f.addNum q).uv = f.uv ∧
    MapsV f (f.addPair a b) (fun w => (w.1 + a, w.2 + b)) ∧ (f.addPair a b).uv = f.uv ∧
    ∃ h, f.subPair true a b = .ok h ∧ MapsV f h (fun w => (w.1 - a, w.2 - b)) ∧ h.uv = f.uv := by
  refine ⟨mapC_spec hf _ _, rfl, mapC_spec hf _ _, rfl, _, if_pos rfl, ?_, rfl⟩
  have e : (fun w : Rat × Rat => (w.1 - a, w.2 - b)) = fun w => (w.1 + -a, w.2 + -b) := by funext w; rw [sub_eq_add_neg, sub_eq_add_neg]
  rw [e]
  exact mapC_spec hf _ _

/-- **C264** A vector field plus a quantity of the same dimension.  Missing: other quantities should be refused. -/
theorem C264_vector_quantity_partial {f : VF} (hf : f.WF) (hu : f.uv.size ≠ 0) {u : Unum} (hc : f.uv.Compat u.sym) :
    ∃ c, MapsV f (f.addQty u) (fun w => (w.1 + c, w.2 + c)) ∧ (f.addQty u).uv = f.uv ∧ c * f.uv.size = u.phys := by
  refine ⟨f.factOf u, mapC_spec hf _ _, rfl, ?_⟩
  unfold VF.factOf
  rw [if_pos hc]
  exact ratio_size hu

/-- **C264** Any quantity can be added to a vector field, seconds to metres as well: the sum has the unit of the field. -/
theorem C264_dimension_violated {f : VF} (hf : f.WF) (u : Unum) (_ : ¬ f.uv.Compat u.sym) :
    ∃ c, MapsV f (f.addQty u) (fun w => (w.1 + c, w.2 + c)) ∧ (f.addQty u).uv = f.uv :=
  ⟨f.factOf u, mapC_spec hf _ _, rfl⟩

/-- **C264** A vector given as a list can be added, but not subtracted. -/
theorem C264_list_violated (f : VF) (a b : Rat) : f.subPair false a b = .error .attributeError := rfl

/-! ### C265: products and quotients -/

/-- **C265** A field divided by a number other than 0. -/
theorem C265_number {f : SF} {g : VF} (hf : f.WF) (hg : g.WF) {q : Rat} (_ : q ≠ 0) :
    MapsS f (f.divNum q) (· / q) ∧ (f.divNum q).uv = f.uv ∧ MapsV g (g.divNum q) (fun w => (w.1 / q, w.2 / q)) ∧ (g.divNum q).uv = g.uv :=
  ⟨mapV_spec hf _, rfl, mapC_spec hg _ _, rfl⟩

/-- **C265** A scalar field divided by a quantity that is not null: every value designates the quotient, in a unit of the right dimension. -/
theorem C265_scalar_div {f : SF} (hf : f.WF) {u : Unum} (h0 : u.num ≠ 0) (hs : u.sym.size ≠ 0) :
    ∃ h k, f.divQty u = .ok h ∧ MapsS f h (· * k) ∧ k * h.uv.size = f.uv.size / u.phys ∧ DimDiv h.uv f.uv u.sym := by
  obtain ⟨e1, e2, e3, e4⟩ := unit_split (w := f.uv.div u.sym)
  refine ⟨_, _, if_neg h0, (mapV_spec hf _).unit _, ?_, e2, e3, e4⟩
  show SF.unitNum (f.uv.div u.sym) / u.num * (SF.unitSym (f.uv.div u.sym)).size = _
  rw [div_mul_eq_mul_div, e1]
  unfold Sym.div Unum.phys
  field_simp

/-- **C265** A scalar field times a quantity that is not null.  Missing: products without dimension whose unit is greater than 1. -/
theorem C265_scalar_mul_partial {f : SF} (hf : f.WF) {u : Unum} (h0 : u.num ≠ 0)
    (hd : ¬ (f.uv.mul u.sym).Compat Sym.one ∨ (f.uv.mul u.sym).size ≤ 1) :
    ∃ h k, f.mulQty u = .ok h ∧ MapsS f h (· * k) ∧ k * h.uv.size = f.uv.size * u.phys ∧ DimMul h.uv f.uv u.sym := by
  have ha : SF.unitAllowed (f.uv.mul u.sym) = true := by
    unfold SF.unitAllowed SF.unitNum
    rw [decide_eq_true_eq]
    split
    · rcases hd with hd | hd
      · contradiction
      · linarith
    · norm_num
  refine ⟨{ f.mulNum u.num with uv := f.uv.mul u.sym }, u.num, ?_, (mulNum_spec hf _).unit _, ?_, rfl, rfl, rfl⟩
  · unfold SF.mulQty
    rw [if_neg h0, if_pos ha]
  · simp only [Sym.mul, Unum.phys]
    ring

/-- **C265** A product whose unit has no dimension and is greater than 1 is refused: a field in 1/mm cannot be multiplied by a length in m. -/
theorem C265_unit_violated {f : SF} {u : Unum} (h0 : u.num ≠ 0) (hd : (f.uv.mul u.sym).Compat Sym.one) (hs : 1 + 1 / 10000000000 ≤ (f.uv.mul u.sym).size) :
    f.mulQty u = .error .valueError := by
  unfold SF.mulQty
  rw [if_neg h0, if_neg]
  unfold SF.unitAllowed SF.unitNum
  rw [if_pos hd, decide_eq_true_eq]
  linarith

/-- **C265** Multiplying a field, scalar or vector, by a null quantity raises ZeroDivisionError. -/
theorem C265_zero_violated (f : SF) (g : VF) {u : Unum} (h0 : u.num = 0) : f.mulQty u = .error .zeroDivision ∧ g.mulQty u = .error .zeroDivision :=
  ⟨if_pos h0, if_pos h0⟩

/-- **C265** A quantity that is not null divided by a scalar field that shows no 0.  Missing: quotients without dimension whose unit is greater than 1. -/
theorem C265_scalar_rdiv_partial {f : SF} (hf : f.WF) (hn : ∀ x y, ¬ f.Reads x y (some 0)) {u : Unum} (h0 : u.num ≠ 0) (hs : f.uv.size ≠ 0)
    (hd : ¬ (u.sym.div f.uv).Compat Sym.one ∨ (u.sym.div f.uv).size ≤ 1) :
    ∃ h, SF.rdivQty u f = .ok h ∧ h.WF ∧ DimDiv h.uv u.sym f.uv ∧ h.ux = f.ux ∧ h.uy = f.uy ∧ (∀ x y, h.Reads x y none ↔ f.Reads x y none) ∧
      ∀ x y v, f.Reads x y (some v) → ∃ w, h.Reads x y (some w) ∧ (w * h.uv.size) * (v * f.uv.size) = u.phys := by
  have ha : SF.unitAllowed (u.sym.div f.uv) = true := by
    unfold SF.unitAllowed SF.unitNum
    rw [decide_eq_true_eq]
    split
    · rcases hd with hd | hd
      · contradiction
      · linarith
    · norm_num
  obtain ⟨w1, w2, w3, w4⟩ := (mapV_spec hf (u.num / ·)).unit (u.sym.div f.uv)
  refine ⟨{ f.mapV (u.num / ·) with uv := u.sym.div f.uv }, ?_, w1, ⟨rfl, rfl, rfl⟩, w3, w4, ?_, ?_⟩
  · unfold SF.rdivQty
    rw [if_neg h0, if_pos ha]
  · intro x y
    rw [w2]
    constructor
    · rintro ⟨s, hs, e⟩
      cases s with
      | none => exact hs
      | some v => cases e
    · exact fun h => ⟨none, h, rfl⟩
  · intro x y v hv
    refine ⟨u.num / v, (w2 x y _).2 ⟨some v, hv, rfl⟩, ?_⟩
    have hv0 : v ≠ 0 := by
      rintro rfl
      exact hn x y hv
    simp only [Sym.div, Unum.phys]
    field_simp

/-- **C265** A vector field times a quantity that is not null.  Missing: null quantities. -/
theorem C265_vector_mul_partial {f : VF} (hf : f.WF) {u : Unum} (h0 : u.num ≠ 0) :
    ∃ h k, f.mulQty u = .ok h ∧ MapsV f h (fun w => (w.1 * k, w.2 * k)) ∧ k * h.uv.size = f.uv.size * u.phys ∧ DimMul h.uv f.uv u.sym := by
  obtain ⟨e1, e2, e3, e4⟩ := unit_split (w := f.uv.mul u.sym)
  refine ⟨_, _, if_neg h0, (mapC_spec hf _ _).unit _, ?_, e2, e3, e4⟩
  show SF.unitNum (f.uv.mul u.sym) * u.num * (SF.unitSym (f.uv.mul u.sym)).size = _
  rw [mul_right_comm, e1]
  simp only [Sym.mul, Unum.phys]
  ring

/-- **C265** A vector field divided by a quantity that is not null; a null one is refused, for scalar fields too. -/
theorem C265_vector_div {f : VF} (hf : f.WF) {u : Unum} (hs : u.sym.size ≠ 0) :
    (u.num ≠ 0 → ∃ h k, f.divQty u = .ok h ∧ MapsV f h (fun w => (w.1 * k, w.2 * k)) ∧ k * h.uv.size = f.uv.size / u.phys ∧ DimDiv h.uv f.uv u.sym) ∧
    (u.num = 0 → f.divQty u = .error .zeroDivision ∧ ∀ g : SF, g.divQty u = .error .zeroDivision) := by
  refine ⟨fun h0 => ?_, fun h0 => ⟨if_pos h0, fun g => if_pos h0⟩⟩
  obtain ⟨e1, e2, e3, e4⟩ := unit_split (w := f.uv.div u.sym)
  have hd : f.divQty u = .ok { f.mapC (· * (SF.unitNum (f.uv.div u.sym) * (1 / u.num))) (· * (SF.unitNum (f.uv.div u.sym) * (1 / u.num))) with
      uv := SF.unitSym (f.uv.div u.sym) } := by
    unfold VF.divQty VF.scaleTo
    rw [if_neg h0, if_neg (by simpa using h0)]
  refine ⟨_, _, hd, (mapC_spec hf _ _).unit _, ?_, e2, e3, e4⟩
  show SF.unitNum (f.uv.div u.sym) * (1 / u.num) * (SF.unitSym (f.uv.div u.sym)).size = _
  rw [mul_right_comm, e1]
  simp only [Sym.div, Unum.phys]
  field_simp

/-! ### C266: arrays, absolute values and powers -/

/-- What a field and an array of its shape show at the same place of the grid. -/
def AtS (f : SF) (a : Grid Rat) (x y : Rat) (s : Option Rat) (q : Rat) : Prop :=
  ∃ i j, f.ax[i]? = some x ∧ f.ay[j]? = some y ∧ f.cell i j = s ∧ a.get i j = q
def AtV (f : VF) (a : Grid Rat) (x y : Rat) (s : Option (Rat × Rat)) (q : Rat) : Prop :=
  ∃ i j, f.ax[i]? = some x ∧ f.ay[j]? = some y ∧ f.cell i j = s ∧ a.get i j = q

/-- **C266** A scalar field times an array of its shape; arrays of other shapes are refused. -/
theorem C266_scalar_array {f : SF} (hf : f.WF) (a : Grid Rat) :
    (a.nx = f.ax.length ∧ a.ny = f.ay.length → ∃ h, f.mulArr a = .ok h ∧ h.WF ∧ h.ux = f.ux ∧ h.uy = f.uy ∧ h.uv = f.uv ∧
      ∀ x y r, h.Reads x y r ↔ ∃ s q, AtS f a x y s q ∧ r = s.map (· * q)) ∧
    (¬ (a.nx = f.ax.length ∧ a.ny = f.ay.length) → f.mulArr a = .error .valueError) := by
  refine ⟨fun ha => ?_, fun ha => ?_⟩
  · refine ⟨_, if_pos ⟨ha.1.trans hf.vx.symm, ha.2.trans hf.vy.symm⟩, ⟨hf.incx, hf.incy, hf.nex, hf.ney, hf.vx, hf.vy, hf.mx, hf.my, ?_⟩, rfl, rfl, rfl, ?_⟩
    · intro i j hi hj h
      have hm := SF.Reads.cellMask hf hi hj
      show f.mask.get i j = true
      rw [hm]
      simp only [SF.setMask] at h
      cases hc : f.cell i j with
      | none => rfl
      | some v =>
        rw [hc] at hm
        simp [hm, hc] at h
    · have hcell : ∀ i j, (({ f with val := ⟨f.val.nx, f.val.ny, fun i j => if f.mask.get i j then f.cell i j else (f.cell i j).map (· * a.get i j)⟩ } :
          SF).setMask f.mask).cell i j = (f.cell i j).map (· * a.get i j) := by
        intro i j
        unfold SF.setMask SF.cell
        simp only
        split <;> rfl
      intro x y r
      constructor
      · rintro ⟨i, j, hi, hj, rfl⟩
        exact ⟨_, _, ⟨i, j, hi, hj, rfl, rfl⟩, hcell i j⟩
      · rintro ⟨s, q, ⟨i, j, hi, hj, rfl, rfl⟩, rfl⟩
        exact ⟨i, j, hi, hj, hcell i j⟩
  · unfold SF.mulArr
    rw [hf.vx, hf.vy, if_neg ha]

/-- The three operations with arrays have one form. -/
theorem arr_spec {f : VF} (hf : f.WF) (a : Grid Rat) (op : Rat → Rat → Rat) (z : Rat → Bool) :
    let h := (({ f with cx := ⟨f.cx.nx, f.cx.ny, fun i j => (f.cx.get i j).map (op · (a.get i j))⟩,
                        cy := ⟨f.cy.nx, f.cy.ny, fun i j => (f.cy.get i j).map (op · (a.get i j))⟩ } : VF).setMask
      ⟨f.mask.nx, f.mask.ny, fun i j => f.mask.get i j || z (a.get i j)⟩)
    h.WF ∧ ∀ x y r, h.Reads x y r ↔ ∃ s q, AtV f a x y s q ∧ r = if z q then none else s.map fun w => (op w.1 q, op w.2 q) := by
  intro h
  refine ⟨⟨hf.incx, hf.incy, hf.nex, hf.ney, hf.xx, hf.xy, hf.yx, hf.yy, hf.mx, hf.my, ?_, ?_⟩, ?_⟩
  · intro i j hi hj e
    by_contra hc
    simp only [h, VF.setMask, VF.nanify] at e hc
    rw [if_neg hc] at e
    rw [Bool.or_eq_true, not_or] at hc
    exact hc.1 (hf.nanx i j hi hj (by simpa using e))
  · intro i j hi hj e
    by_contra hc
    simp only [h, VF.setMask, VF.nanify] at e hc
    rw [if_neg hc] at e
    rw [Bool.or_eq_true, not_or] at hc
    exact hc.1 (hf.nany i j hi hj (by simpa using e))
  · have hcell : ∀ i j, i < f.ax.length → j < f.ay.length →
        h.cell i j = if z (a.get i j) then none else (f.cell i j).map fun w => (op w.1 (a.get i j), op w.2 (a.get i j)) := by
      intro i j hi hj
      by_cases hz : z (a.get i j) = true
      · rw [if_pos hz]
        exact VF.cell_masked (by simp [h, VF.setMask, hz])
      · rw [if_neg hz]
        rw [Bool.not_eq_true] at hz
        rcases hf.cell_cases hi hj with ⟨h1, h2⟩ | ⟨h1, u, v, h3, h4, h5⟩
        · rw [h2]; exact VF.cell_masked (by simp [h, VF.setMask, h1])
        · rw [h5]
          refine VF.cell_some (by simp [h, VF.setMask, h1, hz]) ?_ ?_
          · simp [h, VF.setMask, VF.nanify, h1, h3, hz]
          · simp [h, VF.setMask, VF.nanify, h1, h4, hz]
    intro x y r
    constructor
    · rintro ⟨i, j, hi, hj, rfl⟩
      exact ⟨_, _, ⟨i, j, hi, hj, rfl, rfl⟩, hcell i j (getElem?_some_lt hi) (getElem?_some_lt hj)⟩
    · rintro ⟨s, q, ⟨i, j, hi, hj, rfl, rfl⟩, rfl⟩
      exact ⟨i, j, hi, hj, hcell i j (getElem?_some_lt hi) (getElem?_some_lt hj)⟩

/-- **C266** A vector field plus, times or over an array of its shape: every vector is combined with the number of the array at its place; a null divisor
masks the point; arrays of other shapes are refused. -/
theorem C266_vector_array {f : VF} (hf : f.WF) (a : Grid Rat) :
    (a.nx = f.ax.length ∧ a.ny = f.ay.length →
      (∃ h, f.addArr a = .ok h ∧ h.WF ∧ h.ux = f.ux ∧ h.uy = f.uy ∧ h.uv = f.uv ∧
        ∀ x y r, h.Reads x y r ↔ ∃ s q, AtV f a x y s q ∧ r = s.map fun w => (w.1 + q, w.2 + q)) ∧
      (∃ h, f.mulArr a = .ok h ∧ h.WF ∧ h.ux = f.ux ∧ h.uy = f.uy ∧ h.uv = f.uv ∧
        ∀ x y r, h.Reads x y r ↔ ∃ s q, AtV f a x y s q ∧ r = s.map fun w => (w.1 * q, w.2 * q)) ∧
      (∃ h, f.divArr a = .ok h ∧ h.WF ∧ h.ux = f.ux ∧ h.uy = f.uy ∧ h.uv = f.uv ∧
        ∀ x y r, h.Reads x y r ↔ ∃ s q, AtV f a x y s q ∧ r = if q = 0 then none else s.map fun w => (w.1 / q, w.2 / q))) ∧
    (¬ (a.nx = f.ax.length ∧ a.ny = f.ay.length) →
      f.addArr a = .error .valueError ∧ f.mulArr a = .error .valueError ∧ f.divArr a = .error .valueError) := by
  have keep : (⟨f.mask.nx, f.mask.ny, fun i j => f.mask.get i j || false⟩ : Grid Bool) = f.mask := by
    simp only [Bool.or_false]
  refine ⟨fun ha => ⟨?_, ?_, ?_⟩, fun ha => ⟨if_neg ha, if_neg ha, if_neg ha⟩⟩
  · obtain ⟨w, hr⟩ := arr_spec hf a (· + ·) fun _ => false
    rw [keep] at w hr
    simp only [Bool.false_eq_true, if_false] at hr
    exact ⟨_, if_pos ha, w, rfl, rfl, rfl, hr⟩
  · obtain ⟨w, hr⟩ := arr_spec hf a (· * ·) fun _ => false
    rw [keep] at w hr
    simp only [Bool.false_eq_true, if_false] at hr
    exact ⟨_, if_pos ha, w, rfl, rfl, rfl, hr⟩
  · obtain ⟨w, hr⟩ := arr_spec hf a (· / ·) fun q => decide (q = 0)
    simp only [decide_eq_true_eq] at hr
    exact ⟨_, if_pos ha, w, rfl, rfl, rfl, hr⟩

/-- **C266** Absolute values, of a scalar field and of both components of a vector field. -/
theorem C266_abs {f : SF} {g : VF} (hf : f.WF) (hg : g.WF) :
    MapsS f f.absF (fun v => |v|) ∧ f.absF.uv = f.uv ∧ MapsV g g.abs (fun w => (|w.1|, |w.2|)) ∧ g.abs.uv = g.uv := by
  refine ⟨mapV_spec hf _, rfl, ⟨⟨hg.incx, hg.incy, hg.nex, hg.ney, hg.xx, hg.xy, hg.yx, hg.yy, hg.mx, hg.my, ?_, ?_⟩, ?_, rfl, rfl⟩, rfl⟩
  · intro i j hi hj h
    exact hg.nanx i j hi hj (by simpa [VF.abs, Grid.map] using h)
  · intro i j hi hj h
    exact hg.nany i j hi hj (by simpa [VF.abs, Grid.map] using h)
  · refine VF.reads_map (f := g) (g := g.abs) rfl rfl _ ?_
    intro i j hi hj
    rcases hg.cell_cases hi hj with ⟨h1, h2⟩ | ⟨h1, u, v, h3, h4, h5⟩
    · rw [h2]; exact VF.cell_masked h1
    · rw [h5]
      exact VF.cell_some h1 (by simp [VF.abs, Grid.map, h3]) (by simp [VF.abs, Grid.map, h4])

/-- **C266** Powers with a natural exponent: every value, or component, is raised and so is the unit. -/
theorem C266_power {f : SF} {g : VF} (hf : f.WF) (hg : g.WF) (n : Nat) :
    MapsS f (f.pow n) (· ^ n) ∧ (f.pow n).uv.size = f.uv.size ^ n ∧ (f.pow n).uv.len = n * f.uv.len ∧ (f.pow n).uv.time = n * f.uv.time ∧
      (f.pow n).uv.mass = n * f.uv.mass ∧
    MapsV g (g.pow n) (fun w => (w.1 ^ n, w.2 ^ n)) ∧ (g.pow n).uv.size = g.uv.size ^ n ∧ (g.pow n).uv.len = n * g.uv.len ∧
      (g.pow n).uv.time = n * g.uv.time ∧ (g.pow n).uv.mass = n * g.uv.mass := by
  refine ⟨⟨⟨hf.incx, hf.incy, hf.nex, hf.ney, hf.vx, hf.vy, hf.mx, hf.my, ?_⟩, ?_, rfl, rfl⟩, rfl, rfl, rfl, rfl, ?_, rfl, rfl, rfl, rfl⟩
  · intro i j hi hj h
    have hm := SF.Reads.cellMask hf hi hj
    show f.mask.get i j = true
    cases hc : f.cell i j with
    | none => rw [hm, hc]; rfl
    | some v =>
      rw [hc] at hm
      simp [SF.pow, SF.powN, hm, hc] at h
  · refine SF.reads_map (f := f) (g := f.pow n) rfl rfl (fun s => s.map (· ^ n)) fun i j _ _ => ?_
    unfold SF.pow SF.powN SF.cell
    simp only
    split <;> rfl
  · have np : ∀ v : Rat, VF.npPow n (some v) = some (v ^ n) := by
      intro v
      unfold VF.npPow
      split
      · rename_i h; rw [h, pow_zero]
      · rfl
    have nn : ∀ {v : Option Rat}, VF.npPow n v = none → v = none := by
      intro v h
      cases v with
      | none => rfl
      | some v => rw [np] at h; cases h
    refine ⟨⟨hg.incx, hg.incy, hg.nex, hg.ney, hg.xx, hg.xy, hg.yx, hg.yy, hg.mx, hg.my, fun i j hi hj h => hg.nanx i j hi hj (nn h),
      fun i j hi hj h => hg.nany i j hi hj (nn h)⟩, ?_, rfl, rfl⟩
    refine VF.reads_map (f := g) (g := g.pow n) rfl rfl _ ?_
    intro i j hi hj
    rcases hg.cell_cases hi hj with ⟨h1, h2⟩ | ⟨h1, u, v, h3, h4, h5⟩
    · rw [h2]; exact VF.cell_masked h1
    · rw [h5]
      exact VF.cell_some h1 (by simp [VF.pow, Grid.map, h3, np]) (by simp [VF.pow, Grid.map, h4, np])

/-! ### examples -/

example : SF.sample.WF ∧ VF.sample.WF ∧ VF.sample.uv.size ≠ 0 := ⟨SF.sample_WF, VF.sample_WF, by decide +kernel⟩

/-- A field in 1/mm times 2 m is refused; a field in 1/m times 2 mm is not. -/
example : ({ SF.sample with uv := Sym.one.div Sym.mm } : SF).mulQty ⟨2, Sym.m⟩ = .error .valueError :=
  C265_unit_violated (by norm_num) (by decide) (by simp [Sym.mul, Sym.div, Sym.one, Sym.mm, Sym.m]; norm_num)

example : ∃ h, ({ SF.sample with uv := Sym.one.div Sym.m } : SF).mulQty ⟨2, Sym.mm⟩ = .ok h := by
  obtain ⟨h, k, e, -⟩ := C265_scalar_mul_partial (f := { SF.sample with uv := Sym.one.div Sym.m }) (u := ⟨2, Sym.mm⟩)
    ⟨SF.sample_WF.incx, SF.sample_WF.incy, SF.sample_WF.nex, SF.sample_WF.ney, SF.sample_WF.vx, SF.sample_WF.vy, SF.sample_WF.mx, SF.sample_WF.my,
      SF.sample_WF.nan⟩ (by norm_num) (.inr (by simp [Sym.mul, Sym.div, Sym.one, Sym.mm, Sym.m]; norm_num))
  exact ⟨h, e⟩

end IMT.Quant
