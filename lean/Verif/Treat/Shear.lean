import Verif.Treat.ShearModel
import Verif.Treat.Grad
import Verif.Vector.Border

/-! Shear stress: C360. -/

namespace IMT.Treat

variable {f g t : VF} {fill : VF → Res VF}

/-- Specification: nothing but NaN under the mask, as the mask is set by the imports and by the setter (core/vectorfield.py:371-373). -/
def Blank (f : VF) : Prop :=
  ∀ i j, i < f.ax.length → j < f.ay.length → f.mask.get i j = true → f.cx.get i j = none ∧ f.cy.get i j = none

theorem even_infix {l l' : List Rat} (h : l' <:+: l) (he : Even l) : Even l' := by
  obtain ⟨a, b, rfl⟩ := h
  intro i x y z hx hy hz
  have key : ∀ (k : Nat) (w : Rat), l'[k]? = some w → (a ++ l' ++ b)[a.length + k]? = some w := by
    intro k w hw
    have hk := getElem?_some_lt hw
    rw [List.append_assoc, List.getElem?_append_right (by omega), Nat.add_sub_cancel_left, List.getElem?_append_left hk]
    exact hw
  exact he (a.length + i) x y z (key _ _ hx) (key _ _ hy) (key _ _ hz)

theorem trimV_spec (hf : f.WF) (h : trimV f = .ok t) : t.Loose ∧ VF.SubRect t f ∧ (Blank f → Blank t) := by
  unfold trimV at h
  by_cases hm : f.maskF.anyMasked = false
  · rw [if_pos hm] at h
    cases h
    exact ⟨hf.loose, VF.SubRect.refl f, id⟩
  · rw [if_neg hm] at h
    obtain ⟨x0, x1, y0, y1, rfl⟩ := VF.softCrop_ok h
    refine ⟨VF.cut_loose hf.loose _ _ _ _, VF.cut_subRect hf.loose _ _ _ _, ?_⟩
    intro hb i j hi hj hmask
    simp only [VF.cut, slice_length] at hi hj
    exact hb (x0 + i) (y0 + j) (by omega) (by omega) hmask

theorem shearOf_ok (h : shearOf t = .ok g) : 2 ≤ t.ax.length ∧ 2 ≤ t.ay.length := by
  unfold shearOf at h
  by_cases hl : t.ax.length < 2 ∨ t.ay.length < 2
  · rw [if_pos hl] at h; cases h
  · omega

theorem shearOf_reads (ht : t.WF) (hx : 2 ≤ t.ax.length) (hy : 2 ≤ t.ay.length) :
    ∃ g, shearOf t = .ok g ∧ g.WF ∧ g.ax = t.ax ∧ g.ay = t.ay ∧ (∀ x y r, g.Reads x y r ↔ ∃ i j, t.ax[i]? = some x ∧ t.ay[j]? = some y ∧
      r = VF.shown (t.mask.get i j) (gradX t.ax t.cy.get i j) (gradY t.ay t.cx.get i j)) ∧ g.ux = t.ux ∧ g.uy = t.uy ∧ g.uv = t.uv := by
  have e := VF.import_direct (ax := t.ax) (ay := t.ay) (cx := ⟨t.ax.length, t.ay.length, gradX t.ax t.cy.get⟩)
    (cy := ⟨t.ax.length, t.ay.length, gradY t.ay t.cx.get⟩) (m := .array t.mask) (ux := t.ux) (uy := t.uy) (uv := t.uv) rfl rfl rfl rfl hx hy ht.mx ht.my
  obtain ⟨g, eg, wg, rg, u1, u2, u3⟩ := VF.C111_import_reads_partial (ax := t.ax) (ay := t.ay) (cx := ⟨t.ax.length, t.ay.length, gradX t.ax t.cy.get⟩)
    (cy := ⟨t.ax.length, t.ay.length, gradY t.ay t.cx.get⟩) (m := .array t.mask) (ux := t.ux) (uy := t.uy) (uv := t.uv) rfl rfl rfl rfl hx hy ht.mx ht.my
    (.inl ht.incx) (.inl ht.incy) (.inl ⟨ht.incx, ht.incy⟩)
  rw [e] at eg
  cases eg
  refine ⟨_, ?_, wg, ?_, ?_, rg, u1, u2, u3⟩
  · unfold shearOf
    rw [if_neg (by omega), e]
  · simp [VF.setMask, SF.rev_false ht.incx]
  · simp [VF.setMask, SF.rev_false ht.incy]

theorem shear_ok (hf : f.WF) (h : shear fill f = .ok g) : ∃ t, trimV f = .ok t ∧ t.WF ∧ VF.SubRect t f ∧ (Blank f → Blank t) ∧ 2 ≤ t.ax.length ∧ 2 ≤ t.ay.length ∧
    shearOf t = .ok g := by
  unfold shear at h
  cases e : trimV f with
  | error e' => rw [e] at h; cases h
  | ok t =>
    simp only [e] at h
    cases e2 : fill t with
    | error e' => rw [e2] at h; cases h
    | ok r =>
      simp only [e2] at h
      obtain ⟨hx, hy⟩ := shearOf_ok h
      obtain ⟨hl, hs, hb⟩ := trimV_spec hf e
      refine ⟨t, rfl, hl.wf ?_ ?_, hs, hb, hx, hy, h⟩
      · intro h0; rw [h0] at hx; simp at hx
      · intro h0; rw [h0] at hy; simp at hy

theorem raw_cell (ht : t.WF) {i j : Nat} {x y : Rat} {v : Rat × Rat} (hi : t.ax[i]? = some x) (hj : t.ay[j]? = some y) (hr : t.Reads x y (some v)) :
    t.mask.get i j = false ∧ t.cx.get i j = some v.1 ∧ t.cy.get i j = some v.2 := by
  have hc := VF_cell_of ht hr hi hj
  unfold VF.cell at hc
  by_cases hm : t.mask.get i j = true
  · rw [if_pos hm] at hc; cases hc
  · rw [if_neg hm] at hc
    refine ⟨by simpa using hm, ?_⟩
    cases hu : t.cx.get i j <;> cases hv : t.cy.get i j <;> rw [hu, hv] at hc <;> simp at hc ⊢
    rw [← hc]
    exact ⟨rfl, rfl⟩

/-! ### C360 -/

/-- C360, on evenly spaced axes: where a point and its neighbours on the axes of the result are not masked, the result shows the slope of the second
component along x and that of the first one along y, between the neighbours. -/
theorem C360_slopes_partial (hf : f.WF) (ex : Even f.ax) (ey : Even f.ay) (h : shear fill f = .ok g) :
    g.WF ∧ g.ux = f.ux ∧ g.uy = f.uy ∧ (∀ x y v, g.Reads x y (some v) → ∃ w, f.Reads x y (some w)) ∧
      ∀ x y x0 x1 y0 y1, Around g.ax x x0 x1 → Around g.ay y y0 y1 → ∀ w p q r s, f.Reads x y (some w) → f.Reads x0 y (some p) → f.Reads x1 y (some q) →
        f.Reads x y0 (some r) → f.Reads x y1 (some s) → g.Reads x y (some ((q.2 - p.2) / (x1 - x0), (s.1 - r.1) / (y1 - y0))) := by
  obtain ⟨t, -, ht, hs, -, hx, hy, e⟩ := shear_ok hf h
  obtain ⟨g', e', wg, a1, a2, rg, u1, u2, -⟩ := shearOf_reads ht hx hy
  rw [e'] at e
  cases e
  refine ⟨wg, u1.trans hs.2.2.2.1, u2.trans hs.2.2.2.2.1, ?_, ?_⟩
  · intro x y v hr
    obtain ⟨i, j, hi, hj, hv⟩ := (rg x y _).1 hr
    have hm : t.mask.get i j = false := by
      cases hm : t.mask.get i j with
      | false => rfl
      | true => rw [hm] at hv; cases hv
    have li := getElem?_some_lt hi
    have lj := getElem?_some_lt hj
    obtain ⟨a, ha⟩ : ∃ a, t.cx.get i j = some a := by
      cases hc : t.cx.get i j with
      | none => rw [ht.nanx i j li lj hc] at hm; cases hm
      | some a => exact ⟨a, rfl⟩
    obtain ⟨b, hb⟩ : ∃ a, t.cy.get i j = some a := by
      cases hc : t.cy.get i j with
      | none => rw [ht.nany i j li lj hc] at hm; cases hm
      | some a => exact ⟨a, rfl⟩
    exact ⟨(a, b), ((hs.2.2.1 x y _).1 ⟨i, j, hi, hj, by simp [VF.cell, hm, ha, hb]⟩).1⟩
  · intro x y x0 x1 y0 y1 hax hay w p q r s rw' rp rq rr rs
    rw [a1] at hax
    rw [a2] at hay
    obtain ⟨mx, mx0, mx1⟩ := around_mem hax
    obtain ⟨my, my0, my1⟩ := around_mem hay
    have tr : ∀ {x y : Rat} {v : Rat × Rat}, f.Reads x y (some v) → x ∈ t.ax → y ∈ t.ay → t.Reads x y (some v) :=
      fun hr hx hy => (hs.2.2.1 _ _ _).2 ⟨hr, hx, hy⟩
    obtain ⟨i, hi, hi0, hi1⟩ := hax
    obtain ⟨j, hj, hj0, hj1⟩ := hay
    refine (rg x y _).2 ⟨i, j, hi, hj, ?_⟩
    have c0 := raw_cell ht hi hj (tr rw' mx my)
    have cp := raw_cell ht hi0 hj (tr rp mx0 my)
    have cq := raw_cell ht hi1 hj (tr rq mx1 my)
    have cr := raw_cell ht hi hj0 (tr rr mx my0)
    have cs := raw_cell ht hi hj1 (tr rs mx my1)
    unfold gradX gradY
    rw [diff1_slope (even_infix hs.1 ex) hx (getElem?_some_lt hi) hi0 hi1, diff1_slope (even_infix hs.2.1 ey) hy (getElem?_some_lt hj) hj0 hj1, c0.1, cp.2.2, cq.2.2,
      cr.2.1, cs.2.1]
    rfl

/-- C360: there is a result, on the axes of the field, when nothing is masked. -/
theorem C360_total_partial (hf : f.WF) (hx : 2 ≤ f.ax.length) (hy : 2 ≤ f.ay.length) (hm : ∀ x y, ¬ f.Reads x y none) (hfill : ∃ r, fill f = .ok r) :
    ∃ g, shear fill f = .ok g ∧ g.ax = f.ax ∧ g.ay = f.ay := by
  have ha : f.maskF.anyMasked = false := by
    have := (VF.C115_nothing_returned_violated hf hm 0).1
    unfold VF.cropMaskedSoft at this
    by_contra h
    rw [if_neg h] at this
    cases hs : f.softCrop <;> rw [hs] at this <;> cases this
  obtain ⟨r, hr⟩ := hfill
  obtain ⟨g, e, -, a1, a2, -⟩ := shearOf_reads hf hx hy
  refine ⟨g, ?_, a1, a2⟩
  unfold shear trimV
  rw [if_pos ha]
  simp only [hr]
  exact e

/-- C360 fails: the result has the unit of the velocity, not that of its derivatives, when the axes have a dimension. -/
theorem C360_unit_violated (hf : f.WF) (h : shear fill f = .ok g) (hu : ¬ f.ux.Compat Sym.one) : g.uv = f.uv ∧ ¬ g.uv.Compat (f.uv.div f.ux) := by
  obtain ⟨t, -, ht, hs, -, hx, hy, e⟩ := shear_ok hf h
  obtain ⟨g', e', -, -, -, -, -, -, u3⟩ := shearOf_reads ht hx hy
  rw [e'] at e
  cases e
  have hg : g.uv = f.uv := u3.trans hs.2.2.2.2.2
  refine ⟨hg, ?_⟩
  rw [hg]
  rintro ⟨h1, h2, h3⟩
  apply hu
  simp only [Sym.div] at h1 h2 h3
  exact ⟨by simp only [Sym.one]; omega, by simp only [Sym.one]; omega, by simp only [Sym.one]; omega⟩

/-- C360 fails near masked points: the field is not filled, and the points that have a masked neighbour are masked in the result. -/
theorem C360_filled_violated (hf : f.WF) (hb : Blank f) (ex : Even f.ax) (h : shear fill f = .ok g) {x y x0 x1 : Rat} (hx : Around g.ax x x0 x1)
    (hy : y ∈ g.ay) (hr : f.Reads x0 y none ∨ f.Reads x1 y none) : g.Reads x y none := by
  obtain ⟨t, -, ht, hs, hb', h2x, h2y, e⟩ := shear_ok hf h
  obtain ⟨g', e', wg, a1, a2, rg, -⟩ := shearOf_reads ht h2x h2y
  rw [e'] at e
  cases e
  rw [a1] at hx
  rw [a2] at hy
  obtain ⟨mx, mx0, mx1⟩ := around_mem hx
  obtain ⟨i, hi, hi0, hi1⟩ := hx
  obtain ⟨j, hj⟩ := List.mem_iff_getElem?.1 hy
  refine (rg x y _).2 ⟨i, j, hi, hj, ?_⟩
  have blank : ∀ {k : Nat} {z : Rat}, t.ax[k]? = some z → z ∈ t.ax → f.Reads z y none → t.cy.get k j = none := by
    intro k z hk hz hr
    have hc := VF_cell_of ht ((hs.2.2.1 _ _ _).2 ⟨hr, hz, hy⟩) hk hj
    have lk := getElem?_some_lt hk
    have lj := getElem?_some_lt hj
    cases hm : t.mask.get k j with
    | true => exact (hb' hb k j lk lj hm).2
    | false =>
      unfold VF.cell at hc
      rw [hm] at hc
      cases hu : t.cx.get k j with
      | none => rw [ht.nanx k j lk lj hu] at hm; cases hm
      | some a => cases hv : t.cy.get k j with
        | none => rfl
        | some b => rw [hu, hv] at hc; simp at hc
  have hsl : gradX t.ax t.cy.get i j = none := by
    unfold gradX
    rw [diff1_slope (even_infix hs.1 ex) h2x (getElem?_some_lt hi) hi0 hi1]
    rcases hr with hr | hr
    · rw [blank hi0 mx0 hr]; rfl
    · rw [blank hi1 mx1 hr]; unfold slope; split <;> simp_all
  rw [hsl]
  unfold VF.shown
  split <;> rfl

/-- `get_swirling_vector` has no result. -/
theorem C360_swirling_violated (f : VF) : swirlingVector f = .error .exception := rfl

/-! ### the hypotheses are met -/

example : (match shear .ok sampleV with
    | .ok g => ([g.cell 0 0, g.cell 1 1, g.cell 2 2], g.uv)
    | .error _ => ([], Sym.one)) = (([some (1, 1), some (1, 1), some (1, 1)], Sym.m.div Sym.s) : List (Option (Rat × Rat)) × Sym) := by
  decide +kernel

example : ∃ g, shear .ok sampleV = .ok g ∧ g.ax = sampleV.ax ∧ g.ay = sampleV.ay ∧ g.uv = sampleV.uv := by
  obtain ⟨g, e, h1, h2⟩ := C360_total_partial (fill := .ok) sampleV_WF (by decide) (by decide) (by
    rintro x y ⟨i, j, -, -, h⟩
    simp [VF.cell, sampleV] at h) ⟨_, rfl⟩
  exact ⟨g, e, h1, h2, (C360_unit_violated sampleV_WF e (by decide)).1⟩

/-- The same velocities, the one in the middle being masked. -/
def holedV : VF :=
  { sampleV with
    cx := ⟨3, 3, fun i j => if i = 1 ∧ j = 1 then none else sampleV.cx.get i j⟩
    cy := ⟨3, 3, fun i j => if i = 1 ∧ j = 1 then none else sampleV.cy.get i j⟩
    mask := ⟨3, 3, fun i j => decide (i = 1 ∧ j = 1)⟩ }

theorem holedV_WF : holedV.WF := by
  refine ⟨by decide +kernel, by decide +kernel, by decide, by decide, rfl, rfl, rfl, rfl, rfl, rfl, ?_, ?_⟩ <;>
    intro i j _ _ h <;> by_cases hm : i = 1 ∧ j = 1 <;> simp_all [holedV, sampleV]

example : Blank holedV := by
  intro i j _ _ h
  have : i = 1 ∧ j = 1 := by simpa [holedV] using h
  simp [holedV, this]

example : (match shear .ok holedV with
    | .ok g => [g.cell 0 0, g.cell 0 1, g.cell 1 0, g.cell 2 2]
    | .error _ => []) = ([some (1, 1), none, none, some (1, 1)] : List (Option (Rat × Rat))) := by
  decide +kernel

end IMT.Treat
