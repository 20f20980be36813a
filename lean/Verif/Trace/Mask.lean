import Verif.Trace.MaskModel
import Verif.Trace.Border
import Verif.Scalar.Reduce

/-! C384: masks given as fields. -/

namespace IMT.Trace

open Temporal (TF mapRes)
open Turb (SRecord)

/-- Specification: the field `g` is on the grid and tells where `hidden` holds: 1 where it does, 0 elsewhere, nothing being masked. -/
structure Tells (ax ay : List Rat) (hidden : Rat → Rat → Prop) (g : SF) : Prop where
  wf : g.WF
  onx : g.ax = ax
  ony : g.ay = ay
  yes : ∀ x ∈ ax, ∀ y ∈ ay, hidden x y → g.Reads x y (some 1)
  no : ∀ x ∈ ax, ∀ y ∈ ay, ¬ hidden x y → g.Reads x y (some 0)

theorem import_ones {ax ay : List Rat} {m : Grid Bool} {a : SF.MaskArg} (ha : a = .none ∨ a = .bool false) {ux uy uv : Sym} {hidden : Rat → Rat → Prop}
    (hx : m.nx = ax.length) (hy : m.ny = ay.length) (h2x : 2 ≤ ax.length) (h2y : 2 ≤ ay.length) (ix : Inc ax) (iy : Inc ay)
    (hm : ∀ i j x y, ax[i]? = some x → ay[j]? = some y → (m.get i j = true ↔ hidden x y)) :
    ∃ g, SF.importArrays ax ay (ones m) a ux uy uv = .ok g ∧ Tells ax ay hidden g ∧ g.ux = ux ∧ g.uy = uy ∧ g.uv = uv := by
  obtain ⟨g, e, gx, gy, wf, hc, u⟩ := SF.import_inc (v := ones m) (m := a) (ux := ux) (uy := uy) (uv := uv) hx hy h2x h2y
    (by rcases ha with rfl | rfl <;> trivial) ix iy
  have hc' : ∀ i j, g.cell i j = some (if m.get i j then 1 else 0) := by
    intro i j
    rw [hc]
    rcases ha with rfl | rfl <;> simp [SF.MaskArg.get, ones]
  refine ⟨g, e, ⟨wf, gx, gy, ?_, ?_⟩, u⟩
  · intro x hx y hy h
    obtain ⟨i, hi⟩ := List.mem_iff_getElem?.mp hx
    obtain ⟨j, hj⟩ := List.mem_iff_getElem?.mp hy
    exact ⟨i, j, by rw [gx]; exact hi, by rw [gy]; exact hj, by rw [hc', if_pos ((hm i j x y hi hj).2 h)]⟩
  · intro x hx y hy h
    obtain ⟨i, hi⟩ := List.mem_iff_getElem?.mp hx
    obtain ⟨j, hj⟩ := List.mem_iff_getElem?.mp hy
    exact ⟨i, j, by rw [gx]; exact hi, by rw [gy]; exact hj, by rw [hc', if_neg fun h' => h ((hm i j x y hi hj).1 h')]⟩

/-- C384, for a field of two columns and two rows at least: the field of its mask tells where it is masked. -/
theorem C384_field_partial {f : SF} (hf : f.WF) (h2x : 2 ≤ f.ax.length) (h2y : 2 ≤ f.ay.length) :
    ∃ g, maskSf f = .ok g ∧ Tells f.ax f.ay (fun x y => f.Reads x y none) g ∧ g.ux = f.ux ∧ g.uy = f.uy ∧ g.uv = f.uv := by
  refine import_ones (.inr rfl) hf.mx hf.my h2x h2y hf.incx hf.incy fun i j x y hi hj => ?_
  rw [SF.Reads.cellMask hf (getElem?_some_lt hi) (getElem?_some_lt hj)]
  constructor
  · intro h
    exact ⟨i, j, hi, hj, by cases hc : f.cell i j with
      | none => rfl
      | some v => rw [hc] at h; cases h⟩
  · intro h
    rw [SF.Reads.unique hf ⟨i, j, hi, hj, rfl⟩ h]
    rfl

theorem mapRes_forall₂ {α β : Type} {G : α → Res β} {R : α → β → Prop} : ∀ {l : List α}, (∀ a ∈ l, ∃ b, G a = .ok b ∧ R a b) →
    ∃ r, mapRes G l = .ok r ∧ List.Forall₂ R l r := by
  intro l
  induction l with
  | nil => exact fun _ => ⟨[], rfl, .nil⟩
  | cons a l ih =>
    intro h
    obtain ⟨b, e, hb⟩ := h a List.mem_cons_self
    obtain ⟨r, e', hr⟩ := ih fun c hc => h c (List.mem_cons_of_mem _ hc)
    exact ⟨b :: r, by simp only [mapRes, e, e'], .cons hb hr⟩

/-- C384, for a record: one field for each field, in order. -/
theorem C384_each_partial {t : TF} {u : Sym} (h : SRecord t u) (h2x : 2 ≤ t.ax.length) (h2y : 2 ≤ t.ay.length) :
    ∃ gs, masksSf t = .ok gs ∧ List.Forall₂ (fun f g => Tells t.ax t.ay (fun x y => f.Reads x y none) g) t.fields gs := by
  refine mapRes_forall₂ fun f hf => ?_
  obtain ⟨g, e, hg, -⟩ := C384_field_partial (h.ok.wf f hf) (by rw [h.ok.ax f hf]; exact h2x) (by rw [h.ok.ay f hf]; exact h2y)
  rw [h.ok.ax f hf, h.ok.ay f hf] at hg
  exact ⟨g, e, hg⟩

/-- C384, for a record: the field of the cumulated mask tells where the fields are masked at every time, and has no unit. -/
theorem C384_cum_partial {t : TF} {u : Sym} (h : SRecord t u) (h2x : 2 ≤ t.ax.length) (h2y : 2 ≤ t.ay.length) :
    ∃ g, maskCumSf t = .ok g ∧ Tells t.ax t.ay (fun x y => ∀ f ∈ t.fields, f.Reads x y none) g ∧ g.ux = t.ux ∧ g.uy = t.uy ∧ g.uv = Sym.one := by
  obtain ⟨f, hf⟩ := List.exists_mem_of_ne_nil _ h.ne
  have wf := h.ok.wf f hf
  exact import_ones (.inl rfl) rfl rfl h2x h2y (by rw [← h.ok.ax f hf]; exact wf.incx) (by rw [← h.ok.ay f hf]; exact wf.incy)
    fun i j x y hi hj => C206_mask_cum h hi hj

/-- C384 fails for the units: the field of the mask of a field has the unit of its values. -/
theorem C384_unit_violated {f g : SF} (hf : f.WF) (h2x : 2 ≤ f.ax.length) (h2y : 2 ≤ f.ay.length) (hu : f.uv ≠ Sym.one) (e : maskSf f = .ok g) :
    g.uv ≠ Sym.one := by
  obtain ⟨g', e', -, -, -, h⟩ := C384_field_partial hf h2x h2y
  rw [e] at e'
  cases e'
  rw [h]
  exact hu

/-- C384 fails for fields of one column or one row: an exception. -/
theorem C384_line_violated :
    (∀ f : SF, f.ax.length < 2 ∨ f.ay.length < 2 → maskSf f = .error .indexError) ∧
    ∀ t : TF, t.ax.length < 2 ∨ t.ay.length < 2 → maskCumSf t = .error .indexError := by
  constructor
  · intro f h
    unfold maskSf SF.importArrays
    simp only
    rw [if_pos h.symm]
  · intro t h
    unfold maskCumSf SF.importArrays
    simp only
    rw [if_pos h.symm]

/-! ### the hypotheses are met -/

example : (maskCumSf sides).map (fun g => ((List.range 4).map fun i => (List.range 3).map fun j => g.cell i j)) =
    .ok [[some 1, some 1, some 1], [some 0, some 0, some 0], [some 0, some 0, some 0], [some 0, some 0, some 0]] := by
  decide +kernel

example : ∃ g, maskCumSf sides = .ok g ∧ g.uv = Sym.one := by
  obtain ⟨g, e, -, -, -, h⟩ := C384_cum_partial (t := sides) (pair_record _ _) (by decide) (by decide)
  exact ⟨g, e, h⟩

example : ∃ gs, masksSf sides = .ok gs ∧ gs.length = 2 := by
  obtain ⟨gs, e, h⟩ := C384_each_partial (t := sides) (pair_record _ _) (by decide) (by decide)
  exact ⟨gs, e, h.length_eq.symm⟩

example : ∀ g, maskSf (brd fun i j => i == j) = .ok g → g.uv ≠ Sym.one :=
  fun _ => C384_unit_violated (brd_WF _) (by decide) (by decide) (by decide +kernel)

example : maskSf (SF.mk [0] [0, 1] ⟨1, 2, fun _ _ => some 0⟩ ⟨1, 2, fun _ _ => false⟩ .one .one .one) = .error .indexError :=
  C384_line_violated.1 _ (by decide)

end IMT.Trace
