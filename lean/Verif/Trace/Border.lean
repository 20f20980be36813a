import Verif.Trace.BorderModel
import Verif.Trace.Props
import Verif.Scalar.Border

/-!
Properties C206, C207 and C208: points masked in every field of a record; cropping of the masked borders of a record.
-/

namespace IMT.Trace

open Temporal (TF mapRes)
open Turb (SRecord)

variable {t : TF} {u : Sym}

/-! ### specification -/

/-- Some field of the record shows a value at the point. -/
def Seen (t : TF) (x y : Rat) : Prop := ∃ f ∈ t.fields, ∃ v, f.Reads x y (some v)

/-- `T` is the part of the record `t` in a window: consecutive rows and columns of every field, at the same times. -/
structure Window (T t : TF) : Prop where
  times : T.times = t.times
  ut : T.ut = t.ut
  ux : T.ux = t.ux
  uy : T.uy = t.uy
  fields : List.Forall₂ (fun (g f : SF) => g.ax = T.ax ∧ g.ay = T.ay ∧ SF.SubRect g f) T.fields t.fields

/-! ### helper lemmas -/

theorem cum_loose (hx : Inc t.ax) (hy : Inc t.ay) : (cum t).Loose :=
  ⟨hx, hy, rfl, rfl, rfl, rfl, fun _ _ _ _ h => by cases h⟩

theorem cum_WF (h : SRecord t u) : (cum t).WF := by
  obtain ⟨a, b, c, d⟩ := axes h
  exact ⟨a, b, c, d, rfl, rfl, rfl, rfl, fun _ _ _ _ h => by cases h⟩

theorem maskCum_iff (t : TF) (i j : Nat) : (maskCum t).get i j = true ↔ ∀ f ∈ t.fields, f.mask.get i j = true := by
  unfold maskCum
  rw [decide_eq_true_eq, List.length_filter_eq_length_iff]

theorem cum_cell (t : TF) (i j : Nat) : (cum t).cell i j = if (maskCum t).get i j then none else some 0 := rfl

/-- The fields of a record, without the condition that the axes are not empty. -/
structure Grids (t : TF) : Prop where
  incx : Inc t.ax
  incy : Inc t.ay
  ok : ∀ f ∈ t.fields, f.Loose ∧ f.ax = t.ax ∧ f.ay = t.ay

theorem grids (h : SRecord t u) : Grids t :=
  ⟨(axes h).1, (axes h).2.1, fun f hf => ⟨(h.ok.wf f hf).loose, h.ok.ax f hf, h.ok.ay f hf⟩⟩

theorem cum_reads (h : Grids t) {x y : Rat} {v : Rat} : (cum t).Reads x y (some v) ↔ v = 0 ∧ x ∈ t.ax ∧ y ∈ t.ay ∧ Seen t x y := by
  constructor
  · rintro ⟨i, j, hi, hj, hc⟩
    have hi : t.ax[i]? = some x := hi
    have hj : t.ay[j]? = some y := hj
    rw [cum_cell] at hc
    by_cases hm : (maskCum t).get i j = true
    · rw [if_pos hm] at hc; cases hc
    · rw [if_neg hm] at hc
      have : v = 0 := by cases hc; rfl
      refine ⟨this, List.mem_of_getElem? hi, List.mem_of_getElem? hj, ?_⟩
      rw [maskCum_iff] at hm
      simp only [not_forall] at hm
      obtain ⟨f, hf, hm⟩ := hm
      obtain ⟨hl, ha, hb⟩ := h.ok f hf
      have hn := hl.cellMask (by rw [ha]; exact getElem?_some_lt hi) (by rw [hb]; exact getElem?_some_lt hj)
      cases hcell : f.cell i j with
      | none => rw [hcell] at hn; exact absurd hn hm
      | some w => exact ⟨f, hf, w, i, j, by rw [ha]; exact hi, by rw [hb]; exact hj, hcell⟩
  · rintro ⟨rfl, _, _, f, hf, w, i, j, hi, hj, hc⟩
    obtain ⟨hl, ha, hb⟩ := h.ok f hf
    have li := getElem?_some_lt hi
    have lj := getElem?_some_lt hj
    rw [ha] at hi
    rw [hb] at hj
    refine ⟨i, j, hi, hj, ?_⟩
    rw [cum_cell, if_neg]
    intro hm
    have := (maskCum_iff t i j).mp hm f hf
    rw [hl.cellMask li lj, hc] at this
    cases this

theorem cum_none (h : Grids t) {x y : Rat} : (cum t).Reads x y none ↔ x ∈ t.ax ∧ y ∈ t.ay ∧ ¬ Seen t x y := by
  constructor
  · intro hr
    obtain ⟨i, j, hi, hj, hc⟩ := id hr
    have hi : t.ax[i]? = some x := hi
    have hj : t.ay[j]? = some y := hj
    refine ⟨List.mem_of_getElem? hi, List.mem_of_getElem? hj, fun hs => ?_⟩
    obtain ⟨i', j', hi', hj', hc'⟩ := (cum_reads h (v := 0)).mpr ⟨rfl, List.mem_of_getElem? hi, List.mem_of_getElem? hj, hs⟩
    have e1 := h.incx.idx_inj' hi hi'
    have e2 := h.incy.idx_inj' hj hj'
    subst e1 e2
    rw [hc] at hc'
    cases hc'
  · rintro ⟨hx, hy, hs⟩
    obtain ⟨i, hi⟩ := List.mem_iff_getElem?.mp hx
    obtain ⟨j, hj⟩ := List.mem_iff_getElem?.mp hy
    refine ⟨i, j, hi, hj, ?_⟩
    cases hc : (cum t).cell i j with
    | none => rfl
    | some v => exact absurd ((cum_reads h).mp ⟨i, j, hi, hj, hc⟩).2.2.2 hs

/-- Cropping by indices. -/
theorem cropInd_spec (h : Grids t) {ix iy : Option (Int × Int)} {T : TF} (e : cropInd t ix iy = .ok T) :
    ∃ x0 x1 y0 y1, T = { t with ax := slice t.ax x0 (x1 + 1), ay := slice t.ay y0 (y1 + 1), fields := t.fields.map fun f => f.cut x0 x1 y0 y1 } ∧
      Axis.cropIndsInd (ix.getD (0, t.ax.length)).1 (ix.getD (0, t.ax.length)).2 = .ok (x0, x1) ∧
      Axis.cropIndsInd (iy.getD (0, t.ay.length)).1 (iy.getD (0, t.ay.length)).2 = .ok (y0, y1) := by
  unfold cropInd at e
  cases eg : t.frame.cropInd ix iy with
  | error er => rw [eg] at e; cases e
  | ok g =>
    obtain ⟨x0, x1, y0, y1, hg, h1, h2⟩ := SF.cropInd_ok eg
    have hfr : t.frame.ax = t.ax ∧ t.frame.ay = t.ay := ⟨rfl, rfl⟩
    rw [hfr.1] at h1
    rw [hfr.2] at h2
    have hall : mapRes (fun f : SF => f.cropInd ix iy) t.fields = .ok (t.fields.map fun f => f.cut x0 x1 y0 y1) := by
      refine Temporal.mapRes_of_forall _ fun f hf => ?_
      obtain ⟨_, ha, hb⟩ := h.ok f hf
      unfold SF.cropInd
      simp only [ha, hb, h1, h2]
    simp only [eg, hall] at e
    cases e
    exact ⟨x0, x1, y0, y1, by rw [hg]; rfl, h1, h2⟩

theorem cut_grids (h : Grids t) (x0 x1 y0 y1 : Nat) :
    Grids { t with ax := slice t.ax x0 (x1 + 1), ay := slice t.ay y0 (y1 + 1), fields := t.fields.map fun f => f.cut x0 x1 y0 y1 } := by
  refine ⟨slice_inc h.incx _ _, slice_inc h.incy _ _, fun g hg => ?_⟩
  obtain ⟨f, hf, rfl⟩ := List.mem_map.mp hg
  obtain ⟨hl, ha, hb⟩ := h.ok f hf
  exact ⟨SF.cut_loose hl _ _ _ _, by rw [← ha]; rfl, by rw [← hb]; rfl⟩

theorem cut_window (h : Grids t) (x0 x1 y0 y1 : Nat) :
    Window { t with ax := slice t.ax x0 (x1 + 1), ay := slice t.ay y0 (y1 + 1), fields := t.fields.map fun f => f.cut x0 x1 y0 y1 } t := by
  refine ⟨rfl, rfl, rfl, rfl, ?_⟩
  show List.Forall₂ _ (t.fields.map _) t.fields
  rw [List.forall₂_map_left_iff]
  refine List.forall₂_same.mpr fun f hf => ?_
  obtain ⟨hl, ha, hb⟩ := h.ok f hf
  exact ⟨by rw [← ha]; rfl, by rw [← hb]; rfl, SF.cut_subRect hl _ _ _ _⟩

theorem Window.trans {a b c : TF} (h1 : Window a b) (h2 : Window b c) : Window a c := by
  refine ⟨h1.times.trans h2.times, h1.ut.trans h2.ut, h1.ux.trans h2.ux, h1.uy.trans h2.uy, ?_⟩
  have := h1.fields
  have h3 := h2.fields
  generalize a.fields = A at this
  generalize b.fields = B at this h3
  generalize c.fields = C at h3
  clear h1 h2
  induction this generalizing C with
  | nil => cases h3; exact .nil
  | cons p _ ih =>
    cases h3 with
    | cons q r => exact .cons ⟨p.1, p.2.1, p.2.2.trans q.2.2⟩ (ih _ r)

theorem Window.refl (h : Grids t) : Window t t :=
  ⟨rfl, rfl, rfl, rfl, List.forall₂_same.mpr fun f hf => ⟨(h.ok f hf).2.1, (h.ok f hf).2.2, SF.SubRect.refl f⟩⟩

theorem window_seen {T : TF} (h : Window T t) {x y : Rat} : Seen T x y ↔ Seen t x y ∧ x ∈ T.ax ∧ y ∈ T.ay := by
  have hf := h.fields
  unfold Seen
  generalize T.fields = A at hf
  generalize t.fields = B at hf
  constructor
  · rintro ⟨g, hg, v, hv⟩
    have : ∃ f ∈ B, g.ax = T.ax ∧ g.ay = T.ay ∧ SF.SubRect g f := by
      clear hv
      induction hf with
      | nil => simp at hg
      | cons p _ ih =>
        rcases List.mem_cons.mp hg with rfl | hg
        · exact ⟨_, by simp, p⟩
        · obtain ⟨f, hf, q⟩ := ih hg; exact ⟨f, by simp [hf], q⟩
    obtain ⟨f, hfm, ha, hb, hs⟩ := this
    have := (hs.2.2.1 x y _).mp hv
    exact ⟨⟨f, hfm, v, this.1⟩, ha ▸ this.2.1, hb ▸ this.2.2⟩
  · rintro ⟨⟨f, hfm, v, hv⟩, hx, hy⟩
    have : ∃ g ∈ A, g.ax = T.ax ∧ g.ay = T.ay ∧ SF.SubRect g f := by
      clear hv
      induction hf with
      | nil => simp at hfm
      | cons p _ ih =>
        rcases List.mem_cons.mp hfm with rfl | hg
        · exact ⟨_, by simp, p⟩
        · obtain ⟨f, hf, q⟩ := ih hg; exact ⟨f, by simp [hf], q⟩
    obtain ⟨g, hgm, ha, hb, hs⟩ := this
    exact ⟨g, hgm, v, (hs.2.2.1 x y _).mpr ⟨hv, by rw [ha]; exact hx, by rw [hb]; exact hy⟩⟩

/-- A soft cropping of the record is a soft cropping of its cumulated mask. -/
theorem soft_cum (h : Grids t) {T : TF} (e : softCrop t = .ok (some T)) :
    ∃ g, (cum t).softCrop = .ok g ∧ g.ax = T.ax ∧ g.ay = T.ay ∧ Window T t ∧ Grids T := by
  unfold softCrop at e
  unfold SF.softCrop
  cases h1 : SF.firstLast ((List.range (cum t).mask.nx).filter (cum t).rowValid) with
  | error er => rw [h1] at e; cases e
  | ok a =>
    cases h2 : SF.firstLast ((List.range (cum t).mask.ny).filter (cum t).colValid) with
    | error er => rw [h1, h2] at e; cases e
    | ok b =>
      rw [h1, h2] at e
      simp only at e ⊢
      cases hc : cropInd t (some ((a.1 : Int), (a.2 : Int))) (some ((b.1 : Int), (b.2 : Int))) with
      | error er => rw [hc] at e; cases e
      | ok T' =>
        rw [hc] at e
        have : T' = T := by simpa [Except.map] using e
        subst this
        obtain ⟨x0, x1, y0, y1, rfl, k1, k2⟩ := cropInd_spec h hc
        refine ⟨(cum t).cut x0 x1 y0 y1, ?_, rfl, rfl, cut_window h _ _ _ _, cut_grids h _ _ _ _⟩
        unfold SF.cropInd
        simp only [Option.getD_some] at k1 k2 ⊢
        simp only [k1, k2]

/-! ### C206 -/

/-- C206: a point of the grid is masked in `mask_cum` exactly when every field of the record is masked there. -/
theorem C206_mask_cum (h : SRecord t u) {i j : Nat} {x y : Rat} (hi : t.ax[i]? = some x) (hj : t.ay[j]? = some y) :
    (maskCum t).get i j = true ↔ ∀ f ∈ t.fields, f.Reads x y none := by
  rw [maskCum_iff]
  refine forall_congr' fun f => forall_congr' fun hf => ?_
  rw [(h.on hf).reads (t := Turb.frameOf t) hi hj, SF.Reads.cellMask (h.ok.wf f hf) (by rw [h.ok.ax f hf]; exact getElem?_some_lt hi)
    (by rw [h.ok.ay f hf]; exact getElem?_some_lt hj)]
  cases f.cell i j <;> simp

/-! ### C207: soft cropping -/

/-- C207, when a record is returned: it is the smallest window of the record holding every point shown by some field; inside every
reading, masked ones included, is kept at every time. -/
theorem C207_soft_partial (h : SRecord t u) {T : TF} (e : cropMaskedSoft t = .ok (some T)) :
    Window T t ∧ (∀ x y, Seen t x y → Seen T x y) ∧
    (∀ x, T.ax.head? = some x ∨ T.ax.getLast? = some x → ∃ y, Seen T x y) ∧
    (∀ y, T.ay.head? = some y ∨ T.ay.getLast? = some y → ∃ x, Seen T x y) := by
  have hg := grids h
  have hm : ¬ (cum t).anyMasked = false := by
    intro hm
    unfold cropMaskedSoft at e
    rw [if_pos hm] at e
    cases e
  have e' : softCrop t = .ok (some T) := by
    unfold cropMaskedSoft at e
    rwa [if_neg hm] at e
  obtain ⟨g, hs, ha, hb, hw, hG⟩ := soft_cum hg e'
  have hc : (cum t).cropMaskedSoft = .ok (some g) := by
    unfold SF.cropMaskedSoft
    rw [if_neg hm, hs]; rfl
  obtain ⟨k1, k2, k3, k4⟩ := SF.C19_soft_bounding_box (cum_WF h) hc
  have back : ∀ x y v, g.Reads x y (some v) → Seen T x y := by
    intro x y v hr
    have := (k1.2.2.1 x y _).mp hr
    rw [window_seen hw]
    exact ⟨((cum_reads hg).mp this.1).2.2.2, ha ▸ this.2.1, hb ▸ this.2.2⟩
  refine ⟨hw, fun x y hxy => ?_, fun x hx => ?_, fun y hy => ?_⟩
  · obtain ⟨f, hf, v, i, j, hi, hj, hc⟩ := id hxy
    have h1 := List.mem_of_getElem? hi
    have h2 := List.mem_of_getElem? hj
    rw [(hg.ok f hf).2.1] at h1
    rw [(hg.ok f hf).2.2] at h2
    exact back x y 0 (k2 x y 0 ((cum_reads hg).mpr ⟨rfl, h1, h2, hxy⟩))
  · rw [← ha] at hx
    obtain ⟨y, v, hr⟩ := k3 x hx
    exact ⟨y, back x y v hr⟩
  · rw [← hb] at hy
    obtain ⟨x, v, hr⟩ := k4 y hy
    exact ⟨x, back x y v hr⟩

theorem unmasked (h : SRecord t u) (hall : ∀ x ∈ t.ax, ∀ y ∈ t.ay, Seen t x y) : (cum t).anyMasked = false := by
  by_contra hm
  have hm : (cum t).anyMasked = true := by simpa using hm
  obtain ⟨i, j, hi, hj, hmm⟩ := (SF.anyMasked_iff _).mp hm
  have hi : i < t.ax.length := hi
  have hj : j < t.ay.length := hj
  have hr : (cum t).Reads t.ax[i] t.ay[j] none := ⟨i, j, List.getElem?_eq_getElem hi, List.getElem?_eq_getElem hj, by
    rw [cum_cell]; exact if_pos hmm⟩
  obtain ⟨h1, h2, h3⟩ := (cum_none (grids h)).mp hr
  exact h3 (hall _ h1 _ h2)

/-- C207 fails for a record in which every point is shown by some field: nothing (`None`) is returned instead of the record. -/
theorem C207_none_violated (h : SRecord t u) (hall : ∀ x ∈ t.ax, ∀ y ∈ t.ay, Seen t x y) : cropMaskedSoft t = .ok none := by
  unfold cropMaskedSoft
  rw [if_pos (unmasked h hall)]

/-- C207: a record is returned when some point is masked in every field and the points shown reach past the first row and the first
column of the grid. -/
theorem C207_soft_returns_partial (h : SRecord t u) (hm : ∃ x ∈ t.ax, ∃ y ∈ t.ay, ¬ Seen t x y)
    (hx : ∃ x y, Seen t x y ∧ t.ax.head? ≠ some x) (hy : ∃ x y, Seen t x y ∧ t.ay.head? ≠ some y) :
    ∃ T, cropMaskedSoft t = .ok (some T) := by
  have hg := grids h
  have on : ∀ x y, Seen t x y → (cum t).Reads x y (some 0) := by
    intro x y hs
    obtain ⟨f, hf, v, i, j, hi, hj, _⟩ := id hs
    rw [(hg.ok f hf).2.1] at hi
    rw [(hg.ok f hf).2.2] at hj
    exact (cum_reads hg).mpr ⟨rfl, List.mem_of_getElem? hi, List.mem_of_getElem? hj, hs⟩
  obtain ⟨g, e⟩ := SF.C19_soft_returns_partial (cum_WF h)
    (by obtain ⟨x, hx, y, hy, hs⟩ := hm; exact ⟨x, y, (cum_none hg).mpr ⟨hx, hy, hs⟩⟩)
    (by
      obtain ⟨x, y, hs, hne⟩ := hx
      obtain ⟨i, j, hi, hj, hc⟩ := on x y hs
      cases i with
      | zero => rw [← head?_eq_get0] at hi; exact absurd hi hne
      | succ i => exact ⟨i, j, 0, hc, getElem?_some_lt hi, getElem?_some_lt hj⟩)
    (by
      obtain ⟨x, y, hs, hne⟩ := hy
      obtain ⟨i, j, hi, hj, hc⟩ := on x y hs
      cases j with
      | zero => rw [← head?_eq_get0] at hj; exact absurd hj hne
      | succ j => exact ⟨i, j, 0, hc, getElem?_some_lt hi, getElem?_some_lt hj⟩)
  unfold SF.cropMaskedSoft at e
  by_cases h0 : (cum t).anyMasked = false
  · rw [if_pos h0] at e; cases e
  · rw [if_neg h0] at e
    unfold cropMaskedSoft
    rw [if_neg h0]
    cases hs : (cum t).softCrop with
    | error er => rw [hs] at e; cases e
    | ok g' =>
      unfold SF.softCrop at hs
      unfold softCrop
      cases h1 : SF.firstLast ((List.range (cum t).mask.nx).filter (cum t).rowValid) with
      | error er => rw [h1] at hs; cases hs
      | ok a =>
        cases h2 : SF.firstLast ((List.range (cum t).mask.ny).filter (cum t).colValid) with
        | error er => rw [h1, h2] at hs; cases hs
        | ok b =>
          rw [h1, h2] at hs
          simp only at hs ⊢
          obtain ⟨x0, x1, y0, y1, _, k1, k2⟩ := SF.cropInd_ok hs
          simp only [Option.getD_some] at k1 k2
          have hall : ∀ f : SF, f.cropInd (some ((a.1 : Int), (a.2 : Int))) (some ((b.1 : Int), (b.2 : Int))) = .ok (f.cut x0 x1 y0 y1) := by
            intro f
            unfold SF.cropInd
            simp only [Option.getD_some, k1, k2]
          unfold cropInd
          rw [hall]
          have hmap : mapRes (fun f : SF => f.cropInd (some ((a.1 : Int), (a.2 : Int))) (some ((b.1 : Int), (b.2 : Int)))) t.fields =
              .ok (t.fields.map fun f => f.cut x0 x1 y0 y1) := Temporal.mapRes_of_forall _ fun f _ => hall f
          simp only [hmap]
          exact ⟨_, rfl⟩

/-- C207 fails when the points shown are all on the first row of the grid: ValueError. -/
theorem C207_first_row_violated (h : SRecord t u) {x0 : Rat} (hx0 : t.ax.head? = some x0) (h2 : 2 ≤ t.ax.length)
    (hs : ∃ x y, Seen t x y) (hall : ∀ x y, Seen t x y → x = x0) : cropMaskedSoft t = .error .valueError := by
  have hg := grids h
  have hx0' : t.ax[0]? = some x0 := by rw [← head?_eq_get0]; exact hx0
  have hrow : ∀ i, i < t.ax.length → (cum t).rowValid i = true → i = 0 := by
    intro i hi hv
    unfold SF.rowValid at hv
    rw [List.any_eq_true] at hv
    obtain ⟨j, hj, hm⟩ := hv
    have hj : j < t.ay.length := List.mem_range.mp hj
    have hr : (cum t).Reads t.ax[i] t.ay[j] (some 0) := ⟨i, j, List.getElem?_eq_getElem hi, List.getElem?_eq_getElem hj, by
      rw [cum_cell, if_neg]
      have : (cum t).mask.get i j = false := by simpa using hm
      intro h; rw [show (maskCum t).get i j = (cum t).mask.get i j from rfl, this] at h; cases h⟩
    have := hall _ _ ((cum_reads hg).mp hr).2.2.2
    exact hg.incx.idx_inj' (List.getElem?_eq_getElem hi) (by rw [hx0', this])
  obtain ⟨x, y, hs⟩ := hs
  have hxe := hall x y hs
  subst hxe
  obtain ⟨f, hf, v, i, j, hi, hj, hcf⟩ := id hs
  rw [(hg.ok f hf).2.1] at hi
  rw [(hg.ok f hf).2.2] at hj
  obtain ⟨i', j', hi', hj', hc⟩ := (cum_reads hg (v := 0)).mpr ⟨rfl, List.mem_of_getElem? hi, List.mem_of_getElem? hj, hs⟩
  have hi'0 : i' = 0 := hg.incx.idx_inj' hi' hx0'
  subst hi'0
  have hmf : (cum t).mask.get 0 j' = false := by
    rw [(cum_WF h).loose.cellMask (getElem?_some_lt hi') (getElem?_some_lt hj'), hc]; rfl
  have hlen : 0 < t.ax.length := by omega
  have r0 : (cum t).rowValid 0 = true := by
    unfold SF.rowValid
    rw [List.any_eq_true]
    exact ⟨j', List.mem_range.mpr (getElem?_some_lt hj'), by simp [hmf]⟩
  have c0 : (cum t).colValid j' = true := by
    unfold SF.colValid
    rw [List.any_eq_true]
    exact ⟨0, List.mem_range.mpr hlen, by simp [hmf]⟩
  have hany : ¬ (cum t).anyMasked = false := by
    intro hn
    have : (cum t).anyMasked = true := (SF.anyMasked_iff _).mpr ⟨1, j', by show 1 < t.ax.length; omega, getElem?_some_lt hj', by
      by_contra hm
      have h1 : (cum t).rowValid 1 = true := by
        unfold SF.rowValid
        rw [List.any_eq_true]
        exact ⟨j', List.mem_range.mpr (getElem?_some_lt hj'), by simp [hm]⟩
      exact absurd (hrow 1 (by omega) h1) (by omega)⟩
    rw [hn] at this; cases this
  have e1 : SF.firstLast ((List.range (cum t).mask.nx).filter (cum t).rowValid) = .ok (0, 0) := by
    have hmem : 0 ∈ (List.range (cum t).mask.nx).filter (cum t).rowValid := by
      rw [List.mem_filter]; exact ⟨List.mem_range.mpr hlen, r0⟩
    have hne := List.ne_nil_of_mem hmem
    have k1 := SF.range_filter_head (List.head?_eq_some_head hne)
    have k2 := SF.range_filter_last (List.getLast?_eq_some_getLast hne)
    unfold SF.firstLast
    rw [List.head?_eq_some_head hne, List.getLast?_eq_some_getLast hne]
    simp only
    rw [hrow _ k1.1 k1.2.1, hrow _ k2.1 k2.2.1]
  have hmem : j' ∈ (List.range (cum t).mask.ny).filter (cum t).colValid := by
    rw [List.mem_filter]; exact ⟨List.mem_range.mpr (getElem?_some_lt hj'), c0⟩
  have hne := List.ne_nil_of_mem hmem
  have e2 : SF.firstLast ((List.range (cum t).mask.ny).filter (cum t).colValid) =
      .ok (((List.range (cum t).mask.ny).filter (cum t).colValid).head hne, ((List.range (cum t).mask.ny).filter (cum t).colValid).getLast hne) := by
    unfold SF.firstLast
    rw [List.head?_eq_some_head hne, List.getLast?_eq_some_getLast hne]
  unfold cropMaskedSoft softCrop
  rw [if_neg hany, e1, e2]
  rfl

/-! ### C208: hard cropping -/

theorem rowCount_zero {f : SF} {i : Nat} : f.rowCount i = 0 ↔ ∀ j < f.mask.ny, f.mask.get i j = false := by
  unfold SF.rowCount
  rw [List.length_eq_zero_iff, List.filter_eq_nil_iff]
  simp

theorem colCount_zero {f : SF} {j : Nat} : f.colCount j = 0 ↔ ∀ i < f.mask.nx, f.mask.get i j = false := by
  unfold SF.colCount
  rw [List.length_eq_zero_iff, List.filter_eq_nil_iff]
  simp

/-- A turn of the loop cuts a window with one line less. -/
theorem hardStep_spec (h : Grids t) {T : TF} (e : hardStep t = .ok T) :
    Grids T ∧ Window T t ∧ T.ax.length + T.ay.length < t.ax.length + t.ay.length := by
  have main : ∀ ix iy, cropInd t ix iy = .ok T →
      ((ix = some (1, (t.ax.length : Int)) ∧ iy = none) ∨ (ix = some (0, (t.ax.length : Int) - 2) ∧ iy = none) ∨
       (ix = none ∧ iy = some (1, (t.ay.length : Int))) ∨ (ix = none ∧ iy = some (0, (t.ay.length : Int) - 2))) →
      Grids T ∧ Window T t ∧ T.ax.length + T.ay.length < t.ax.length + t.ay.length := by
    intro ix iy hc hcase
    obtain ⟨x0, x1, y0, y1, rfl, hx, hy⟩ := cropInd_spec h hc
    have hx' := SF.cropIndsInd_ok hx
    have hy' := SF.cropIndsInd_ok hy
    refine ⟨cut_grids h _ _ _ _, cut_window h _ _ _ _, ?_⟩
    simp only [slice_length]
    rcases hcase with ⟨rfl, rfl⟩ | ⟨rfl, rfl⟩ | ⟨rfl, rfl⟩ | ⟨rfl, rfl⟩ <;>
      simp only [Option.getD_some, Option.getD_none] at hx' hy' <;> omega
  unfold hardStep at e
  split_ifs at e
  · exact main _ _ e (Or.inl ⟨rfl, rfl⟩)
  · exact main _ _ e (Or.inr (Or.inl ⟨rfl, rfl⟩))
  · exact main _ _ e (Or.inr (Or.inr (Or.inl ⟨rfl, rfl⟩)))
  · exact main _ _ e (Or.inr (Or.inr (Or.inr ⟨rfl, rfl⟩)))

theorem hardLoop_spec (n : Nat) : ∀ t : TF, Grids t →
    (t.ax.length + t.ay.length < n → hardLoop n t ≠ none) ∧
    (∀ T, hardLoop n t = some (.ok T) → Grids T ∧ Window T t ∧ T.ax ≠ [] ∧ T.ay ≠ [] ∧ ∀ b ∈ borders T, b = 0) := by
  induction n with
  | zero => intro t _; exact ⟨fun h => by omega, fun T h => by cases h⟩
  | succ n ih =>
    intro t ht
    unfold hardLoop
    by_cases h0 : t.ax.length = 0 ∨ t.ay.length = 0
    · rw [if_pos h0]; exact ⟨fun _ => by simp, fun T h => by simp at h⟩
    · rw [if_neg h0]
      by_cases hb : ∀ b ∈ borders t, b = 0
      · rw [if_pos hb]
        refine ⟨fun _ => by simp, fun T h => ?_⟩
        simp only [Option.some.injEq, Except.ok.injEq] at h
        subst h
        rw [List.length_eq_zero_iff, List.length_eq_zero_iff, not_or] at h0
        exact ⟨ht, Window.refl ht, h0.1, h0.2, hb⟩
      · rw [if_neg hb]
        cases hs : hardStep t with
        | error e => exact ⟨fun _ => by simp, fun T h => by simp at h⟩
        | ok s =>
          rw [not_or] at h0
          obtain ⟨h1, h2, h3⟩ := hardStep_spec ht hs
          obtain ⟨i1, i2⟩ := ih s h1
          refine ⟨fun hle => i1 (by omega), fun T hT => ?_⟩
          obtain ⟨k1, k2, k3⟩ := i2 T hT
          exact ⟨k1, k2.trans h2, k3⟩

theorem start (h : SRecord t u) {o : Option TF} (e : softCrop t = .ok o) :
    Grids (o.getD t) ∧ Window (o.getD t) t ∧ (o.getD t).ax.length ≤ t.ax.length ∧ (o.getD t).ay.length ≤ t.ay.length := by
  have hg := grids h
  cases o with
  | none => exact ⟨hg, Window.refl hg, le_refl _, le_refl _⟩
  | some T =>
    obtain ⟨g, hs, ha, hb, hw, hG⟩ := soft_cum hg e
    obtain ⟨x0, x1, y0, y1, rfl, _⟩ := SF.softCrop_ok hs
    refine ⟨hG, hw, ?_, ?_⟩
    · show T.ax.length ≤ _
      rw [← ha]
      simp only [SF.cut, slice_length]
      show _ ≤ t.ax.length
      have : (cum t).ax.length = t.ax.length := rfl
      omega
    · show T.ay.length ≤ _
      rw [← hb]
      simp only [SF.cut, slice_length]
      have : (cum t).ay.length = t.ay.length := rfl
      omega

/-- C208: the hard variant stops on every record: it has returned or raised after at most as many turns as there are rows and
columns, plus one. -/
theorem C208_hard_terminates (h : SRecord t u) (n : Nat) (hn : t.ax.length + t.ay.length < n) : cropMaskedHard n t ≠ none := by
  unfold cropMaskedHard
  split_ifs
  · simp
  · cases hs : softCrop t with
    | error e => simp
    | ok o =>
      obtain ⟨h1, _, h3, h4⟩ := start h hs
      simp only [ne_eq, Option.map_eq_none_iff]
      exact (hardLoop_spec n _ h1).1 (by omega)

/-- C208, when a record is returned: it is a window of the record, not empty, and every point of its four borders is shown by some
field. -/
theorem C208_hard_borders_partial (h : SRecord t u) {n : Nat} {T : TF} (e : cropMaskedHard n t = some (.ok (some T))) :
    Window T t ∧ T.ax ≠ [] ∧ T.ay ≠ [] ∧
    (∀ x, T.ax.head? = some x ∨ T.ax.getLast? = some x → ∀ y ∈ T.ay, Seen T x y) ∧
    (∀ y, T.ay.head? = some y ∨ T.ay.getLast? = some y → ∀ x ∈ T.ax, Seen T x y) := by
  unfold cropMaskedHard at e
  by_cases hm : (cum t).anyMasked = false
  · rw [if_pos hm] at e; cases e
  · rw [if_neg hm] at e
    cases hs : softCrop t with
    | error er => rw [hs] at e; cases e
    | ok o =>
      rw [hs] at e
      obtain ⟨h1, h2, _, _⟩ := start h hs
      have hl : hardLoop n (o.getD t) = some (.ok T) := by
        cases hl : hardLoop n (o.getD t) with
        | none => simp only [hl] at e; cases e
        | some r =>
          simp only [hl, Option.map_some, Option.some.injEq] at e
          cases r with
          | error er => cases e
          | ok S => simp only [Except.map, Except.ok.injEq, Option.some.injEq] at e; rw [e]
      obtain ⟨k1, k2, k3, k4, k5⟩ := (hardLoop_spec n _ h1).2 T hl
      refine ⟨k2.trans h2, k3, k4, ?_⟩
      simp only [borders, List.mem_cons, List.not_mem_nil, or_false, forall_eq_or_imp, forall_eq, rowCount_zero, colCount_zero] at k5
      obtain ⟨b1, b2, b3, b4⟩ := k5
      have see : ∀ i j x y, T.ax[i]? = some x → T.ay[j]? = some y → (cum T).mask.get i j = false → Seen T x y := by
        intro i j x y hi hj hf
        have : (cum T).Reads x y (some 0) := ⟨i, j, hi, hj, by
          rw [cum_cell, if_neg]
          intro h; rw [show (maskCum T).get i j = (cum T).mask.get i j from rfl, hf] at h; cases h⟩
        exact ((cum_reads k1).mp this).2.2.2
      refine ⟨fun x hx y hy => ?_, fun y hy x hx => ?_⟩
      · obtain ⟨j, hj⟩ := List.mem_iff_getElem?.mp hy
        rcases hx with hx | hx
        · rw [head?_eq_get0] at hx; exact see 0 j x y hx hj (b1 j (getElem?_some_lt hj))
        · rw [getLast?_eq_get] at hx; exact see _ j x y hx hj (b2 j (getElem?_some_lt hj))
      · obtain ⟨i, hi⟩ := List.mem_iff_getElem?.mp hx
        rcases hy with hy | hy
        · rw [head?_eq_get0] at hy; exact see i 0 x y hi hy (b3 i (getElem?_some_lt hi))
        · rw [getLast?_eq_get] at hy; exact see i _ x y hi hy (b4 i (getElem?_some_lt hi))

/-- C208: a record with nothing to crop gives no record (python's `None`) although a cropped copy is asked for. -/
theorem C208_none_violated (h : SRecord t u) (hall : ∀ x ∈ t.ax, ∀ y ∈ t.ay, Seen t x y) (n : Nat) : cropMaskedHard n t = some (.ok none) := by
  unfold cropMaskedHard
  rw [if_pos (unmasked h hall)]

/-- C208: a record whose fields show points of their first row only cannot be cropped. -/
theorem C208_first_row_violated (h : SRecord t u) {x0 : Rat} (hx0 : t.ax.head? = some x0) (h2 : 2 ≤ t.ax.length)
    (hs : ∃ x y, Seen t x y) (hall : ∀ x y, Seen t x y → x = x0) (n : Nat) : cropMaskedHard n t = some (.error .valueError) := by
  have e := C207_first_row_violated h hx0 h2 hs hall
  unfold cropMaskedSoft at e
  unfold cropMaskedHard
  by_cases hm : (cum t).anyMasked = false
  · rw [if_pos hm] at e; cases e
  · rw [if_neg hm] at e
    rw [if_neg hm, e]

/-! ### examples -/

/-- A field with a given mask. -/
def brd (m : Nat → Nat → Bool) : SF where
  ax := [0, 1, 3, 4]
  ay := [-1, 1/2, 2]
  val := ⟨4, 3, fun i j => if m i j then none else some (10 * i + j)⟩
  mask := ⟨4, 3, m⟩
  ux := Sym.mm
  uy := Sym.m
  uv := Sym.s

theorem brd_WF (m : Nat → Nat → Bool) : (brd m).WF := by
  refine ⟨(by decide +kernel : Inc [0, 1, 3, 4]), (by decide +kernel : Inc [-1, 1/2, 2]), by simp [brd], by simp [brd], rfl, rfl, rfl, rfl, ?_⟩
  intro i j _ _ h
  by_contra hm
  have hm : m i j = false := by simpa [brd] using hm
  simp [brd, hm] at h

/-- A record of two fields, masked at different points. -/
def pair (m n : Nat → Nat → Bool) : TF where
  ax := [0, 1, 3, 4]
  ay := [-1, 1/2, 2]
  ux := Sym.mm
  uy := Sym.m
  times := [0, 2]
  ut := Sym.s
  fields := [brd m, brd n]
  nd := false

theorem pair_record (m n : Nat → Nat → Bool) : SRecord (pair m n) Sym.s := by
  refine ⟨?_, (by decide +kernel : Inc [0, 2]), by simp [pair], ?_, (by decide +kernel : Sym.s.size ≠ 0), (by decide +kernel : Sym.s.size ≠ 0)⟩
  · refine ⟨rfl, ?_, ?_, ?_, ?_, ?_⟩ <;> intro f hf <;> simp only [pair, List.mem_cons, List.not_mem_nil, or_false] at hf <;>
      rcases hf with rfl | rfl <;> first | exact brd_WF _ | rfl
  · intro f hf
    simp only [pair, List.mem_cons, List.not_mem_nil, or_false] at hf
    rcases hf with rfl | rfl <;> rfl

/-- The first row is masked in both fields; the last column and the corner in one of them only. -/
def sides : TF := pair (fun i j => i == 0 || j == 2) (fun i j => i == 0 || (i == 1 && j == 0))

example : SRecord sides Sym.s := pair_record _ _

example : ((List.range 4).map fun i => (List.range 3).map fun j => (maskCum sides).get i j) =
    [[true, true, true], [false, false, false], [false, false, false], [false, false, false]] := by
  decide +kernel

example : (cropMaskedSoft sides).map (Option.map fun T => (T.ax, T.ay, T.fields.map fun f => [f.cell 0 0, f.cell 0 1, f.cell 0 2])) =
    .ok (some ([1, 3, 4], [-1, 1/2, 2], [[some 10, some 11, none], [none, some 11, some 12]])) := by decide +kernel

/-- A point at the corner of the grid and a whole column are masked in both fields. -/
def corner : TF := pair (fun i j => j == 0 || (i == 3 && j == 2)) (fun i j => j == 0 || (i == 3 && j == 2) || j == 1)

example : SRecord corner Sym.s := pair_record _ _

example : ((cropMaskedHard 8 corner).getD (.error .exception)).map (Option.map fun T => (T.ax, T.ay, T.fields.map fun f => [f.cell 0 0, f.cell 0 1])) =
    .ok (some ([0, 1, 3], [1/2, 2], [[some 1, some 2], [none, some 2]])) := by decide +kernel

example : Seen (pair (fun i _ => i != 0) (fun i _ => i != 0)) 0 2 ∧
    cropMaskedSoft (pair (fun i _ => i != 0) (fun i _ => i != 0)) = .error .valueError := by
  refine ⟨⟨_, List.mem_cons_self, 2, 0, 2, rfl, rfl, by decide +kernel⟩, rfl⟩

/-- C208: the loop looks at the borders only: a record with a point masked in all its fields inside the grid is returned whole, this point
still being masked, although the comment of the loop says "until there is no more masked values". -/
theorem C208_hole_violated : SRecord (pair (fun i j => i == 1 && j == 1) (fun i j => i == 1 && j == 1)) Sym.s ∧
    ((cropMaskedHard 8 (pair (fun i j => i == 1 && j == 1) (fun i j => i == 1 && j == 1))).getD (.error .exception)).map
        (Option.map fun T => (T.ax, T.ay, (List.range 4).map fun i => (List.range 3).map fun j => (maskCum T).get i j)) =
      .ok (some ([0, 1, 3, 4], [-1, 1/2, 2], [[false, false, false], [false, true, false], [false, false, false], [false, false, false]])) :=
  ⟨pair_record _ _, by decide +kernel⟩

/-- The hypotheses of the two other theorems are met by the record without mask, and by the one with only the first row. -/
example : (∀ x ∈ (pair (fun _ _ => false) (fun _ _ => false)).ax, ∀ y ∈ (pair (fun _ _ => false) (fun _ _ => false)).ay,
      Seen (pair (fun _ _ => false) (fun _ _ => false)) x y) ∧
    cropMaskedHard 8 (pair (fun i _ => i != 0) (fun i _ => i != 0)) = some (.error .valueError) := by
  refine ⟨?_, rfl⟩
  intro x hx y hy
  obtain ⟨i, hi⟩ := List.mem_iff_getElem?.mp hx
  obtain ⟨j, hj⟩ := List.mem_iff_getElem?.mp hy
  exact ⟨_, List.mem_cons_self, 10 * i + j, i, j, hi, hj, rfl⟩

end IMT.Trace
