import Verif.Mirror.VecModel
import Verif.Mirror.Props
import Verif.Vector.Arith

/-!
Property C195: the mirror image of a vector field.
-/

namespace IMT.Mirror

open Line (Dir axe)

/-! ### specification -/

/-- The vector `(u, v)` is visible at `(x, y)` in the field, on the larger side of the mirror; the axis goes from `a` to `z`. -/
def VKept (f : VF) (d : Dir) (pos a z x y u v : Rat) : Prop :=
  f.Reads x y (some (u, v)) ∧ (pos < (a + z) / 2 → pos ≤ along d x y) ∧ (pos > (a + z) / 2 → along d x y ≤ pos)

/-- The axis of a vector field across the mirror. -/
def vaxe (f : VF) : Dir → List Rat
  | .x => f.ax
  | .y => f.ay

/-- What a mirrored vector becomes: with a number, its component across the mirror changes sign and both are multiplied by the number. -/
def flip : Dir → Coef → Rat × Rat → Rat × Rat
  | .x, .number c, w => (-(c * w.1), c * w.2)
  | .y, .number c, w => (c * w.1, -(c * w.2))
  | _, .pair a b, w => (a * w.1, b * w.2)

/-! ### helper lemmas -/

theorem flip_eq (d : Dir) (c : Coef) (w : Rat × Rat) : flip d c w = (w.1 * (coefs d c).1, w.2 * (coefs d c).2) := by
  cases c <;> cases d <;> simp only [flip, coefs, Prod.mk.injEq] <;> constructor <;> ring

/-- A component of a vector field. -/
structure IsComp (s : SF) (f : VF) (π : Rat × Rat → Rat) : Prop where
  wf : s.WF
  ax : s.ax = f.ax
  ay : s.ay = f.ay
  cell : ∀ i j, i < f.ax.length → j < f.ay.length → s.cell i j = (f.cell i j).map π
  ux : s.ux = f.ux
  uy : s.uy = f.uy
  uv : s.uv = f.uv

theorem import_axes {ax ay : List Rat} {v : Grid (Option Rat)} {m : SF.MaskArg} {ux uy uv : Sym} {s : SF} (ix : Inc ax) (iy : Inc ay)
    (h : SF.importArrays ax ay v m ux uy uv = .ok s) : 2 ≤ ax.length ∧ 2 ≤ ay.length ∧ s.ax = ax ∧ s.ay = ay := by
  unfold SF.importArrays at h
  by_cases hl : ay.length < 2 ∨ ax.length < 2
  · simp only [if_pos hl] at h; cases h
  · simp only [if_neg hl, Except.ok.injEq] at h
    push Not at hl
    refine ⟨hl.2, hl.1, ?_, ?_⟩
    · rw [← h]; simp only [isRev_inc ix, Bool.false_eq_true, if_false]
    · rw [← h]; simp only [isRev_inc iy, Bool.false_eq_true, if_false]

theorem import_comp {f : VF} (hf : f.WF) {c : Grid (Option Rat)} {π : Rat × Rat → Rat} (c1 : c.nx = f.ax.length) (c2 : c.ny = f.ay.length)
    (hc : ∀ i j, i < f.ax.length → j < f.ay.length → (if f.mask.get i j then none else c.get i j) = (f.cell i j).map π) {s : SF}
    (h : SF.importArrays f.ax f.ay c (.array f.mask) f.ux f.uy f.uv = .ok s) : IsComp s f π := by
  obtain ⟨l1, l2, e1, e2⟩ := import_axes hf.incx hf.incy h
  obtain ⟨g, e, w, hr, u1, u2, u3⟩ := SF.C15_import_reads_partial (ux := f.ux) (uy := f.uy) (uv := f.uv) (m := .array f.mask) c1 c2 l1 l2
    ⟨by rw [hf.mx, c1], by rw [hf.my, c2]⟩ (.inl hf.incx) (.inl hf.incy) (.inl ⟨hf.incx, hf.incy⟩)
  rw [h] at e
  cases e
  refine ⟨w, e1, e2, fun i j hi hj => ?_, u1, u2, u3⟩
  have hx : f.ax[i]? = some f.ax[i] := List.getElem?_eq_getElem hi
  have hy : f.ay[j]? = some f.ay[j] := List.getElem?_eq_getElem hj
  have h1 : s.Reads f.ax[i] f.ay[j] (s.cell i j) := ⟨i, j, by rw [e1]; exact hx, by rw [e2]; exact hy, rfl⟩
  have h2 : s.Reads f.ax[i] f.ay[j] ((f.cell i j).map π) := (hr _ _ _).mpr ⟨i, j, hx, hy, (hc i j hi hj).symm⟩
  exact h1.unique w h2

theorem compX_ok {f : VF} (hf : f.WF) {s : SF} (h : compX f = .ok s) : IsComp s f Prod.fst := by
  refine import_comp hf hf.xx hf.xy ?_ h
  intro i j hi hj
  unfold VF.cell
  by_cases hm : f.mask.get i j = true
  · simp [hm]
  · simp only [hm, Bool.false_eq_true, if_false]
    cases hx : f.cx.get i j with
    | none => exact absurd (hf.nanx i j hi hj hx) hm
    | some u =>
      cases hy : f.cy.get i j with
      | none => exact absurd (hf.nany i j hi hj hy) hm
      | some v => rfl

theorem compY_ok {f : VF} (hf : f.WF) {s : SF} (h : compY f = .ok s) : IsComp s f Prod.snd := by
  refine import_comp hf hf.yx hf.yy ?_ h
  intro i j hi hj
  unfold VF.cell
  by_cases hm : f.mask.get i j = true
  · simp [hm]
  · simp only [hm, Bool.false_eq_true, if_false]
    cases hx : f.cx.get i j with
    | none => exact absurd (hf.nanx i j hi hj hx) hm
    | some u =>
      cases hy : f.cy.get i j with
      | none => exact absurd (hf.nany i j hi hj hy) hm
      | some v => rfl

theorem IsComp.reads {s : SF} {f : VF} {π : Rat × Rat → Rat} (h : IsComp s f π) (x y : Rat) (r : Option Rat) :
    s.Reads x y r ↔ ∃ w, f.Reads x y w ∧ r = w.map π := by
  constructor
  · rintro ⟨i, j, hi, hj, hr⟩
    rw [h.ax] at hi
    rw [h.ay] at hj
    exact ⟨f.cell i j, ⟨i, j, hi, hj, rfl⟩, by rw [← hr, h.cell i j (getElem?_some_lt hi) (getElem?_some_lt hj)]⟩
  · rintro ⟨w, ⟨i, j, hi, hj, hw⟩, rfl⟩
    exact ⟨i, j, by rw [h.ax]; exact hi, by rw [h.ay]; exact hj, by rw [h.cell i j (getElem?_some_lt hi) (getElem?_some_lt hj), hw]⟩

theorem IsComp.kept {s : SF} {f : VF} {π : Rat × Rat → Rat} (h : IsComp s f π) (d : Dir) (pos a z x y v : Rat) :
    Kept s d pos a z x y v ↔ ∃ w, VKept f d pos a z x y w.1 w.2 ∧ v = π w := by
  unfold Kept VKept
  rw [h.reads]
  constructor
  · rintro ⟨⟨w, hw, e⟩, h1, h2⟩
    cases w with
    | none => cases e
    | some w => exact ⟨w, ⟨hw, h1, h2⟩, by simpa using e⟩
  · rintro ⟨w, ⟨hw, h1, h2⟩, rfl⟩
    exact ⟨⟨some w, hw, rfl⟩, h1, h2⟩

/-- Same axes and same masked points. -/
structure SameMask (f g : SF) : Prop where
  wf : f.WF
  wg : g.WF
  ax : f.ax = g.ax
  ay : f.ay = g.ay
  mask : ∀ i j, i < f.ax.length → j < f.ay.length → f.mask.get i j = g.mask.get i j

theorem IsComp.same {s t : SF} {f : VF} {π ρ : Rat × Rat → Rat} (hs : IsComp s f π) (ht : IsComp t f ρ) : SameMask s t := by
  refine ⟨hs.wf, ht.wf, hs.ax.trans ht.ax.symm, hs.ay.trans ht.ay.symm, fun i j hi hj => ?_⟩
  have hi' : i < f.ax.length := hs.ax ▸ hi
  have hj' : j < f.ay.length := hs.ay ▸ hj
  rw [SF.Reads.cellMask hs.wf hi hj, SF.Reads.cellMask ht.wf (ht.ax ▸ hi') (ht.ay ▸ hj'), hs.cell i j hi' hj', ht.cell i j hi' hj']
  cases f.cell i j <;> rfl

theorem SameMask.anyMasked {f g : SF} (h : SameMask f g) : f.anyMasked = g.anyMasked := by
  rw [Bool.eq_iff_iff, SF.anyMasked_iff, SF.anyMasked_iff, h.wf.mx, h.wf.my, h.wg.mx, h.wg.my, h.ax.symm, h.ay.symm]
  constructor
  · rintro ⟨i, j, hi, hj, hm⟩; exact ⟨i, j, hi, hj, by rw [← h.mask i j hi hj]; exact hm⟩
  · rintro ⟨i, j, hi, hj, hm⟩; exact ⟨i, j, hi, hj, by rw [h.mask i j hi hj]; exact hm⟩

theorem SameMask.rows {f g : SF} (h : SameMask f g) :
    (List.range f.mask.nx).filter f.rowValid = (List.range g.mask.nx).filter g.rowValid := by
  rw [h.wf.mx, h.wg.mx, ← h.ax]
  refine List.filter_congr fun i hi => ?_
  rw [List.mem_range] at hi
  unfold SF.rowValid
  rw [h.wf.my, h.wg.my, ← h.ay, Bool.eq_iff_iff, List.any_eq_true, List.any_eq_true]
  constructor
  · rintro ⟨j, hj, e⟩
    exact ⟨j, hj, by rw [← h.mask i j hi (List.mem_range.mp hj)]; exact e⟩
  · rintro ⟨j, hj, e⟩
    exact ⟨j, hj, by rw [h.mask i j hi (List.mem_range.mp hj)]; exact e⟩

theorem SameMask.cols {f g : SF} (h : SameMask f g) :
    (List.range f.mask.ny).filter f.colValid = (List.range g.mask.ny).filter g.colValid := by
  rw [h.wf.my, h.wg.my, ← h.ay]
  refine List.filter_congr fun j hj => ?_
  rw [List.mem_range] at hj
  unfold SF.colValid
  rw [h.wf.mx, h.wg.mx, ← h.ax, Bool.eq_iff_iff, List.any_eq_true, List.any_eq_true]
  constructor
  · rintro ⟨i, hi, e⟩
    exact ⟨i, hi, by rw [← h.mask i j (List.mem_range.mp hi) hj]; exact e⟩
  · rintro ⟨i, hi, e⟩
    exact ⟨i, hi, by rw [h.mask i j (List.mem_range.mp hi) hj]; exact e⟩

/-- Same axes. -/
def SameAxes (f g : SF) : Prop := f.ax = g.ax ∧ f.ay = g.ay

theorem SameAxes.axe {f g : SF} (h : SameAxes f g) (d : Dir) : axe f d = axe g d := by
  cases d
  · exact h.1
  · exact h.2

theorem trimmed_same {f g t u : SF} (h : SameMask f g) (h1 : trimmed f = .ok t) (h2 : trimmed g = .ok u) : SameAxes t u := by
  unfold trimmed at h1 h2
  rw [← h.anyMasked] at h2
  by_cases hm : f.anyMasked = false
  · rw [if_pos hm] at h1 h2
    cases h1; cases h2
    exact ⟨h.ax, h.ay⟩
  · rw [if_neg hm] at h1 h2
    obtain ⟨x0, x1, y0, y1, rfl, e1, e2, e3, e4⟩ := SF.softCrop_ok h1
    obtain ⟨x0', x1', y0', y1', rfl, e1', e2', e3', e4'⟩ := SF.softCrop_ok h2
    rw [← h.rows, e1] at e1'
    rw [← h.rows, e2] at e2'
    rw [← h.cols, e3] at e3'
    rw [← h.cols, e4] at e4'
    cases e1'; cases e2'; cases e3'; cases e4'
    exact ⟨by simp only [SF.cut, h.ax], by simp only [SF.cut, h.ay]⟩

theorem crop_same {f g t u : SF} (h : SameAxes f g) {p q : Option (Rat × Rat)} (h1 : f.crop p q = .ok t) (h2 : g.crop p q = .ok u) :
    SameAxes t u := by
  unfold SF.crop at h1 h2
  rw [← h.1, ← h.2] at h2
  simp only at h1 h2
  split at h1
  · split at h2
    · rename_i e1 e2 _ _ _ _ _ _ e3 e4
      rw [e1] at e3
      rw [e2] at e4
      cases e3; cases e4
      split at h1
      · rename_i e5 e6
        split at h2
        · rename_i e7 e8
          rw [e5] at e7
          rw [e6] at e8
          cases e7; cases e8
          cases h1; cases h2
          exact ⟨by simp only [SF.cut, h.1], by simp only [SF.cut, h.2]⟩
        · cases h2
        · cases h2
      · cases h1
      · cases h1
    · cases h2
  · cases h1

theorem cropAlong_same {f g t u : SF} (h : SameAxes f g) {d : Dir} {a b : Rat} (h1 : cropAlong f d a b = .ok t) (h2 : cropAlong g d a b = .ok u) :
    SameAxes t u := by
  cases d with
  | x => exact crop_same (p := some (a, b)) (q := none) h h1 h2
  | y => exact crop_same (p := none) (q := some (a, b)) h h1 h2

theorem side_same {f g t u t' u' : SF} (hfg : SameAxes f g) (h : SameAxes t u) {d : Dir} {pos p q : Rat} {b c : Bool} (hf : f.WF)
    (h1 : side f t d pos = .ok (t', b, p)) (h2 : side g u d pos = .ok (u', c, q)) : SameAxes t' u' ∧ b = c ∧ p = q := by
  have hne : axe f d ≠ [] := by cases d; exacts [hf.nex, hf.ney]
  obtain ⟨a, ha⟩ : ∃ a, (axe f d).head? = some a := by
    cases e : axe f d with
    | nil => exact absurd e hne
    | cons a _ => exact ⟨a, rfl⟩
  obtain ⟨z, hz⟩ : ∃ a, (axe f d).getLast? = some a := ⟨_, List.getLast?_eq_some_getLast hne⟩
  have haz := Axis.head_le_last (axe_inc hf.loose d) ha hz
  have ha' := ha
  have hz' := hz
  rw [hfg.axe d] at ha' hz'
  rcases side_cases ha hz h1 with ⟨k1, k2, k3, k4⟩ | ⟨k1, k2, k3, k4⟩ | ⟨k1, k2, k3, k4, k5⟩ | ⟨k1, k2, k3, k4, k5⟩ <;>
  rcases side_cases ha' hz' h2 with ⟨l1, l2, l3, l4⟩ | ⟨l1, l2, l3, l4⟩ | ⟨l1, l2, l3, l4, l5⟩ | ⟨l1, l2, l3, l4, l5⟩ <;>
  first
    | (exfalso; linarith)
    | exact ⟨by rw [k2, l2]; exact h, by rw [k3, l3], by rw [k4, l4]⟩
    | (have hs := cropAlong_same h k4 l4
       refine ⟨hs, by rw [k3, l3], ?_⟩
       rw [hs.axe d, l5] at k5
       cases k5; rfl)

theorem extend_same {t u t' u' : SF} (h : SameAxes t u) (ht : t.Loose) (hu : u.Loose) {nl nr nu nd : Nat}
    (h1 : t.extendInplace nl nr nu nd none = .ok t') (h2 : u.extendInplace nl nr nu nd none = .ok u') : SameAxes t' u' := by
  obtain ⟨-, -, e1, e2, -⟩ := extend_ok ht h1
  obtain ⟨-, -, e3, e4, -⟩ := extend_ok hu h2
  rw [h.1, e3] at e1
  rw [h.2, e4] at e2
  exact ⟨(Except.ok.inj e1).symm, (Except.ok.inj e2).symm⟩

theorem extended_same {t u t' u' : SF} (h : SameAxes t u) (ht : t.Loose) (hu : u.Loose) {d : Dir} {b : Bool} {n : Int}
    (h1 : extended t d b n = .ok t') (h2 : extended u d b n = .ok u') : SameAxes t' u' := by
  unfold extended at h1 h2
  by_cases hn : n < 0
  · rw [if_pos hn] at h1; cases h1
  · rw [if_neg hn] at h1 h2
    cases d <;> cases b <;> simp only [Bool.false_eq_true, if_false, if_true] at h1 h2 <;> exact extend_same h ht hu h1 h2

theorem mirroring_same {main : Bool} {f g f' g' : SF} (h : SameMask f g) {d : Dir} {pos c c' : Rat} {inds : Option Int} {i i' : Interp}
    (h1 : mirroring main f d pos inds c i = .ok f') (h2 : mirroring main g d pos inds c' i' = .ok g') : SameAxes f' g' := by
  obtain ⟨t, u, before, border, e, k, a1, a2, a3, a4, rfl⟩ := stages h1
  obtain ⟨t', u', before', border', e', k', b1, b2, b3, b4, rfl⟩ := stages h2
  have haxe : SameAxes f g := ⟨h.ax, h.ay⟩
  obtain ⟨s1, rfl, rfl⟩ := side_same haxe (trimmed_same h a1 b1) h.wf a2 b2
  have hne : axe f d ≠ [] := by cases d; exacts [h.wf.nex, h.wf.ney]
  obtain ⟨a, ha⟩ : ∃ a, (axe f d).head? = some a := by
    cases e : axe f d with
    | nil => exact absurd e hne
    | cons a _ => exact ⟨a, rfl⟩
  obtain ⟨z, hz⟩ : ∃ a, (axe f d).getLast? = some a := ⟨_, List.getLast?_eq_some_getLast hne⟩
  have ha' := ha
  have hz' := hz
  rw [haxe.axe d] at ha' hz'
  obtain ⟨p1, -⟩ := side_ok h.wf ha hz a1 a2
  obtain ⟨p2, -⟩ := side_ok h.wg ha' hz' b1 b2
  rw [← haxe.axe d] at b3
  have s2 := extended_same s1 p1.loose p2.loose a3 b3
  obtain ⟨-, -, ew, -⟩ := extended_ok p1.loose a3
  obtain ⟨-, -, ew', -⟩ := extended_ok p2.loose b3
  obtain ⟨fr, -⟩ := fillAll_keeps _ _ _ ew (fun q hq => mem_indexPairs.mp hq) a4
  obtain ⟨fr', -⟩ := fillAll_keeps _ _ _ ew' (fun q hq => mem_indexPairs.mp hq) b4
  refine ⟨?_, ?_⟩
  · rw [(finish_axes k i).1, (finish_axes k' i').1, fr.ax, fr'.ax, s2.1]
  · rw [(finish_axes k i).2, (finish_axes k' i').2, fr.ay, fr'.ay, s2.2]

theorem extend_len {t e : SF} (ht : t.Loose) {nl nr nu nd : Nat} (h : t.extendInplace nl nr nu nd none = .ok e) :
    2 ≤ e.ax.length ∧ 2 ≤ e.ay.length := by
  obtain ⟨tw, -, e1, e2, l1, l2, -⟩ := extend_ok ht h
  constructor
  · obtain ⟨out, e3, -, hl, -⟩ := Axis.extend_spec tw.incx l1 nl nr
    rw [e1] at e3; cases e3; omega
  · obtain ⟨out, e3, -, hl, -⟩ := Axis.extend_spec tw.incy l2 nd nu
    rw [e2] at e3; cases e3; omega

theorem extended_len {t e : SF} (ht : t.Loose) {d : Dir} {b : Bool} {n : Int} (h : extended t d b n = .ok e) :
    2 ≤ e.ax.length ∧ 2 ≤ e.ay.length := by
  unfold extended at h
  by_cases hn : n < 0
  · rw [if_pos hn] at h; cases h
  · rw [if_neg hn] at h
    cases d <;> cases b <;> simp only [Bool.false_eq_true, if_false, if_true] at h <;> exact extend_len ht h

/-- Two readings taken together. -/
def together : Option Rat → Option Rat → Option (Rat × Rat)
  | some u, some v => some (u, v)
  | _, _ => none

theorem join_ok {gx gy : SF} {g : VF} (hx : gx.WF) (hy : gy.WF) (h : SameAxes gx gy) (hj : join gx gy = .ok g) :
    g.WF ∧ g.ax = gx.ax ∧ g.ay = gx.ay ∧ g.ux = gx.ux ∧ g.uy = gy.uy ∧ g.uv = gx.uv ∧
    ∀ x y r, g.Reads x y r ↔ ∃ u v, gx.Reads x y u ∧ gy.Reads x y v ∧ r = together u v := by
  have e1 : gx.values.nx = gx.ax.length := hx.vx
  have e2 : gx.values.ny = gx.ay.length := hx.vy
  have e3 : gy.values.nx = gx.ax.length := by rw [h.1]; exact hy.vx
  have e4 : gy.values.ny = gx.ay.length := by rw [h.2]; exact hy.vy
  have hl : 2 ≤ gx.ax.length ∧ 2 ≤ gx.ay.length := by
    unfold join VF.importArrays at hj
    split_ifs at hj with h1 h2
    all_goals first | cases hj | omega
  have d := VF.import_direct (ux := gx.ux) (uy := gy.uy) (uv := gx.uv) (m := .array (orMask gx gy)) e1 e2 e3 e4 hl.1 hl.2 hx.mx hx.my
  obtain ⟨g', e, w, hr, u1, u2, u3⟩ := VF.C111_import_reads_partial (ux := gx.ux) (uy := gy.uy) (uv := gx.uv) (m := .array (orMask gx gy))
    e1 e2 e3 e4 hl.1 hl.2 hx.mx hx.my (.inl hx.incx) (.inl hx.incy) (.inl ⟨hx.incx, hx.incy⟩)
  unfold join at hj
  rw [hj] at e d
  cases e
  have d' := Except.ok.inj d
  refine ⟨w, ?_, ?_, u1, u2, u3, ?_⟩
  · rw [d']; simp only [VF.setMask, isRev_inc hx.incx, Bool.false_eq_true, if_false]
  · rw [d']; simp only [VF.setMask, isRev_inc hx.incy, Bool.false_eq_true, if_false]
  · intro x y r
    rw [hr]
    have key : ∀ i j, i < gx.ax.length → j < gx.ay.length →
        VF.shown ((VF.MaskArg.array (orMask gx gy)).grid gx.values.nx gx.values.ny |>.get i j) (gx.values.get i j) (gy.values.get i j) =
        together (gx.cell i j) (gy.cell i j) := by
      intro i j hi hj
      have m1 := SF.Reads.cellMask hx hi hj
      have m2 := SF.Reads.cellMask hy (h.1 ▸ hi) (h.2 ▸ hj)
      simp only [VF.MaskArg.grid, orMask, m1, m2, SF.values]
      cases gx.cell i j <;> cases gy.cell i j <;> simp [VF.shown, together]
    constructor
    · rintro ⟨i, j, hi, hj, rfl⟩
      refine ⟨gx.cell i j, gy.cell i j, ⟨i, j, hi, hj, rfl⟩, ⟨i, j, h.1 ▸ hi, h.2 ▸ hj, rfl⟩, ?_⟩
      exact key i j (getElem?_some_lt hi) (getElem?_some_lt hj)
    · rintro ⟨u, v, ⟨i, j, hi, hj, hu⟩, hv, rfl⟩
      refine ⟨i, j, hi, hj, ?_⟩
      have : gy.Reads x y (gy.cell i j) := ⟨i, j, h.1 ▸ hi, h.2 ▸ hj, rfl⟩
      rw [hv.unique hy this, ← hu]
      exact (key i j (getElem?_some_lt hi) (getElem?_some_lt hj)).symm

theorem vstages {main : Bool} {f g : VF} {d : Dir} {pos : Rat} {inds : Option Int} {coef : Coef} {interp : VInterp} (hf : f.WF)
    (h : vmirroring main f d pos inds coef interp = .ok g) :
    ∃ sx sy gx gy, IsComp sx f Prod.fst ∧ IsComp sy f Prod.snd ∧ mirroring main sx d pos inds (coefs d coef).1 interp.x = .ok gx ∧
      mirroring main sy d pos inds (coefs d coef).2 interp.y = .ok gy ∧ join gx gy = .ok g ∧ SameAxes gx gy ∧
      compX f = .ok sx ∧ compY f = .ok sy := by
  unfold vmirroring at h
  cases h1 : compX f with
  | error _ => rw [h1] at h; cases h
  | ok sx =>
    cases h2 : compY f with
    | error _ => rw [h1, h2] at h; cases h
    | ok sy =>
      rw [h1, h2] at h
      simp only at h
      cases h3 : mirroring main sx d pos inds (coefs d coef).1 interp.x with
      | error _ => rw [h3] at h; cases h
      | ok gx =>
        rw [h3] at h
        simp only at h
        cases h4 : mirroring main sy d pos inds (coefs d coef).2 interp.y with
        | error _ => rw [h4] at h; cases h
        | ok gy =>
          rw [h4] at h
          have c1 := compX_ok hf h1
          have c2 := compY_ok hf h2
          exact ⟨sx, sy, gx, gy, c1, c2, h3, h4, h, mirroring_same (c1.same c2) h3 h4, rfl, rfl⟩

theorem IsComp.axe {s : SF} {f : VF} {π : Rat × Rat → Rat} (h : IsComp s f π) (d : Dir) : Line.axe s d = vaxe f d := by
  cases d
  · exact h.ax
  · exact h.ay

theorem VKept.unique {f : VF} (hf : f.WF) {d : Dir} {pos a z x y u v u' v' : Rat} (h : VKept f d pos a z x y u v)
    (h' : VKept f d pos a z x y u' v') : u = u' ∧ v = v' := by
  have := h.1.unique hf h'.1
  simpa using this

theorem finish_WF {k : SF} (hk : k.WF) (i : Interp) : (finish k i).WF := by
  cases i with
  | none => exact hk
  | value v =>
    unfold finish
    by_cases h : k.anyMasked = true
    · simp only [if_pos h]; exact (SF.C82_fill_value hk v).1
    · simp only [if_neg h]; exact hk

theorem mirroring_WF {main : Bool} {f g : SF} (hf : f.WF) {d : Dir} {pos coef : Rat} {inds : Option Int} {i : Interp}
    (h : mirroring main f d pos inds coef i = .ok g) : g.WF := by
  obtain ⟨t, u, before, border, e, k, h1, h2, h3, h4, rfl⟩ := stages h
  have hne : Line.axe f d ≠ [] := by cases d; exacts [hf.nex, hf.ney]
  obtain ⟨a, ha⟩ : ∃ a, (Line.axe f d).head? = some a := by
    cases e : Line.axe f d with
    | nil => exact absurd e hne
    | cons a _ => exact ⟨a, rfl⟩
  obtain ⟨z, hz⟩ : ∃ a, (Line.axe f d).getLast? = some a := ⟨_, List.getLast?_eq_some_getLast hne⟩
  have hk : mirroring main f d pos inds coef .none = .ok k := by
    unfold mirroring
    rw [h1]; simp only
    rw [h2]; simp only
    rw [h3]; simp only
    rw [h4]; rfl
  exact finish_WF (C194_keeps hf ha hz hk).2.1 i

theorem vaxis {main : Bool} {f g : VF} {d : Dir} {pos : Rat} {inds : Option Int} {coef : Coef} {interp : VInterp} (hf : f.WF)
    (h : vmirroring main f d pos inds coef interp = .ok g) :
    ∃ sx gx, IsComp sx f Prod.fst ∧ mirroring main sx d pos inds (coefs d coef).1 interp.x = .ok gx ∧ Line.axe gx d = vaxe g d := by
  obtain ⟨sx, sy, gx, gy, cx, cy, mx, my, hj, hs, -⟩ := vstages hf h
  obtain ⟨-, e1, e2, -⟩ := join_ok (mirroring_WF cx.wf mx) (mirroring_WF cy.wf my) hs hj
  refine ⟨sx, gx, cx, mx, ?_⟩
  cases d
  · exact e1.symm
  · exact e2.symm

theorem IsComp.unmasked {s : SF} {f : VF} {π : Rat × Rat → Rat} (h : IsComp s f π) (hm : ∀ x y, ¬ f.Reads x y none) (x y : Rat) :
    ¬ s.Reads x y none := by
  rw [h.reads]
  rintro ⟨w, hw, e⟩
  cases w with
  | none => exact hm x y hw
  | some w => cases e

/-! ### C195 -/

/-- C195: whatever the position of the mirror, every visible vector on the larger side is still there, and the units are. -/
theorem C195_keeps {main : Bool} {f g : VF} (hf : f.WF) {d : Dir} {pos a z : Rat} {inds : Option Int} {coef : Coef}
    (ha : (vaxe f d).head? = some a) (hz : (vaxe f d).getLast? = some z) (h : vmirroring main f d pos inds coef .none = .ok g) :
    (∀ x y u v, VKept f d pos a z x y u v → g.Reads x y (some (u, v))) ∧ g.WF ∧ g.ux = f.ux ∧ g.uy = f.uy ∧ g.uv = f.uv := by
  obtain ⟨sx, sy, gx, gy, cx, cy, mx, my, hj, hs, -⟩ := vstages hf h
  obtain ⟨kx, wx, x1, x2, x3⟩ := C194_keeps cx.wf (by rw [cx.axe]; exact ha) (by rw [cx.axe]; exact hz) mx
  obtain ⟨ky, wy, y1, y2, y3⟩ := C194_keeps cy.wf (by rw [cy.axe]; exact ha) (by rw [cy.axe]; exact hz) my
  obtain ⟨w, -, -, u1, u2, u3, hr⟩ := join_ok wx wy hs hj
  refine ⟨fun x y u v hk => ?_, w, by rw [u1, x1, cx.ux], by rw [u2, y2, cy.uy], by rw [u3, x3, cx.uv]⟩
  exact (hr _ _ _).mpr ⟨some u, some v, kx _ _ _ ((cx.kept ..).mpr ⟨(u, v), hk, rfl⟩), ky _ _ _ ((cy.kept ..).mpr ⟨(u, v), hk, rfl⟩), rfl⟩

/-- C195: on an even axis, with the mirror on a line or halfway between two lines, every point of the result shows the kept vector if there
is one, else the flipped image of the kept vector at the mirror point, else nothing. -/
theorem C195_values {main : Bool} {f g : VF} (hf : f.WF) {d : Dir} {pos a z h : Rat} {inds : Option Int} {coef : Coef}
    (he : EvenAxis (vaxe f d) a z h) {m : ℤ} (hp : pos = a + m * (h / 2)) (hg : vmirroring main f d pos inds coef .none = .ok g)
    {x y : Rat} {r : Option (Rat × Rat)} (hr : g.Reads x y r) :
    (∃ u v, VKept f d pos a z x y u v ∧ r = some (u, v)) ∨
    ((∀ u v, ¬ VKept f d pos a z x y u v) ∧
      ∃ u v, VKept f d pos a z (opposite d pos x y).1 (opposite d pos x y).2 u v ∧ r = some (flip d coef (u, v))) ∨
    ((∀ u v, ¬ VKept f d pos a z x y u v) ∧ (∀ u v, ¬ VKept f d pos a z (opposite d pos x y).1 (opposite d pos x y).2 u v) ∧
      r = none) := by
  obtain ⟨sx, sy, gx, gy, cx, cy, mx, my, hj, hs, -⟩ := vstages hf hg
  have wx := (C194_keeps cx.wf (by rw [cx.axe]; exact he.first) (by rw [cx.axe]; exact he.last) mx).2.1
  have wy := (C194_keeps cy.wf (by rw [cy.axe]; exact he.first) (by rw [cy.axe]; exact he.last) my).2.1
  obtain ⟨p, q, hp1, hq1, rfl⟩ := ((join_ok wx wy hs hj).2.2.2.2.2.2 x y r).mp hr
  have vx := C194_values cx.wf (by rw [cx.axe]; exact he) hp mx hp1
  have vy := C194_values cy.wf (by rw [cy.axe]; exact he) hp my hq1
  simp only [cx.kept, cy.kept] at vx vy
  rcases vx with ⟨_, ⟨w, kw, rfl⟩, rfl⟩ | ⟨n1, _, ⟨w, kw, rfl⟩, rfl⟩ | ⟨n1, n2, rfl⟩
  · left
    rcases vy with ⟨_, ⟨w', kw', rfl⟩, rfl⟩ | ⟨n1, -⟩ | ⟨n1, -⟩
    · obtain ⟨e1, e2⟩ := kw.unique hf kw'
      exact ⟨w.1, w.2, kw, by simp only [together]; rw [e2]⟩
    · exact absurd ⟨w, kw, rfl⟩ (n1 _)
    · exact absurd ⟨w, kw, rfl⟩ (n1 _)
  · right; left
    have n1' : ∀ u v, ¬ VKept f d pos a z x y u v := fun u v hk => n1 u ⟨(u, v), hk, rfl⟩
    refine ⟨n1', ?_⟩
    rcases vy with ⟨_, ⟨w', kw', rfl⟩, rfl⟩ | ⟨-, _, ⟨w', kw', rfl⟩, rfl⟩ | ⟨-, n2, -⟩
    · exact absurd kw' (n1' _ _)
    · obtain ⟨e1, e2⟩ := kw.unique hf kw'
      exact ⟨w.1, w.2, kw, by simp only [together, flip_eq]; rw [e2]⟩
    · exact absurd ⟨w, kw, rfl⟩ (n2 _)
  · right; right
    exact ⟨fun u v hk => n1 u ⟨(u, v), hk, rfl⟩, fun u v hk => n2 u ⟨(u, v), hk, rfl⟩, rfl⟩

/-- C195: an unmasked field, mirror before its middle: `b` being the first line after the mirror, the image of the `i`-th line from `b` on is in
the result exactly for the `k` first ones. -/
theorem C195_lines_before {main : Bool} {f g : VF} (hf : f.WF) (hm : ∀ x y, ¬ f.Reads x y none) {d : Dir} {pos a z h b : Rat}
    {inds : Option Int} {coef : Coef} {interp : VInterp} (he : EvenAxis (vaxe f d) a z h) {m : ℤ} (hp : pos = a + m * (h / 2))
    (hlt : pos < (a + z) / 2) (hg : vmirroring main f d pos inds coef interp = .ok g) (hb : b ∈ vaxe f d) (hpb : pos ≤ b)
    (hmin : ∀ x ∈ vaxe f d, pos ≤ x → b ≤ x) {k : Int} (hk : Asked (vaxe f d).length inds k) (i : Nat) :
    2 * pos - (b + i * h) ∈ vaxe g d ↔ (i : Int) < k := by
  obtain ⟨sx, gx, cx, mx, e⟩ := vaxis hf hg
  rw [← cx.axe] at he hb hmin hk
  rw [← e]
  exact C194_lines_before cx.wf (cx.unmasked hm) he hp hlt mx hb hpb hmin hk i

/-- C195: an unmasked field, mirror after its middle. -/
theorem C195_lines_after {main : Bool} {f g : VF} (hf : f.WF) (hm : ∀ x y, ¬ f.Reads x y none) {d : Dir} {pos a z h b : Rat}
    {inds : Option Int} {coef : Coef} {interp : VInterp} (he : EvenAxis (vaxe f d) a z h) {m : ℤ} (hp : pos = a + m * (h / 2))
    (hlt : (a + z) / 2 < pos) (hg : vmirroring main f d pos inds coef interp = .ok g) (hb : b ∈ vaxe f d) (hpb : b ≤ pos)
    (hmax : ∀ x ∈ vaxe f d, x ≤ pos → x ≤ b) {k : Int} (hk : Asked (vaxe f d).length inds k) (i : Nat) :
    2 * pos - (b - i * h) ∈ vaxe g d ↔ (i : Int) < k := by
  obtain ⟨sx, gx, cx, mx, e⟩ := vaxis hf hg
  rw [← cx.axe] at he hb hmax hk
  rw [← e]
  exact C194_lines_after cx.wf (cx.unmasked hm) he hp hlt mx hb hpb hmax hk i

/-- C195: with a value for the gap, exactly the points without a vector get it. -/
theorem C195_fill {main : Bool} {f g : VF} (hf : f.WF) {d : Dir} {pos a z h u v : Rat} {inds : Option Int} {coef : Coef}
    (he : EvenAxis (vaxe f d) a z h) {m : ℤ} (hp : pos = a + m * (h / 2)) (hg : vmirroring main f d pos inds coef (.value u v) = .ok g) :
    ∃ k, vmirroring main f d pos inds coef .none = .ok k ∧ ∀ x y r, g.Reads x y r ↔ ∃ s, k.Reads x y s ∧ r = some (s.getD (u, v)) := by
  obtain ⟨sx, sy, gx, gy, cx, cy, mx, my, hj, hs, ox, oy⟩ := vstages hf hg
  have wx := mirroring_WF cx.wf mx
  have wy := mirroring_WF cy.wf my
  have hex : EvenAxis (Line.axe sx d) a z h := by rw [cx.axe]; exact he
  have hey : EvenAxis (Line.axe sy d) a z h := by rw [cy.axe]; exact he
  obtain ⟨kx, nx, rx⟩ := C194_fill cx.wf hex.first hex.last mx
  obtain ⟨ky, ny, ry⟩ := C194_fill cy.wf hey.first hey.last my
  have wkx := mirroring_WF cx.wf nx
  have wky := mirroring_WF cy.wf ny
  have hks : SameAxes kx ky := mirroring_same (cx.same cy) nx ny
  obtain ⟨k, hk⟩ : ∃ k, join kx ky = .ok k := by
    have hgx : SameAxes kx gx := by
      refine mirroring_same ⟨cx.wf, cx.wf, rfl, rfl, fun _ _ _ _ => rfl⟩ nx mx
    have hl : 2 ≤ kx.ax.length ∧ 2 ≤ kx.ay.length := by
      rw [hgx.1, hgx.2]
      unfold join VF.importArrays at hj
      split_ifs at hj with h1 h2
      all_goals first | cases hj | omega
    exact ⟨_, VF.import_direct (m := .array (orMask kx ky)) wkx.vx wkx.vy (by rw [hks.1]; exact wky.vx) (by rw [hks.2]; exact wky.vy)
      hl.1 hl.2 wkx.mx wkx.my⟩
  refine ⟨k, ?_, ?_⟩
  · unfold vmirroring
    rw [ox, oy]
    simp only [VInterp.x, VInterp.y]
    rw [nx]; simp only
    rw [ny]; exact hk
  · intro x y r
    rw [(join_ok wx wy hs hj).2.2.2.2.2.2]
    simp only [(join_ok wkx wky hks hk).2.2.2.2.2.2, rx, ry]
    have both : ∀ p q, kx.Reads x y p → ky.Reads x y q → (p = none ↔ q = none) := by
      intro p q hp1 hq1
      have vx := C194_values cx.wf hex hp nx hp1
      have vy := C194_values cy.wf hey hp ny hq1
      simp only [cx.kept, cy.kept] at vx vy
      rcases vx with ⟨_, ⟨w, kw, rfl⟩, rfl⟩ | ⟨n1, _, ⟨w, kw, rfl⟩, rfl⟩ | ⟨n1, n2, rfl⟩ <;>
      rcases vy with ⟨_, ⟨w', kw', rfl⟩, rfl⟩ | ⟨m1, _, ⟨w', kw', rfl⟩, rfl⟩ | ⟨m1, m2, rfl⟩ <;> simp
      · exact m1 _ ⟨w, kw, rfl⟩
      · exact m2 _ ⟨w, kw, rfl⟩
      · exact n1 _ ⟨w', kw', rfl⟩
      · exact n2 _ ⟨w', kw', rfl⟩
    constructor
    · rintro ⟨_, _, ⟨p, hp1, rfl⟩, ⟨q, hq1, rfl⟩, rfl⟩
      refine ⟨_, ⟨p, q, hp1, hq1, rfl⟩, ?_⟩
      have := both p q hp1 hq1
      cases p <;> cases q <;> simp [together] at this ⊢
    · rintro ⟨_, ⟨p, q, hp1, hq1, rfl⟩, rfl⟩
      refine ⟨_, _, ⟨p, hp1, rfl⟩, ⟨q, hq1, rfl⟩, ?_⟩
      have := both p q hp1 hq1
      cases p <;> cases q <;> simp [together] at this ⊢

/-- C195: an unmasked field with an even axis and a mirror off its middle is mirrored without error, if at least one line is asked for. -/
theorem C195_defined (main : Bool) {f : VF} (hf : f.WF) (hm : ∀ x y, ¬ f.Reads x y none) (hx : 2 ≤ f.ax.length) (hy : 2 ≤ f.ay.length)
    {d : Dir} {pos a z h : Rat} (coef : Coef) {inds : Option Int} (interp : VInterp) (he : EvenAxis (vaxe f d) a z h) {m : ℤ}
    (hp : pos = a + m * (h / 2)) (hne : pos ≠ (a + z) / 2) {k : Int} (hk : Asked (vaxe f d).length inds k) (hk1 : 1 ≤ k) :
    ∃ g, vmirroring main f d pos inds coef interp = .ok g := by
  have imp : ∀ c : Grid (Option Rat), c.nx = f.ax.length → c.ny = f.ay.length →
      ∃ s, SF.importArrays f.ax f.ay c (.array f.mask) f.ux f.uy f.uv = .ok s := by
    intro c c1 c2
    obtain ⟨g, e, -⟩ := SF.C15_import_reads_partial (ux := f.ux) (uy := f.uy) (uv := f.uv) (m := .array f.mask) c1 c2 hx hy
      ⟨by rw [hf.mx, c1], by rw [hf.my, c2]⟩ (.inl hf.incx) (.inl hf.incy) (.inl ⟨hf.incx, hf.incy⟩)
    exact ⟨g, e⟩
  obtain ⟨sx, ox⟩ := imp f.cx hf.xx hf.xy
  obtain ⟨sy, oy⟩ := imp f.cy hf.yx hf.yy
  have cx := compX_ok hf ox
  have cy := compY_ok hf oy
  obtain ⟨gx, mx⟩ := C194_defined main cx.wf (cx.unmasked hm) (by rw [cx.ax]; exact hx) (by rw [cx.ay]; exact hy) (d := d) (pos := pos)
    (coefs d coef).1 interp.x (by rw [cx.axe]; exact he) hp hne (by rw [cx.axe]; exact hk) hk1
  obtain ⟨gy, my⟩ := C194_defined main cy.wf (cy.unmasked hm) (by rw [cy.ax]; exact hx) (by rw [cy.ay]; exact hy) (d := d) (pos := pos)
    (coefs d coef).2 interp.y (by rw [cy.axe]; exact he) hp hne (by rw [cy.axe]; exact hk) hk1
  have wx := mirroring_WF cx.wf mx
  have wy := mirroring_WF cy.wf my
  have hs := mirroring_same (cx.same cy) mx my
  have hl : 2 ≤ gx.ax.length ∧ 2 ≤ gx.ay.length := by
    obtain ⟨t, u, before, border, e, k, h1, h2, h3, h4, h5⟩ := stages mx
    have hex : EvenAxis (Line.axe sx d) a z h := by rw [cx.axe]; exact he
    obtain ⟨p1, -⟩ := side_ok cx.wf hex.first hex.last h1 h2
    obtain ⟨-, -, ew, -⟩ := extended_ok p1.loose h3
    obtain ⟨fr, -⟩ := fillAll_keeps _ _ _ ew (fun q hq => mem_indexPairs.mp hq) h4
    rw [h5, (finish_axes k interp.x).1, (finish_axes k interp.x).2, fr.ax, fr.ay]
    exact extended_len p1.loose h3
  have hj := VF.import_direct (ux := gx.ux) (uy := gy.uy) (uv := gx.uv) (m := .array (orMask gx gy)) (cx := gx.values) (cy := gy.values) wx.vx wx.vy
    (by rw [hs.1]; exact wy.vx) (by rw [hs.2]; exact wy.vy) hl.1 hl.2 wx.mx wx.my
  have : vmirroring main f d pos inds coef interp = join gx gy := by
    unfold vmirroring
    rw [show compX f = _ from ox, show compY f = _ from oy]
    simp only
    rw [mx]; simp only
    rw [my]
  exact ⟨_, this.trans hj⟩

/-! ### examples -/

/-- A vector field of 3 × 2 points, one of them masked. -/
def vdemo : VF where
  ax := [0, 1, 2]
  ay := [0, 3]
  cx := ⟨3, 2, fun i j => some ((i : Rat) + 10 * j + 1)⟩
  cy := ⟨3, 2, fun i j => some (5 - (i : Rat) + j)⟩
  mask := ⟨3, 2, fun i j => decide (i = 2 ∧ j = 1)⟩
  ux := Sym.m
  uy := Sym.mm
  uv := Sym.s

/-- The same one without a masked point. -/
def vplain : VF := { vdemo with mask := Grid.const 3 2 false }

def vshow (r : Res VF) : Res (List (List (List Rat))) := r.map fun g =>
  [[g.ax, g.ay]] ++ (List.range g.ax.length).map fun i => (List.range g.ay.length).map fun j => ((g.cell i j).map fun w => [w.1, w.2]).getD []

theorem vdemo_wf : vdemo.WF := by
  refine ⟨by decide +kernel, by decide +kernel, by decide +kernel, by decide +kernel, rfl, rfl, rfl, rfl, rfl, rfl, ?_, ?_⟩
  all_goals (intro i j _ _ h; simp [vdemo] at h)

theorem vplain_wf : vplain.WF := by
  refine ⟨by decide +kernel, by decide +kernel, by decide +kernel, by decide +kernel, rfl, rfl, rfl, rfl, rfl, rfl, ?_, ?_⟩
  all_goals (intro i j _ _ h; simp [vplain, vdemo] at h)

theorem vdemo_even : EvenAxis (vaxe vdemo .x) 0 2 1 := by
  refine ⟨by norm_num, rfl, rfl, fun i x hx => ?_⟩
  match i, hx with
  | 0, hx => cases hx; norm_num
  | 1, hx => cases hx; norm_num
  | 2, hx => cases hx; norm_num

example : vshow (vmirroring true vdemo .x (-1/2) none (.number 1) .none) = .ok [[[-2, -1, 0, 1, 2], [0, 3]],
      [[-2, 4], [-12, 5]], [[-1, 5], [-11, 6]], [[1, 5], [11, 6]], [[2, 4], [12, 5]],
       [[3, 3], []]] := by
  decide +kernel

example : vshow (vmirroring true vdemo .y 3 (some 2) (.pair 2 3) (.value 7 8)) = .ok [[[0, 1, 2], [0, 3, 6]],
      [[1, 5], [11, 6], [2, 15]], [[2, 4], [12, 5], [4, 12]], [[3, 3], [7, 8], [6, 9]]] := by
  decide +kernel

-- the hypotheses of C195_keeps, C195_values and C195_fill
example : vdemo.WF ∧ EvenAxis (vaxe vdemo .x) 0 2 1 ∧ (-1/2 : Rat) = 0 + ((-1 : ℤ) : Rat) * (1 / 2) ∧
    (∃ g, vmirroring true vdemo .x (-1/2) none (.number 1) (.value 7 8) = .ok g) ∧
    (∃ g, vmirroring true vdemo .x (-1/2) none (.number 1) .none = .ok g) :=
  ⟨vdemo_wf, vdemo_even, by norm_num, exists_ok (by decide +kernel), exists_ok (by decide +kernel)⟩

-- those of C195_lines_before, C195_lines_after and C195_defined
example : vplain.WF ∧ (∀ x y, ¬ vplain.Reads x y none) ∧ EvenAxis (vaxe vplain .x) 0 2 1 ∧ (3/2 : Rat) = 0 + ((3 : ℤ) : Rat) * (1 / 2) ∧
    (3/2 : Rat) ≠ (0 + 2) / 2 ∧ Asked (vaxe vplain .x).length (some 2) 2 ∧
    (∃ g, vmirroring true vplain .x (3/2) (some 2) (.number 1) .none = .ok g) ∧ (1 : Rat) ∈ vaxe vplain .x ∧
    (∀ x ∈ vaxe vplain .x, x ≤ 3/2 → x ≤ 1) := by
  refine ⟨vplain_wf, ?_, vdemo_even, by norm_num, by norm_num, .inr (.inl ⟨rfl, by decide⟩), exists_ok (by decide +kernel), by decide +kernel, by decide +kernel⟩
  rintro x y ⟨i, j, -, -, h⟩
  simp [VF.cell, vplain, vdemo, Grid.const] at h

end IMT.Mirror
