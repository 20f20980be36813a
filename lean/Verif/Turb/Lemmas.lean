import Verif.Turb.Model
import Verif.Mirror.Vec
import Verif.Temporal.Mean
import Verif.Temporal.Arith

/-! Specification of the statistics of vector fields over time, and helper lemmas. -/

namespace IMT.Turb

open Temporal (TF mapRes)
open Mirror (compX compY IsComp)

/-! ### specification -/

/-- At the grid point `(x, y)` the successive fields show `l`: `some` vector, or `none` where they are masked. -/
def Shows (t : TVF) (x y : Rat) (l : List (Option (Rat × Rat))) : Prop := List.Forall₂ (fun (f : VF) r => f.Reads x y r) t.fields l

/-- The vectors that are not masked. -/
def seen (l : List (Option (Rat × Rat))) : List (Rat × Rat) := l.filterMap id

/-- The arithmetic mean of `g` over a list of vectors. -/
def avg (g : Rat × Rat → Rat) (w : List (Rat × Rat)) : Rat := (w.map g).sum / w.length

/-- The mean vector. -/
def bar (w : List (Rat × Rat)) : Rat × Rat := (avg Prod.fst w, avg Prod.snd w)

/-- The vector minus another. -/
def minus (a b : Rat × Rat) : Rat × Rat := (a.1 - b.1, a.2 - b.2)

/-- Half of the squared norm. -/
def energy (a : Rat × Rat) : Rat := (a.1 ^ 2 + a.2 ^ 2) / 2

/-- Fields on one grid and in one unit `u`, at increasing times, with at least two points along each axis: what a record of
velocity fields is. -/
structure Record (t : TVF) (u : Sym) : Prop where
  paired : t.times.length = t.fields.length
  inc : Inc t.times
  ne : t.fields ≠ []
  wf : ∀ f ∈ t.fields, f.WF
  ax : ∀ f ∈ t.fields, f.ax = t.ax
  ay : ∀ f ∈ t.fields, f.ay = t.ay
  ux : ∀ f ∈ t.fields, f.ux = t.ux
  uy : ∀ f ∈ t.fields, f.uy = t.uy
  uv : ∀ f ∈ t.fields, f.uv = u
  size : u.size ≠ 0
  tsize : t.ut.size ≠ 0
  lx : 2 ≤ t.ax.length
  ly : 2 ≤ t.ay.length

/-! ### fields on one grid -/

/-- A vector field on the grid of the record, in the unit `u`. -/
structure OnV (t : TVF) (u : Sym) (f : VF) : Prop where
  wf : f.WF
  ax : f.ax = t.ax
  ay : f.ay = t.ay
  ux : f.ux = t.ux
  uy : f.uy = t.uy
  uv : f.uv = u

/-- A scalar field on the grid of the record, in the unit `u`. -/
structure OnS (t : TVF) (u : Sym) (f : SF) : Prop where
  wf : f.WF
  ax : f.ax = t.ax
  ay : f.ay = t.ay
  ux : f.ux = t.ux
  uy : f.uy = t.uy
  uv : f.uv = u

variable {t : TVF} {u : Sym}

theorem Record.on (h : Record t u) {f : VF} (hf : f ∈ t.fields) : OnV t u f :=
  ⟨h.wf f hf, h.ax f hf, h.ay f hf, h.ux f hf, h.uy f hf, h.uv f hf⟩

theorem OnV.reads {f : VF} (h : OnV t u f) {i j : Nat} {x y : Rat} (hi : t.ax[i]? = some x) (hj : t.ay[j]? = some y)
    (r : Option (Rat × Rat)) : f.Reads x y r ↔ f.cell i j = r := by
  have h0 : f.Reads x y (f.cell i j) := ⟨i, j, by rw [h.ax]; exact hi, by rw [h.ay]; exact hj, rfl⟩
  exact ⟨fun hr => h0.unique h.wf hr, fun e => e ▸ h0⟩

theorem OnS.reads {f : SF} (h : OnS t u f) {i j : Nat} {x y : Rat} (hi : t.ax[i]? = some x) (hj : t.ay[j]? = some y)
    (r : Option Rat) : f.Reads x y r ↔ f.cell i j = r := by
  have h0 : f.Reads x y (f.cell i j) := ⟨i, j, by rw [h.ax]; exact hi, by rw [h.ay]; exact hj, rfl⟩
  exact ⟨fun hr => h0.unique h.wf hr, fun e => e ▸ h0⟩

theorem idx {l : List Rat} {i : Nat} (h : i < l.length) : ∃ x, l[i]? = some x := ⟨_, List.getElem?_eq_getElem h⟩

/-! ### components -/

theorem import_defined {ax ay : List Rat} {v : Grid (Option Rat)} {m : SF.MaskArg} {ux uy uv : Sym} (h1 : 2 ≤ ax.length)
    (h2 : 2 ≤ ay.length) : ∃ s, SF.importArrays ax ay v m ux uy uv = .ok s := by
  unfold SF.importArrays
  have hl : ¬ (ay.length < 2 ∨ ax.length < 2) := by omega
  simp only [if_neg hl]
  exact ⟨_, rfl⟩

/-- `s` is a component of `f`. -/
theorem compX_spec (hx : 2 ≤ t.ax.length) (hy : 2 ≤ t.ay.length) {f : VF} (hf : OnV t u f) :
    ∃ s, compX f = .ok s ∧ OnS t u s ∧ ∀ i j, i < t.ax.length → j < t.ay.length → s.cell i j = (f.cell i j).map Prod.fst := by
  obtain ⟨s, e⟩ : ∃ s, compX f = .ok s := import_defined (by rw [hf.ax]; exact hx) (by rw [hf.ay]; exact hy)
  have c := Mirror.compX_ok hf.wf e
  exact ⟨s, e, ⟨c.wf, c.ax.trans hf.ax, c.ay.trans hf.ay, c.ux.trans hf.ux, c.uy.trans hf.uy, c.uv.trans hf.uv⟩,
    fun i j hi hj => c.cell i j (by rw [hf.ax]; exact hi) (by rw [hf.ay]; exact hj)⟩

theorem compY_spec (hx : 2 ≤ t.ax.length) (hy : 2 ≤ t.ay.length) {f : VF} (hf : OnV t u f) :
    ∃ s, compY f = .ok s ∧ OnS t u s ∧ ∀ i j, i < t.ax.length → j < t.ay.length → s.cell i j = (f.cell i j).map Prod.snd := by
  obtain ⟨s, e⟩ : ∃ s, compY f = .ok s := import_defined (by rw [hf.ax]; exact hx) (by rw [hf.ay]; exact hy)
  have c := Mirror.compY_ok hf.wf e
  exact ⟨s, e, ⟨c.wf, c.ax.trans hf.ax, c.ay.trans hf.ay, c.ux.trans hf.ux, c.uy.trans hf.uy, c.uv.trans hf.uv⟩,
    fun i j hi hj => c.cell i j (by rw [hf.ax]; exact hi) (by rw [hf.ay]; exact hj)⟩

theorem fillCopy_axes {s src g : SF} (hs : s.WF) {v : Rat} (h : s.fillValueCopy v false = .ok (src, g)) : g.ax = s.ax ∧ g.ay = s.ay := by
  unfold SF.fillValueCopy at h
  simp only [Bool.false_eq_true, if_false] at h
  split at h
  · cases h
  · rename_i g' e
    cases h
    obtain ⟨_, _, h1, h2⟩ := Mirror.import_axes hs.incx hs.incy e
    exact ⟨h1, h2⟩

theorem fillCopy_spec (hx : 2 ≤ t.ax.length) (hy : 2 ≤ t.ay.length) {s : SF} (hs : OnS t u s) (v : Rat) :
    ∃ p, s.fillValueCopy v false = .ok p ∧ OnS t u p.2 ∧
      ∀ i j, i < t.ax.length → j < t.ay.length → p.2.cell i j = some ((s.cell i j).getD v) := by
  obtain ⟨src, g, e, _, w, hr, u1, u2, u3⟩ := SF.C82_fill_copy_partial hs.wf (by rw [hs.ax]; exact hx) (by rw [hs.ay]; exact hy) v
  obtain ⟨a1, a2⟩ := fillCopy_axes hs.wf e
  have hg : OnS t u g := ⟨w, a1.trans hs.ax, a2.trans hs.ay, u1.trans hs.ux, u2.trans hs.uy, u3.trans hs.uv⟩
  refine ⟨(src, g), e, hg, fun i j hi hj => ?_⟩
  obtain ⟨x, hx'⟩ := idx hi
  obtain ⟨y, hy'⟩ := idx hj
  exact (hg.reads hx' hy' _).mp ((hr x y _).mpr ⟨_, (hs.reads hx' hy' _).mpr rfl, rfl⟩)

theorem vfill_spec (hx : 2 ≤ t.ax.length) (hy : 2 ≤ t.ay.length) {f : VF} (hf : OnV t u f) (a b : Rat) :
    ∃ g, vfill f a b = .ok g ∧ OnV t u g ∧
      ∀ i j, i < t.ax.length → j < t.ay.length → g.cell i j = some ((f.cell i j).getD (a, b)) := by
  obtain ⟨sx, ex, ox, cx⟩ := compX_spec hx hy hf
  obtain ⟨sy, ey, oy, cy⟩ := compY_spec hx hy hf
  obtain ⟨px, epx, opx, cpx⟩ := fillCopy_spec hx hy ox a
  obtain ⟨py, epy, opy, cpy⟩ := fillCopy_spec hx hy oy b
  have hcx : ∀ i j, i < t.ax.length → j < t.ay.length → px.2.values.get i j = some ((f.cell i j).getD (a, b)).1 := by
    intro i j hi hj
    show px.2.cell i j = _
    rw [cpx i j hi hj, cx i j hi hj]
    cases f.cell i j <;> rfl
  have hcy : ∀ i j, i < t.ax.length → j < t.ay.length → py.2.values.get i j = some ((f.cell i j).getD (a, b)).2 := by
    intro i j hi hj
    show py.2.cell i j = _
    rw [cpy i j hi hj, cy i j hi hj]
    cases f.cell i j <;> rfl
  refine ⟨{ f with cx := px.2.values, cy := py.2.values, mask := Grid.const f.ax.length f.ay.length false }, ?_, ⟨⟨hf.wf.incx, hf.wf.incy, hf.wf.nex, hf.wf.ney, ?_, ?_, ?_, ?_, rfl, rfl, ?_, ?_⟩,
    hf.ax, hf.ay, hf.ux, hf.uy, hf.uv⟩, ?_⟩
  · unfold vfill
    simp only [ex, ey, epx, epy]
    rw [if_neg]
    rw [opx.wf.vx, opx.wf.vy, opy.wf.vx, opy.wf.vy, opx.ax, opx.ay, opy.ax, opy.ay, hf.ax, hf.ay]
    simp
  · show px.2.val.nx = _; rw [opx.wf.vx, opx.ax, hf.ax]
  · show px.2.val.ny = _; rw [opx.wf.vy, opx.ay, hf.ay]
  · show py.2.val.nx = _; rw [opy.wf.vx, opy.ax, hf.ax]
  · show py.2.val.ny = _; rw [opy.wf.vy, opy.ay, hf.ay]
  · intro i j hi hj h
    rw [show _ = _ from hcx i j (hf.ax ▸ hi) (hf.ay ▸ hj)] at h
    cases h
  · intro i j hi hj h
    rw [show _ = _ from hcy i j (hf.ax ▸ hi) (hf.ay ▸ hj)] at h
    cases h
  · intro i j hi hj
    exact VF.cell_some rfl (hcx i j hi hj) (hcy i j hi hj)

/-! ### sums and differences -/

theorem compat_self (u : Sym) : u.Compat u := ⟨rfl, rfl, rfl⟩

theorem vadd_spec (hu : u.size ≠ 0) {f g : VF} (hf : OnV t u f) (hg : OnV t u g) :
    ∃ h, f.add g = .ok h ∧ OnV t u h ∧ ∀ i j, i < t.ax.length → j < t.ay.length →
      h.cell i j = VF.sumVec 1 (f.cell i j) (g.cell i j) := by
  obtain ⟨h, e, w, hr, u1, u2, u3⟩ := VF.C112_add_pointwise hf.wf hg.wf (hf.ax.trans hg.ax.symm) (hf.ay.trans hg.ay.symm)
    (by rw [hf.uv, hg.uv]; exact compat_self u) (hf.ux.trans hg.ux.symm) (hf.uy.trans hg.uy.symm)
  have e' : f.add g = .ok (f.addSame g) := by
    unfold VF.add
    rw [if_neg (by rw [VF.unitsMatch_true (by rw [hf.uv, hg.uv]; exact compat_self u) (hf.ux.trans hg.ux.symm) (hf.uy.trans hg.uy.symm)]; simp),
      if_pos ⟨hf.ax.trans hg.ax.symm, hf.ay.trans hg.ay.symm⟩]
  rw [e'] at e
  cases e
  have ho : OnV t u (f.addSame g) := ⟨w, hf.ax, hf.ay, hf.ux, hf.uy, hf.uv⟩
  refine ⟨_, e', ho, fun i j hi hj => ?_⟩
  obtain ⟨x, hx⟩ := idx hi
  obtain ⟨y, hy⟩ := idx hj
  rw [← ho.reads hx hy, hr]
  refine ⟨_, _, (hf.reads hx hy _).mpr rfl, (hg.reads hx hy _).mpr rfl, ?_⟩
  rw [hf.uv, hg.uv, div_self hu]

theorem vsub_spec (hu : u.size ≠ 0) {f g : VF} (hf : OnV t u f) (hg : OnV t u g) :
    ∃ h, f.sub g = .ok h ∧ OnV t u h ∧ ∀ i j, i < t.ax.length → j < t.ay.length →
      h.cell i j = VF.sumVec (-1) (f.cell i j) (g.cell i j) := by
  obtain ⟨h, e, o, c⟩ := vadd_spec hu hf (g := g.neg) ⟨VF.neg_WF hg.wf, hg.ax, hg.ay, hg.ux, hg.uy, hg.uv⟩
  obtain ⟨h', e', w, hr⟩ := VF.C112_sub_pointwise hf.wf hg.wf (hf.ax.trans hg.ax.symm) (hf.ay.trans hg.ay.symm)
    (by rw [hf.uv, hg.uv]; exact compat_self u) (hf.ux.trans hg.ux.symm) (hf.uy.trans hg.uy.symm)
  have : h' = h := by
    have e2 : f.sub g = .ok h := e
    rw [e2] at e'; cases e'; rfl
  subst this
  refine ⟨_, e', o, fun i j hi hj => ?_⟩
  obtain ⟨x, hx⟩ := idx hi
  obtain ⟨y, hy⟩ := idx hj
  rw [← o.reads hx hy, hr]
  refine ⟨_, _, (hf.reads hx hy _).mpr rfl, (hg.reads hx hy _).mpr rfl, ?_⟩
  rw [hf.uv, hg.uv, div_self hu]

/-! ### the mean -/

/-- The vectors visible at a cell. -/
def vis (fs : List VF) (i j : Nat) : List (Rat × Rat) := fs.filterMap fun f => f.cell i j

theorem vcount_eq {fs : List VF} (h : ∀ f ∈ fs, OnV t u f) {i j : Nat} (hi : i < t.ax.length) (hj : j < t.ay.length) :
    vcount fs i j = (vis fs i j).length := by
  unfold vcount vis
  induction fs with
  | nil => rfl
  | cons f fs ih =>
    have o := h f (by simp)
    have e := o.wf.cellMask (by rw [o.ax]; exact hi) (by rw [o.ay]; exact hj)
    have ih := ih fun g hg => h g (by simp [hg])
    cases hc : f.cell i j with
    | none => rw [hc] at e; rw [List.filter_cons, if_neg (by simp [e]), List.filterMap_cons, hc]; exact ih
    | some v =>
      rw [hc] at e
      rw [List.filter_cons, if_pos (by simp [e]), List.filterMap_cons, hc]
      simp [ih]

/-- The sum of a list of vectors. -/
def tot (w : List (Rat × Rat)) : Rat × Rat := ((w.map Prod.fst).sum, (w.map Prod.snd).sum)

theorem vsum_spec (hu : u.size ≠ 0) (hx : 2 ≤ t.ax.length) (hy : 2 ≤ t.ay.length) (fs : List VF) {done : List VF} {s : VF} (hs : OnV t u s)
    (hc : ∀ i j, i < t.ax.length → j < t.ay.length → s.cell i j = some (tot (vis done i j))) (h : ∀ f ∈ fs, OnV t u f) :
    ∃ s', vsumFilled s fs = .ok s' ∧ OnV t u s' ∧
      ∀ i j, i < t.ax.length → j < t.ay.length → s'.cell i j = some (tot (vis (done ++ fs) i j)) := by
  induction fs generalizing done s with
  | nil => exact ⟨s, rfl, hs, by simpa using hc⟩
  | cons f fs ih =>
    obtain ⟨g, eg, og, cg⟩ := vfill_spec hx hy (h f (by simp)) 0 0
    obtain ⟨k, ek, ok, ck⟩ := vadd_spec hu hs og
    obtain ⟨s', e', o', c'⟩ := ih (done := done ++ [f]) ok (fun i j hi hj => by
      rw [ck i j hi hj, hc i j hi hj, cg i j hi hj]
      unfold vis tot
      rw [List.filterMap_append, List.filterMap_cons]
      cases f.cell i j with
      | none => simp [VF.sumVec]
      | some v => simp [VF.sumVec]) (fun f' hf' => h f' (by simp [hf']))
    refine ⟨s', ?_, o', fun i j hi hj => by rw [c' i j hi hj, List.append_assoc]; rfl⟩
    simp only [vsumFilled, eg, ek]
    exact e'

theorem vmean_spec (h : Record t u) (nmin : Nat) :
    ∃ m, vmean t nmin = .ok m ∧ OnV t u m ∧ ∀ i j, i < t.ax.length → j < t.ay.length →
      m.cell i j = if nmin < (vis t.fields i j).length then some (bar (vis t.fields i j)) else none := by
  obtain ⟨f0, fs, hfs⟩ := List.exists_cons_of_ne_nil h.ne
  obtain ⟨g, eg, og, cg⟩ := vfill_spec h.lx h.ly (h.on (f := f0) (by rw [hfs]; simp)) 0 0
  obtain ⟨s, es, os, cs⟩ := vsum_spec h.size h.lx h.ly fs (done := [f0]) og (fun i j hi hj => by
    rw [cg i j hi hj]
    unfold vis tot
    rw [List.filterMap_cons]
    cases f0.cell i j <;> simp) (fun f hf => h.on (by rw [hfs]; simp [hf]))
  rw [show [f0] ++ fs = t.fields by rw [hfs]; rfl] at cs
  have e : vmean t nmin = .ok (({ s.setMask (vfew t nmin) with cx := quot (s.setMask (vfew t nmin)).cx (vfact t nmin), cy := quot (s.setMask (vfew t nmin)).cy (vfact t nmin) } : VF).setMask
      ⟨t.ax.length, t.ay.length, fun i j => (vfew t nmin).get i j || decide ((vfact t nmin).get i j = some 0)⟩) := by
    unfold vmean
    rw [hfs]
    simp only [eg, es]
    unfold vmeanEnd
    rw [if_neg (by rw [os.ax, os.ay]; simp)]
    unfold vdivArr
    rw [if_neg]
    · rfl
    · show ¬ (t.ax.length ≠ s.ax.length ∨ t.ay.length ≠ s.ay.length)
      rw [os.ax, os.ay]; simp
  have hn : ∀ i j, i < t.ax.length → j < t.ay.length → vcount t.fields i j = (vis t.fields i j).length :=
    fun i j hi hj => vcount_eq (fun f hf => h.on hf) hi hj
  have hfew : ∀ i j, i < t.ax.length → j < t.ay.length → (vfew t nmin).get i j = decide ((vis t.fields i j).length ≤ nmin) := by
    intro i j hi hj
    show decide (vcount t.fields i j ≤ nmin) = _
    rw [hn i j hi hj]
  have hfact : ∀ i j, i < t.ax.length → j < t.ay.length → (vfact t nmin).get i j =
      if (vis t.fields i j).length ≤ nmin then some 1 else some ((vis t.fields i j).length : Rat) := by
    intro i j hi hj
    show (if vcount t.fields i j ≤ nmin then some 1 else some (vcount t.fields i j : Rat)) = _
    rw [hn i j hi hj]
  have hxy : ∀ i j, i < t.ax.length → j < t.ay.length → s.cx.get i j = some (tot (vis t.fields i j)).1 ∧
      s.cy.get i j = some (tot (vis t.fields i j)).2 := by
    intro i j hi hj
    rcases os.wf.cell_cases (os.ax ▸ hi) (os.ay ▸ hj) with ⟨_, h2⟩ | ⟨_, a, b, h3, h4, h5⟩
    · rw [cs i j hi hj] at h2; cases h2
    · rw [cs i j hi hj] at h5
      simp only [Option.some.injEq] at h5
      rw [h5]; exact ⟨h3, h4⟩
  have few : ∀ i j, i < t.ax.length → j < t.ay.length → (vis t.fields i j).length ≤ nmin →
      ((vfew t nmin).get i j || decide ((vfact t nmin).get i j = some 0)) = true := by
    intro i j hi hj hle
    rw [hfew i j hi hj]; simp [hle]
  have many : ∀ i j, i < t.ax.length → j < t.ay.length → ¬ (vis t.fields i j).length ≤ nmin →
      ((vfew t nmin).get i j || decide ((vfact t nmin).get i j = some 0)) = false ∧
      nanOp (· / ·) (VF.nanify s.cx (vfew t nmin) |>.get i j) ((vfact t nmin).get i j) = some (bar (vis t.fields i j)).1 ∧
      nanOp (· / ·) (VF.nanify s.cy (vfew t nmin) |>.get i j) ((vfact t nmin).get i j) = some (bar (vis t.fields i j)).2 := by
    intro i j hi hj hle
    have hz : ((vis t.fields i j).length : Rat) ≠ 0 := by
      have : 0 < (vis t.fields i j).length := by omega
      exact_mod_cast this.ne'
    obtain ⟨h1, h2⟩ := hxy i j hi hj
    refine ⟨?_, ?_, ?_⟩
    · rw [hfew i j hi hj, hfact i j hi hj, if_neg hle]
      simp only [Option.some.injEq, hz, decide_false, Bool.or_false, decide_eq_false_iff_not]
      exact hle
    · rw [hfact i j hi hj, if_neg hle]
      show nanOp (· / ·) (if (vfew t nmin).get i j = true then none else s.cx.get i j) _ = _
      rw [if_neg (by rw [hfew i j hi hj]; simpa using hle), h1]
      rfl
    · rw [hfact i j hi hj, if_neg hle]
      show nanOp (· / ·) (if (vfew t nmin).get i j = true then none else s.cy.get i j) _ = _
      rw [if_neg (by rw [hfew i j hi hj]; simpa using hle), h2]
      rfl
  refine ⟨_, e, ⟨⟨os.wf.incx, os.wf.incy, os.wf.nex, os.wf.ney, os.wf.xx, os.wf.xy, os.wf.yx, os.wf.yy, congrArg _ os.ax.symm, congrArg _ os.ay.symm, ?_, ?_⟩,
    os.ax, os.ay, os.ux, os.uy, os.uv⟩, ?_⟩
  · intro i j hi hj hc
    have hi : i < t.ax.length := os.ax ▸ hi
    have hj : j < t.ay.length := os.ay ▸ hj
    by_cases hle : (vis t.fields i j).length ≤ nmin
    · exact few i j hi hj hle
    · obtain ⟨m1, m2, m3⟩ := many i j hi hj hle
      have hc : (if ((vfew t nmin).get i j || decide ((vfact t nmin).get i j = some 0)) = true then none else
        nanOp (· / ·) (VF.nanify s.cx (vfew t nmin) |>.get i j) ((vfact t nmin).get i j)) = none := hc
      rw [m1, m2] at hc
      cases hc
  · intro i j hi hj hc
    have hi : i < t.ax.length := os.ax ▸ hi
    have hj : j < t.ay.length := os.ay ▸ hj
    by_cases hle : (vis t.fields i j).length ≤ nmin
    · exact few i j hi hj hle
    · obtain ⟨m1, m2, m3⟩ := many i j hi hj hle
      have hc : (if ((vfew t nmin).get i j || decide ((vfact t nmin).get i j = some 0)) = true then none else
        nanOp (· / ·) (VF.nanify s.cy (vfew t nmin) |>.get i j) ((vfact t nmin).get i j)) = none := hc
      rw [m1, m3] at hc
      cases hc
  · intro i j hi hj
    by_cases hle : (vis t.fields i j).length ≤ nmin
    · rw [if_neg (by omega)]
      exact VF.cell_masked (few i j hi hj hle)
    · rw [if_pos (by omega)]
      obtain ⟨m1, m2, m3⟩ := many i j hi hj hle
      refine VF.cell_some m1 ?_ ?_
      · show (if ((vfew t nmin).get i j || decide ((vfact t nmin).get i j = some 0)) = true then none else
          nanOp (· / ·) (VF.nanify s.cx (vfew t nmin) |>.get i j) ((vfact t nmin).get i j)) = _
        rw [m1, m2]; rfl
      · show (if ((vfew t nmin).get i j || decide ((vfact t nmin).get i j = some 0)) = true then none else
          nanOp (· / ·) (VF.nanify s.cy (vfew t nmin) |>.get i j) ((vfact t nmin).get i j)) = _
        rw [m1, m3]; rfl

end IMT.Turb
