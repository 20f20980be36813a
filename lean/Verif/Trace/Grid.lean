import Verif.Trace.GridModel
import Verif.Trace.Border
import Verif.Mirror.Props

/-!
Properties C209 and C210: records extended and mirrored.
-/

namespace IMT.Trace

open Temporal (TF mapRes)
open Turb (SRecord)
open Line (Dir axe)
open Mirror (Interp EvenAxis Asked Kept opposite)

variable {t : TF} {u : Sym}

/-! ### C209: extension -/

/-- `g` is `f` with lines of masked points around it. -/
structure Padded (nl nr nu nd : Nat) (g f : SF) : Prop where
  old : ∀ x y r, x ∈ f.ax → y ∈ f.ay → (g.Reads x y r ↔ f.Reads x y r)
  new : ∀ x y r, g.Reads x y r → ¬ (x ∈ f.ax ∧ y ∈ f.ay) → r = none
  lx : g.ax.length = nl + f.ax.length + nr
  ly : g.ay.length = nd + f.ay.length + nu

/-- C209: an extended record keeps its times; every field keeps its readings, with the numbers of lines asked for, of masked points,
around them; the record and its fields agree on the new axes. -/
theorem C209_extend (h : SRecord t u) (h2x : 2 ≤ t.ax.length) (h2y : 2 ≤ t.ay.length) (nl nr nu nd : Nat) :
    ∃ T, extend t nl nr nu nd = .ok T ∧ SRecord T u ∧ T.times = t.times ∧ T.ut = t.ut ∧ T.ux = t.ux ∧ T.uy = t.uy ∧
      List.Forall₂ (Padded nl nr nu nd) T.fields t.fields := by
  obtain ⟨hix, hiy, -, -⟩ := axes h
  obtain ⟨ax, ex, ix, lx, ox, _⟩ := Axis.extend_spec hix h2x nl nr
  obtain ⟨ay, ey, iy, ly, oy, _⟩ := Axis.extend_spec hiy h2y nd nu
  have hone : ∀ f ∈ t.fields, ∃ g, f.extendInplace nl nr nu nd none = .ok g := fun f hf => by
    obtain ⟨g, e, _⟩ := SF.C14_extend_reads (h.ok.wf f hf) (by rw [h.ok.ax f hf]; exact h2x) (by rw [h.ok.ay f hf]; exact h2y) nl nr nu nd none
    exact ⟨g, e⟩
  obtain ⟨fs, efs⟩ := Temporal.mapRes_exists hone
  have hall := Temporal.mapRes_ok efs
  have spec : ∀ f ∈ t.fields, ∀ g, f.extendInplace nl nr nu nd none = .ok g →
      Padded nl nr nu nd g f ∧ g.WF ∧ g.ax = ax ∧ g.ay = ay ∧ g.ux = t.ux ∧ g.uy = t.uy ∧ g.uv = u := by
    intro f hf g e
    have a1 := h.ok.ax f hf
    have a2 := h.ok.ay f hf
    obtain ⟨g', e', k1, k2, k3, k4, k5, k6, k7, k8⟩ := SF.C14_extend_reads (h.ok.wf f hf) (by rw [a1]; exact h2x) (by rw [a2]; exact h2y) nl nr nu nd none
    rw [e] at e'
    cases e'
    obtain ⟨-, -, hx, hy, -⟩ := Mirror.extend_ok (h.ok.wf f hf).loose e
    rw [a1, ex] at hx
    rw [a2, ey] at hy
    refine ⟨⟨k2, k3, k4, k5⟩, k1, ?_, ?_, by rw [k6, h.ok.ux f hf], by rw [k7, h.ok.uy f hf], by rw [k8, h.uv f hf]⟩
    · simpa using hx.symm
    · simpa using hy.symm
  have back : ∀ g ∈ fs, ∃ f ∈ t.fields, f.extendInplace nl nr nu nd none = .ok g := by
    intro g hg
    obtain ⟨k, hk⟩ := List.mem_iff_getElem?.mp hg
    have hlen := hall.length_eq
    have hk' : k < t.fields.length := by rw [hlen]; exact getElem?_some_lt hk
    refine ⟨t.fields[k], List.getElem_mem _, ?_⟩
    have := hall.get hk' (getElem?_some_lt hk)
    rw [List.getElem?_eq_getElem (getElem?_some_lt hk)] at hk
    simp only [List.get_eq_getElem] at this
    rw [this, Option.some.inj hk]
  refine ⟨{ t with ax := ax, ay := ay, fields := fs }, ?_, ?_, rfl, rfl, rfl, rfl, ?_⟩
  · unfold extend
    simp only [ex, ey, efs]
  · refine ⟨⟨?_, ?_, ?_, ?_, ?_, ?_⟩, h.inc, ?_, ?_, h.size, h.tsize⟩
    · show t.times.length = fs.length
      rw [← hall.length_eq]; exact h.ok.paired
    all_goals first
      | (intro g hg
         obtain ⟨f, hf, e⟩ := back g hg
         obtain ⟨k0, k1, k2, k3, k4, k5, k6⟩ := spec f hf g e
         assumption)
      | skip
    intro hn
    apply h.ne
    have := hall.length_eq
    have hn : fs = [] := hn
    rw [hn] at this
    exact List.length_eq_zero_iff.mp this
  · show List.Forall₂ _ fs t.fields
    refine List.Forall₂.flip ?_
    clear back efs
    have spec' : ∀ f ∈ t.fields, ∀ g, f.extendInplace nl nr nu nd none = .ok g → Padded nl nr nu nd g f := fun f hf g e => (spec f hf g e).1
    generalize t.fields = l at hall spec'
    induction hall with
    | nil => exact .nil
    | cons p _ ih => exact .cons (spec' _ (by simp) _ p) (ih fun f hf => spec' f (by simp [hf]))

/-! ### C210: mirror image -/

theorem mirroring_ok {main : Bool} {d : Dir} {pos coef : Rat} {inds : Option Int} {interp : Interp} {T : TF}
    (e : mirroring main t d pos inds coef interp = .ok T) : T = { t with fields := T.fields } ∧
      List.Forall₂ (fun f g => Mirror.mirroring main f d pos inds coef interp = .ok g) t.fields T.fields := by
  unfold mirroring at e
  cases hm : mapRes (fun f : SF => Mirror.mirroring main f d pos inds coef interp) t.fields with
  | error er => rw [hm] at e; cases e
  | ok fs =>
    simp only [hm] at e
    split_ifs at e
    cases e
    exact ⟨rfl, Temporal.mapRes_ok hm⟩

/-- C210, for the fields: the mirrored record has the same times, and every value on the larger side of the mirror is kept in its field. -/
theorem C210_fields_partial (h : SRecord t u) {main : Bool} {d : Dir} {pos coef a z : Rat} {inds : Option Int}
    (ha : (axe t.frame d).head? = some a) (hz : (axe t.frame d).getLast? = some z) {T : TF}
    (e : mirroring main t d pos inds coef .none = .ok T) :
    T.times = t.times ∧ T.ut = t.ut ∧
    List.Forall₂ (fun f g => g.WF ∧ g.ux = f.ux ∧ g.uy = f.uy ∧ g.uv = f.uv ∧ ∀ x y v, Kept f d pos a z x y v → g.Reads x y (some v)) t.fields T.fields := by
  obtain ⟨e1, e2⟩ := mirroring_ok e
  refine ⟨by rw [e1], by rw [e1], ?_⟩
  have hk : ∀ f ∈ t.fields, ∀ g, Mirror.mirroring main f d pos inds coef .none = .ok g →
      g.WF ∧ g.ux = f.ux ∧ g.uy = f.uy ∧ g.uv = f.uv ∧ ∀ x y v, Kept f d pos a z x y v → g.Reads x y (some v) := by
    intro f hf g eg
    have hax : axe f d = axe t.frame d := by cases d <;> [exact h.ok.ax f hf; exact h.ok.ay f hf]
    obtain ⟨k1, k2, k3, k4, k5⟩ := Mirror.C194_keeps (h.ok.wf f hf) (by rw [hax]; exact ha) (by rw [hax]; exact hz) eg
    exact ⟨k2, k3, k4, k5, k1⟩
  clear e e1
  generalize t.fields = l at e2 hk
  generalize T.fields = k at e2
  induction e2 with
  | nil => exact .nil
  | cons p _ ih => exact .cons (hk _ (by simp) _ p) (ih fun f hf => hk f (by simp [hf]))

/-- C210, for the fields: the mirrored values. -/
theorem C210_values_partial (h : SRecord t u) {main : Bool} {d : Dir} {pos coef a z w : Rat} {inds : Option Int}
    (he : EvenAxis (axe t.frame d) a z w) {m : ℤ} (hp : pos = a + m * (w / 2)) {T : TF} (e : mirroring main t d pos inds coef .none = .ok T) :
    List.Forall₂ (fun f g => ∀ x y r, g.Reads x y r → (∃ v, Kept f d pos a z x y v ∧ r = some v) ∨
      ((∀ v, ¬ Kept f d pos a z x y v) ∧ ∃ v, Kept f d pos a z (opposite d pos x y).1 (opposite d pos x y).2 v ∧ r = some (v * coef)) ∨
      ((∀ v, ¬ Kept f d pos a z x y v) ∧ (∀ v, ¬ Kept f d pos a z (opposite d pos x y).1 (opposite d pos x y).2 v) ∧ r = none)) t.fields T.fields := by
  obtain ⟨-, e2⟩ := mirroring_ok e
  have hax : ∀ f ∈ t.fields, axe f d = axe t.frame d := fun f hf => by cases d <;> [exact h.ok.ax f hf; exact h.ok.ay f hf]
  have hwf := h.ok.wf
  clear e
  generalize t.fields = l at e2 hax hwf
  generalize T.fields = k at e2
  induction e2 with
  | nil => exact .nil
  | cons p _ ih =>
    exact .cons (fun x y r hr => Mirror.C194_values (hwf _ (by simp)) (by rw [hax _ (by simp)]; exact he) hp p hr)
      (ih (fun f hf => hax f (by simp [hf])) fun f hf => hwf f (by simp [hf]))

/-- C210 fails for the axes of the record, which stay as they were. -/
theorem C210_axes_violated {main : Bool} {d : Dir} {pos coef : Rat} {inds : Option Int} {interp : Interp} {T : TF}
    (e : mirroring main t d pos inds coef interp = .ok T) : T.ax = t.ax ∧ T.ay = t.ay := by
  rw [(mirroring_ok e).1]
  exact ⟨rfl, rfl⟩

/-- C210 fails for a mirror before the grid: the record returned does not have the axes of its fields. -/
theorem C210_grid_violated (h : SRecord t u) {main : Bool} {d : Dir} {pos coef a z w : Rat} {inds : Option Int} {interp : Interp}
    (hm : ∃ f ∈ t.fields, ∀ x y, ¬ f.Reads x y none) (he : EvenAxis (axe t.frame d) a z w) {m : ℤ} (hp : pos = a + m * (w / 2)) (hlt : pos < a)
    {k : Int} (hk : Asked (axe t.frame d).length inds k) (h1 : 1 ≤ k) {T : TF} (e : mirroring main t d pos inds coef interp = .ok T) :
    ¬ Temporal.Consistent T := by
  obtain ⟨e1, e2⟩ := mirroring_ok e
  obtain ⟨f, hf, hm⟩ := hm
  have hax : axe f d = axe t.frame d := by cases d <;> [exact h.ok.ax f hf; exact h.ok.ay f hf]
  obtain ⟨i, hi⟩ := List.mem_iff_getElem?.mp hf
  have hi' := getElem?_some_lt hi
  have hl := e2.length_eq
  have hg := e2.get hi' (by rw [← hl]; exact hi')
  simp only [List.get_eq_getElem] at hg
  rw [List.getElem?_eq_getElem hi'] at hi
  rw [Option.some.inj hi] at hg
  have haz : a ≤ z := Axis.head_le_last (Mirror.axe_inc (h.ok.wf f hf).loose d) (by rw [hax]; exact he.first) (by rw [hax]; exact he.last)
  have hb := (Mirror.C194_lines_before (h.ok.wf f hf) hm (by rw [hax]; exact he) hp (by linarith) hg (b := a) (by rw [hax]; exact List.mem_of_head? he.first)
    (le_of_lt hlt) (fun x hx _ => by
      rw [hax] at hx
      obtain ⟨q, hq⟩ := List.mem_iff_getElem?.mp hx
      rw [he.step q x hq]
      have := mul_nonneg (Nat.cast_nonneg (α := Rat) q) he.pos.le
      linarith) (k := k) (by rw [hax]; exact hk) 0).mpr (by push_cast; omega)
  intro hc
  have hgm : T.fields[i]'(by rw [← hl]; exact hi') ∈ T.fields := List.getElem_mem _
  have hax' : axe (T.fields[i]'(by rw [← hl]; exact hi')) d = axe t.frame d := by
    cases d
    · rw [show axe (T.fields[i]'(by rw [← hl]; exact hi')) .x = (T.fields[i]'(by rw [← hl]; exact hi')).ax from rfl, hc.ax _ hgm, e1]; rfl
    · rw [show axe (T.fields[i]'(by rw [← hl]; exact hi')) .y = (T.fields[i]'(by rw [← hl]; exact hi')).ay from rfl, hc.ay _ hgm, e1]; rfl
  rw [hax'] at hb
  obtain ⟨q, hq⟩ := List.mem_iff_getElem?.mp hb
  have h3 := he.step q _ hq
  have := mul_nonneg (Nat.cast_nonneg (α := Rat) q) he.pos.le
  push_cast at h3
  linarith

/-- Mirroring an empty record is refused. -/
theorem C210_empty {main : Bool} {d : Dir} {pos coef : Rat} {inds : Option Int} {interp : Interp} (h : t.fields = []) :
    mirroring main t d pos inds coef interp = .error .indexError := by
  unfold mirroring
  rw [h]; rfl

/-! ### examples -/

/-- A record of two fields on an even grid. -/
def evenly : TF where
  ax := [0, 1, 2]
  ay := [0, 3]
  ux := Sym.m
  uy := Sym.mm
  times := [0, 2]
  ut := Sym.s
  fields := [Mirror.demo, Mirror.whole]
  nd := false

theorem evenly_record : SRecord evenly Sym.s := by
  refine ⟨?_, by decide +kernel, by simp [evenly], ?_, by decide +kernel, by decide +kernel⟩
  · refine ⟨rfl, ?_, ?_, ?_, ?_, ?_⟩ <;> intro f hf <;> simp only [evenly, List.mem_cons, List.not_mem_nil, or_false] at hf <;>
      rcases hf with rfl | rfl <;> first | exact Mirror.demo_wf | exact Mirror.whole_wf | rfl
  · intro f hf
    simp only [evenly, List.mem_cons, List.not_mem_nil, or_false] at hf
    rcases hf with rfl | rfl <;> rfl

example : (extend evenly 1 0 0 1).map (fun T => (T.ax, T.ay, T.times)) = .ok ([-1, 0, 1, 2], [-3, 0, 3], [0, 2]) := by decide +kernel

example : (extend evenly 1 0 0 1).map (fun T => T.fields.map fun f => [f.cell 0 1, f.cell 1 1, f.cell 3 2]) =
    .ok [[none, some 1, none], [none, some 1, some 13]] := by decide +kernel

example : (mirroring true evenly .x (-1/2) none 2 .none).map (fun T => (T.ax, T.fields.map fun f => (f.ax, f.cell 1 0))) =
    .ok ([0, 1, 2], [([-2, -1, 0, 1, 2], some 2), ([-2, -1, 0, 1, 2], some 2)]) := by decide +kernel

-- the hypotheses of C210_grid_violated
example : (∃ f ∈ evenly.fields, ∀ x y, ¬ f.Reads x y none) ∧ EvenAxis (axe evenly.frame .x) 0 2 1 ∧
    (-1/2 : Rat) = 0 + ((-1 : ℤ) : Rat) * (1 / 2) ∧ Asked (axe evenly.frame .x).length none 2 ∧
    (∃ T, mirroring true evenly .x (-1/2) none 2 .none = .ok T) :=
  ⟨⟨Mirror.whole, by simp [evenly], Mirror.whole_unmasked⟩, Mirror.demo_even, by norm_num, .inl ⟨rfl, by decide⟩, Mirror.exists_ok (by decide +kernel)⟩

end IMT.Trace
