import Verif.Back.Props

/-! C237: subtraction of the background. -/

namespace IMT.Back

open Temporal (TF)
open Turb (SRecord)
open Reshape (allSome_some allSome_none)

/-! ### specification -/

/-- The value differs from the background by less than the noise. -/
def Near (noise : Rat) (v b : Option Rat) : Prop := ∃ a c, v = some a ∧ b = some c ∧ |a - c| < noise

/-- The mean of the values shown by a field, each point counting once. -/
def MeanOf (f : SF) (m : Rat) : Prop :=
  ∃ L : List ((Rat × Rat) × Rat), L.Nodup ∧ L ≠ [] ∧ (∀ q, q ∈ L ↔ f.Reads q.1.1 q.1.2 (some q.2)) ∧ m = (L.map Prod.snd).sum / L.length

/-! ### lemmas -/

theorem isBack_iff (noise : Rat) (v b : Option Rat) : isBack noise v b = true ↔ Near noise v b := by
  unfold isBack Near
  cases v with
  | none => simp [ltF]
  | some a =>
    cases b with
    | none => simp [ltF]
    | some c =>
      simp only [ltF, Option.map_some, Bool.and_eq_true, decide_eq_true_eq, Option.some.injEq, abs_lt]
      constructor
      · rintro ⟨h1, h2⟩; exact ⟨a, c, rfl, rfl, by linarith, by linarith⟩
      · rintro ⟨_, _, rfl, rfl, h1, h2⟩; exact ⟨by linarith, by linarith⟩

variable {t : TF} {u : Sym} {bg : SF}

theorem clear_cell (gauss : Grid (Option Rat) → Grid (Option Rat)) (noise : Rat) (blend : Bool) (bg f : SF) (fill : Option Rat) (i j : Nat) :
    (clear gauss noise blend bg f fill).cell i j = if isBack noise (f.cell i j) (bg.cell i j) then fill
      else if blend then (blended gauss noise f.values bg.values (meanSF bg) fill).get i j else f.cell i j := by
  unfold clear SF.setValues SF.cell
  simp only [Grid.map]
  split_ifs with h1 h2 h3 <;> simp_all

theorem substract_ok (h : SRecord t u) (hb : bg.WF) (hax : bg.ax = t.ax) (hay : bg.ay = t.ay) (gauss : Grid (Option Rat) → Grid (Option Rat))
    (noise : Rat) (blend : Bool) (fill : Option Rat) :
    substract gauss t bg noise blend fill = .ok { t with fields := t.fields.map fun f => clear gauss noise blend bg f (fill.orElse fun _ => meanSF bg) } := by
  unfold substract
  rw [if_pos]
  rw [List.all_eq_true]
  intro f hf
  rw [decide_eq_true_eq, (h.ok.wf f hf).vx, (h.ok.wf f hf).vy, hb.vx, hb.vy, h.ok.ax f hf, h.ok.ay f hf, hax, hay]
  exact ⟨rfl, rfl⟩

theorem shown_list {f : SF} (hf : f.WF) : ∃ L : List ((Rat × Rat) × Rat), L.Nodup ∧ (∀ q, q ∈ L ↔ f.Reads q.1.1 q.1.2 (some q.2)) ∧
    (f.indexPairs.filter fun q => !f.mask.get q.1 q.2).map (fun q => f.cell q.1 q.2) = (L.map Prod.snd).map some := by
  have hidx : f.indexPairs.Nodup := by
    unfold SF.indexPairs
    rw [List.nodup_flatMap]
    refine ⟨fun i _ => List.Nodup.map (fun a b h => (Prod.mk.inj h).2) List.nodup_range, ?_⟩
    refine List.Pairwise.imp ?_ List.nodup_range
    intro a b hab c hc hc'
    rw [List.mem_map] at hc hc'
    obtain ⟨_, _, rfl⟩ := hc
    obtain ⟨_, _, e⟩ := hc'
    exact hab (Prod.mk.inj e).1.symm
  have hin : ∀ q ∈ f.indexPairs.filter fun q => !f.mask.get q.1 q.2, (q.1 < f.ax.length ∧ q.2 < f.ay.length) ∧ f.mask.get q.1 q.2 = false := by
    intro q hq
    rw [List.mem_filter] at hq
    exact ⟨(SF.mem_indexPairs f q.1 q.2).1 hq.1, by simpa using hq.2⟩
  have hsome : ∀ q ∈ f.indexPairs.filter fun q => !f.mask.get q.1 q.2, f.cell q.1 q.2 = some ((f.cell q.1 q.2).getD 0) := by
    intro q hq
    obtain ⟨⟨h1, h2⟩, h3⟩ := hin q hq
    cases hc : f.cell q.1 q.2 with
    | some v => rfl
    | none =>
      unfold SF.cell at hc
      rw [h3, if_neg (by simp)] at hc
      rw [hf.nan q.1 q.2 h1 h2 hc] at h3
      cases h3
  refine ⟨(f.indexPairs.filter fun q => !f.mask.get q.1 q.2).map fun q =>
    ((f.ax.getD q.1 0, f.ay.getD q.2 0), (f.cell q.1 q.2).getD 0), ?_, ?_, ?_⟩
  · refine List.Nodup.map_on ?_ (hidx.filter _)
    intro q hq q' hq' e
    obtain ⟨⟨h1, h2⟩, -⟩ := hin q hq
    obtain ⟨⟨h1', h2'⟩, -⟩ := hin q' hq'
    obtain ⟨e1, e2⟩ := Prod.mk.inj (Prod.mk.inj e).1
    have g1 : f.ax[q.1]? = some (f.ax.getD q.1 0) := by simp [List.getElem?_eq_getElem h1]
    have g1' : f.ax[q'.1]? = some (f.ax.getD q.1 0) := by rw [e1]; simp [List.getElem?_eq_getElem h1']
    have g2 : f.ay[q.2]? = some (f.ay.getD q.2 0) := by simp [List.getElem?_eq_getElem h2]
    have g2' : f.ay[q'.2]? = some (f.ay.getD q.2 0) := by rw [e2]; simp [List.getElem?_eq_getElem h2']
    exact Prod.ext (hf.incx.idx_inj' g1 g1') (hf.incy.idx_inj' g2 g2')
  · rintro ⟨⟨x, y⟩, v⟩
    rw [List.mem_map]
    constructor
    · rintro ⟨q, hq, e⟩
      obtain ⟨⟨h1, h2⟩, -⟩ := hin q hq
      obtain ⟨e1, e2⟩ := Prod.mk.inj (Prod.mk.inj e).1
      refine ⟨q.1, q.2, ?_, ?_, ?_⟩
      · rw [← e1]; simp [List.getElem?_eq_getElem h1]
      · rw [← e2]; simp [List.getElem?_eq_getElem h2]
      · rw [hsome q hq, (Prod.mk.inj e).2]
    · rintro ⟨i, j, e1, e2, e3⟩
      have e1 : f.ax[i]? = some x := e1
      have e2 : f.ay[j]? = some y := e2
      have e3 : f.cell i j = some v := e3
      refine ⟨(i, j), ?_, ?_⟩
      · rw [List.mem_filter]
        refine ⟨(SF.mem_indexPairs f i j).2 ⟨(List.getElem?_eq_some_iff.1 e1).1, (List.getElem?_eq_some_iff.1 e2).1⟩, ?_⟩
        unfold SF.cell at e3
        split_ifs at e3 with hm
        simpa using hm
      · simp [e1, e2, e3]
  · rw [List.map_map, List.map_map]
    exact List.map_congr_left fun q hq => hsome q hq

theorem mean_of {f : SF} (hf : f.WF) (m : Rat) : meanSF f = some m ↔ MeanOf f m := by
  obtain ⟨L, h1, h2, h3⟩ := shown_list hf
  unfold meanSF
  rw [h3, allSome_some.2 rfl]
  constructor
  · intro h
    refine ⟨L, h1, ?_, h2, ?_⟩
    · rintro rfl; cases h
    · cases L with
      | nil => cases h
      | cons a L =>
        have h : some (mean _) = some m := h
        rw [← Option.some.inj h]
        simp [mean]
  · rintro ⟨L', g1, g2, g3, rfl⟩
    have hp : L'.Perm L := (List.perm_ext_iff_of_nodup g1 h1).2 fun q => by rw [g3, h2]
    have hL : L ≠ [] := fun e => g2 (by rw [e] at hp; exact hp.eq_nil)
    obtain ⟨a, l, rfl⟩ := List.exists_cons_of_ne_nil hL
    show some (mean _) = _
    rw [hp.length_eq, (hp.map Prod.snd).sum_eq]
    simp [mean]

/-! ### C237 -/

/-- The value that replaces the background: the given one, or the mean of the background. -/
def Filling (bg : SF) (fill : Option Rat) (c : Rat) : Prop := fill = some c ∨ fill = none ∧ MeanOf bg c

theorem filling {bg : SF} (hb : bg.WF) {fill : Option Rat} {c : Rat} (h : Filling bg fill c) : (fill.orElse fun _ => meanSF bg) = some c := by
  rcases h with rfl | ⟨rfl, h⟩
  · rfl
  · exact (mean_of hb c).2 h

/-- **C237** Every point of every field that differs from the background by less than the noise takes the filling value: the one given or else
the mean of the background; the times are kept.  With blending or without. -/
theorem C237_background (h : SRecord t u) (hb : bg.WF) (hax : bg.ax = t.ax) (hay : bg.ay = t.ay) (gauss : Grid (Option Rat) → Grid (Option Rat))
    (noise : Rat) (blend : Bool) {fill : Option Rat} {c : Rat} (hc : Filling bg fill c) :
    ∃ T, substract gauss t bg noise blend fill = .ok T ∧ T.times = t.times ∧ T.ut = t.ut ∧ T.fields.length = t.fields.length ∧
      ∀ (k : Nat) f g, t.fields[k]? = some f → T.fields[k]? = some g → g.ax = f.ax ∧ g.ay = f.ay ∧ g.ux = f.ux ∧ g.uy = f.uy ∧ g.uv = f.uv ∧
        ∀ x y v b, f.Reads x y v → bg.Reads x y b → Near noise v b → g.Reads x y (some c) := by
  refine ⟨_, substract_ok h hb hax hay gauss noise blend fill, rfl, rfl, by simp, fun k f g hf hg => ?_⟩
  rw [filling hb hc] at hg
  simp only [List.getElem?_map, hf, Option.map_some, Option.some.injEq] at hg
  subst hg
  refine ⟨rfl, rfl, rfl, rfl, rfl, fun x y v b hv hbv hn => ?_⟩
  have hm := List.mem_of_getElem? hf
  obtain ⟨i, j, e1, e2, e3⟩ := hv
  refine ⟨i, j, e1, e2, ?_⟩
  have hb' := (reads_cell hb (by rw [hax, ← h.ok.ax f hm]; exact e1) (by rw [hay, ← h.ok.ay f hm]; exact e2)).1 hbv
  rw [clear_cell, if_pos]
  rw [isBack_iff, e3, hb']
  exact hn

/-- **C237** Without blending, every other point keeps its value, or its mask. -/
theorem C237_foreground_partial (h : SRecord t u) (hb : bg.WF) (hax : bg.ax = t.ax) (hay : bg.ay = t.ay)
    (gauss : Grid (Option Rat) → Grid (Option Rat)) (noise : Rat) (fill : Option Rat) {T : TF}
    (hT : substract gauss t bg noise false fill = .ok T) (k : Nat) (f g : SF) (hf : t.fields[k]? = some f) (hg : T.fields[k]? = some g)
    (x y : Rat) (v b : Option Rat) (hv : f.Reads x y v) (hbv : bg.Reads x y b) (hn : ¬ Near noise v b) : g.Reads x y v := by
  rw [substract_ok h hb hax hay] at hT
  cases hT
  simp only [List.getElem?_map, hf, Option.map_some, Option.some.injEq] at hg
  subst hg
  have hm := List.mem_of_getElem? hf
  obtain ⟨i, j, e1, e2, e3⟩ := hv
  refine ⟨i, j, e1, e2, ?_⟩
  have hb' := (reads_cell hb (by rw [hax, ← h.ok.ax f hm]; exact e1) (by rw [hay, ← h.ok.ay f hm]; exact e2)).1 hbv
  rw [clear_cell, if_neg, if_neg (by simp)]
  · exact e3
  · rw [isBack_iff, e3, hb']
    exact hn

/-- **C237** With blending, which is the default, one masked point in a field erases every perturbation of this field: all that is not
background becomes masked.  The filter is any one that gives NaN where it sees only NaN. -/
theorem C237_blend_violated (h : SRecord t u) (hb : bg.WF) (hax : bg.ax = t.ax) (hay : bg.ay = t.ay)
    (gauss : Grid (Option Rat) → Grid (Option Rat)) (hgauss : ∀ n m i j, (gauss (Grid.const n m none)).get i j = none)
    (noise : Rat) (fill : Option Rat) {T : TF}
    (hT : substract gauss t bg noise true fill = .ok T) (k : Nat) (f g : SF) (hf : t.fields[k]? = some f) (hg : T.fields[k]? = some g)
    {x0 y0 : Rat} (hmask : f.Reads x0 y0 none)
    (x y : Rat) (v b : Option Rat) (hv : f.Reads x y v) (hbv : bg.Reads x y b) (hn : ¬ Near noise v b) : g.Reads x y none := by
  rw [substract_ok h hb hax hay] at hT
  cases hT
  simp only [List.getElem?_map, hf, Option.map_some, Option.some.injEq] at hg
  subst hg
  have hm := List.mem_of_getElem? hf
  have hw := h.ok.wf f hm
  obtain ⟨i, j, e1, e2, e3⟩ := hv
  obtain ⟨i0, j0, m1, m2, m3⟩ := hmask
  refine ⟨i, j, e1, e2, ?_⟩
  have hb' := (reads_cell hb (by rw [hax, ← h.ok.ax f hm]; exact e1) (by rw [hay, ← h.ok.ay f hm]; exact e2)).1 hbv
  have hfm : foreMean noise f.values bg.values = none := by
    unfold foreMean
    rw [allSome_none.2]
    rw [List.mem_map]
    refine ⟨(i0, j0), ?_, m3⟩
    rw [List.mem_filter, List.mem_flatMap]
    refine ⟨⟨i0, ?_, ?_⟩, ?_⟩
    · rw [List.mem_range]
      show i0 < f.val.nx
      rw [hw.vx]; exact (List.getElem?_eq_some_iff.1 m1).1
    · rw [List.mem_map]
      refine ⟨j0, ?_, rfl⟩
      rw [List.mem_range]
      show j0 < f.val.ny
      rw [hw.vy]; exact (List.getElem?_eq_some_iff.1 m2).1
    · show (!isBack noise (f.cell i0 j0) _) = true
      rw [show f.cell i0 j0 = none from m3]
      simp [isBack, ltF]
  rw [clear_cell, if_neg, if_pos rfl]
  · unfold blended
    rw [hfm]
    show mix _ ((gauss ⟨f.values.nx, f.values.ny, fun i j => divF (subF (f.values.get i j) (meanSF bg)) none⟩).get i j) _ = none
    rw [show (fun i j => divF (subF (f.values.get i j) (meanSF bg)) none) = fun _ _ => none from by
      funext i j
      unfold divF
      split <;> simp_all]
    show mix _ ((gauss (Grid.const f.values.nx f.values.ny none)).get i j) _ = none
    rw [hgauss]
    unfold mix
    split <;> simp_all
  · rw [isBack_iff, e3, hb']
    exact hn

/-- One field of the record below. -/
def demoF (v : Rat) : SF :=
  { ax := [0, 1], ay := [0, 1], ux := Sym.m, uy := Sym.m, uv := Sym.one,
    val := ⟨2, 2, fun i j => some (if i + j = 0 then v else (i : Rat) + v / 10)⟩, mask := Grid.const 2 2 false }

/-- A record of three fields where one point changes, and its background. -/
def demo : TF :=
  { ax := [0, 1], ay := [0, 1], ux := Sym.m, uy := Sym.m, times := [0, 1, 2], ut := Sym.s, nd := true, fields := [demoF 0, demoF 50, demoF 1] }

def demoBg : SF :=
  { ax := [0, 1], ay := [0, 1], ux := Sym.m, uy := Sym.m, uv := Sym.one, val := ⟨2, 2, fun _ _ => some 1⟩, mask := Grid.const 2 2 false }

theorem demo_record : SRecord demo Sym.one := by
  have hwf : ∀ f ∈ demo.fields, f.WF ∧ f.ax = [0, 1] ∧ f.ay = [0, 1] ∧ f.ux = Sym.m ∧ f.uy = Sym.m ∧ f.uv = Sym.one := by
    intro f hf
    simp only [demo, List.mem_cons, List.not_mem_nil, or_false] at hf
    rcases hf with rfl | rfl | rfl <;>
      exact ⟨⟨by decide +kernel, by decide +kernel, by simp [demoF], by simp [demoF], rfl, rfl, rfl, rfl, fun i j _ _ h => by cases h⟩, rfl, rfl, rfl, rfl, rfl⟩
  exact ⟨⟨rfl, fun f hf => (hwf f hf).1, fun f hf => (hwf f hf).2.1, fun f hf => (hwf f hf).2.2.1, fun f hf => (hwf f hf).2.2.2.1,
    fun f hf => (hwf f hf).2.2.2.2.1⟩, by decide +kernel, by simp [demo], fun f hf => (hwf f hf).2.2.2.2.2, by decide +kernel, by decide +kernel⟩

example : SRecord demo Sym.one ∧ (∀ g, background demo 10 = .ok g → g.Reads 0 0 (some (1 / 2))) ∧ demoBg.WF ∧
    (∀ T, substract id demo demoBg 10 false none = .ok T → ∃ g, T.fields[1]? = some g ∧ g.Reads 0 0 (some 50) ∧ g.Reads 1 0 (some 1)) := by
  refine ⟨demo_record, ?_, ?_, ?_⟩
  · intro g hg
    have hl : loop 10 3 [0, 50, 1] = some (1 / 2) := by
      have hc : clip [0, 50, 1] = [0, 1] := by decide +kernel
      rw [loop, dif_neg (by rw [hc]; simp), hc, if_pos (by decide +kernel)]
      decide +kernel
    obtain ⟨g', e, a1, a2, hc⟩ := background_cells' (t := demo) (by decide +kernel) (by decide +kernel) (by decide) (by decide) 10
    rw [hg] at e
    cases e
    exact ⟨0, 0, by rw [a1]; rfl, by rw [a2]; rfl, by rw [hc]; exact hl⟩
  · exact ⟨by decide +kernel, by decide +kernel, by simp [demoBg], by simp [demoBg], rfl, rfl, rfl, rfl, fun i j _ _ h => by cases h⟩
  · intro T hT
    rw [show substract id demo demoBg 10 false none = .ok _ from if_pos (by decide +kernel)] at hT
    cases hT
    exact ⟨_, rfl, ⟨0, 0, rfl, rfl, by decide +kernel⟩, ⟨1, 0, rfl, rfl, by decide +kernel⟩⟩

end IMT.Back
