import Verif.Spatial.PowerModel
import Verif.Spatial.Algebra
import Verif.Quant.Props

/-! C376: powers of a collection of fields. -/

namespace IMT.Spatial

open Quant (MapsS)

theorem tight_maps {φ : Rat → Rat} {f g : SF} (hf : f.WF) (h : MapsS f g φ) (ht : Tight f) : Tight g := by
  have ax : ∀ x, x ∈ g.ax → x ∈ f.ax := by
    intro x hx
    obtain ⟨y, r, hr⟩ := (Probe.mem_ax h.1).1 hx
    obtain ⟨r0, h0, -⟩ := (h.2.1 _ _ _).1 hr
    exact (Probe.mem_ax hf).2 ⟨_, _, h0⟩
  have ay : ∀ x, x ∈ g.ay → x ∈ f.ay := by
    intro x hx
    obtain ⟨y, r, hr⟩ := (Probe.mem_ay h.1).1 hx
    obtain ⟨r0, h0, -⟩ := (h.2.1 _ _ _).1 hr
    exact (Probe.mem_ay hf).2 ⟨_, _, h0⟩
  have hs : ∀ {x y v}, f.Reads x y (some v) → g.Reads x y (some (φ v)) := fun h' => (h.2.1 _ _ _).2 ⟨_, h', rfl⟩
  refine ⟨fun x hx => ?_, fun y hy => ?_⟩
  · obtain ⟨⟨a, b, c, h1, h2⟩, a', b', c', h3, h4⟩ := ht.1 x (ax x hx)
    exact ⟨⟨a, b, _, hs h1, h2⟩, a', b', _, hs h3, h4⟩
  · obtain ⟨⟨a, b, c, h1, h2⟩, a', b', c', h3, h4⟩ := ht.2 y (ay y hy)
    exact ⟨⟨a, b, _, hs h1, h2⟩, a', b', _, hs h3, h4⟩

theorem pow_maps {f : SF} (hf : f.WF) (n : Nat) : MapsS f (f.pow n) (· ^ n) := by
  refine ⟨⟨hf.incx, hf.incy, hf.nex, hf.ney, hf.vx, hf.vy, hf.mx, hf.my, ?_⟩, ?_, rfl, rfl⟩
  · intro i j hi hj h
    have hm := SF.Reads.cellMask hf hi hj
    show f.mask.get i j = true
    cases hc : f.cell i j with
    | none => rw [hm, hc]; rfl
    | some v =>
      rw [hc] at hm
      simp [SF.pow, SF.powN, hm, hc] at h
  · refine SF.reads_map (f := f) (g := f.pow n) rfl rfl (fun s => s.map (· ^ n)) fun i j _ _ => ?_
    unfold SF.pow SF.powN SF.cell
    simp only
    split <;> rfl

theorem powLoop_spec (n : Nat) (u v w : Sym) (fs : List SF) (hf : ∀ f ∈ fs, f.WF ∧ PosUnits f ∧ (f.ux = u ∧ f.uy = v ∧ f.uv = w) ∧ Tight f) (acc t : SP)
    (ha : acc.fields ≠ [] → acc.ux = u ∧ acc.uy = v ∧ acc.uv = w.npow n) (h : powLoop n acc fs = .ok t) :
    ∃ gs, t.fields = acc.fields ++ gs ∧ List.Forall₂ (fun f g => MapsS f g (· ^ n) ∧ g.uv = w.npow n) fs gs ∧
      (t.fields ≠ [] → t.ux = u ∧ t.uy = v ∧ t.uv = w.npow n) := by
  induction fs generalizing acc with
  | nil =>
    simp only [powLoop, Except.ok.injEq] at h
    subst h
    exact ⟨[], by simp, .nil, ha⟩
  | cons f fs ih =>
    obtain ⟨wf, pu, ⟨e1, e2, e3⟩, ht⟩ := hf f (by simp)
    unfold powLoop at h
    cases hA : addField acc (f.pow n) with
    | mk s o =>
      obtain ⟨f', o⟩ := o
      rw [hA] at h
      cases o with
      | error e => cases h
      | ok o =>
        simp only at h
        have tm := pow_maps wf n
        have e3' : (f.pow n).uv = w.npow n := by rw [← e3]; rfl
        have pu' : PosUnits (f.pow n) := ⟨pu.1, pu.2.1, pow_pos pu.2.2 n⟩
        obtain ⟨g, k1, k2, k3, k4, k5, k6, k7, k8, k9⟩ := add_tight (s := acc) (f := f.pow n) tm.1 pu' (tight_maps wf tm ht)
          (fun hn => by obtain ⟨a1, a2, a3⟩ := ha hn; exact ⟨e1.trans a1.symm, e2.trans a2.symm, e3'.trans a3.symm⟩) hA
        obtain ⟨gs, m1, m2, m3⟩ := ih (fun f hf' => hf f (by simp [hf'])) s (fun _ => ⟨k3.trans e1, k4.trans e2, k5.trans e3'⟩) h
        exact ⟨g :: gs, by rw [m1, k1]; simp, .cons ⟨⟨k9, fun x y r => (k2 x y r).trans (tm.2.1 x y r), k6, k7⟩, k8.trans e3'⟩ m2, m3⟩

/-- C376: whenever the power of a collection with a natural exponent is computed, it has as many fields, on the same grids and with the same masked points,
each value being raised, and so is the unit of the values. -/
theorem C376_power_partial {s t : SP} (hs : Good s) (n : Nat) (h : powAll s n = .ok t) :
    List.Forall₂ (fun f g => MapsS f g (· ^ n)) s.fields t.fields ∧
    (s.fields ≠ [] → t.ux = s.ux ∧ t.uy = s.uy ∧ t.uv.size = s.uv.size ^ n ∧ t.uv.len = n * s.uv.len ∧ t.uv.time = n * s.uv.time ∧ t.uv.mass = n * s.uv.mass) := by
  obtain ⟨gs, h1, h2, h3⟩ := powLoop_spec n s.ux s.uy s.uv s.fields hs SP.empty t (fun h => absurd rfl h) h
  simp only [SP.empty, List.nil_append] at h1
  refine ⟨by rw [h1]; exact h2.imp fun f g h => h.1, fun hn => ?_⟩
  have hne : t.fields ≠ [] := by
    intro e
    rw [h1] at e
    rw [e] at h2
    cases hq : s.fields with
    | nil => exact hn hq
    | cons a l => rw [hq] at h2; cases h2
  obtain ⟨a, b, c⟩ := h3 hne
  rw [a, b, c]
  exact ⟨rfl, rfl, rfl, rfl, rfl, rfl⟩

/-! ### success -/

/-- A field with several columns and several rows. -/
def Wide (f : SF) : Prop := (∃ x ∈ f.ax, ∃ x' ∈ f.ax, x < x') ∧ ∃ y ∈ f.ay, ∃ y' ∈ f.ay, y < y'

theorem past_first {l : List Rat} (hl : Inc l) {x x' x'' : Rat} {i : Nat} (hx : x ∈ l) (h : x < x') (hi : l[i]? = some x'') (h' : x' ≤ x'') : ∃ k, i = k + 1 := by
  cases i with
  | succ k => exact ⟨k, rfl⟩
  | zero =>
    cases l with
    | nil => cases hi
    | cons a l =>
      cases hi
      unfold Inc at hl
      rw [List.pairwise_cons] at hl
      rcases List.mem_cons.1 hx with rfl | hx
      · exact absurd (h.trans_le h') (lt_irrefl _)
      · exact absurd ((hl.1 x hx).trans (h.trans_le h')) (lt_irrefl _)

theorem border_ok {f : SF} (hf : f.WF) (ht : Tight f) (hw : Wide f) : ∃ g, border f = (g, .ok ⟨⟩) := by
  unfold border
  by_cases hm : ∃ x y, f.Reads x y none
  · obtain ⟨⟨x, hx, x', hx', h1⟩, y, hy, y', hy', h2⟩ := hw
    obtain ⟨-, a, b, v, ⟨i, j, hi, hj, hc⟩, h3⟩ := ht.1 x' hx'
    obtain ⟨-, a', b', v', ⟨i', j', hi', hj', hc'⟩, h4⟩ := ht.2 y' hy'
    obtain ⟨k, rfl⟩ := past_first hf.incx hx h1 hi h3
    obtain ⟨k', rfl⟩ := past_first hf.incy hy h2 hj' h4
    obtain ⟨g, hg⟩ := SF.C19_soft_returns_partial hf hm ⟨k, j, v, hc, (List.getElem?_eq_some_iff.1 hi).1, (List.getElem?_eq_some_iff.1 hj).1⟩
      ⟨i', k', v', hc', (List.getElem?_eq_some_iff.1 hi').1, (List.getElem?_eq_some_iff.1 hj').1⟩
    rw [hg]
    exact ⟨g, rfl⟩
  · have : f.cropMaskedSoft = .ok none := by
      unfold SF.cropMaskedSoft
      rw [if_pos]
      by_contra h
      obtain ⟨i, j, hi, hj, hmij⟩ := (SF.anyMasked_iff f).mp (by simpa using h)
      rw [hf.mx] at hi
      rw [hf.my] at hj
      refine hm ⟨f.ax[i], f.ay[j], i, j, List.getElem?_eq_getElem hi, List.getElem?_eq_getElem hj, ?_⟩
      unfold SF.cell; rw [if_pos hmij]
    rw [this]
    exact ⟨f, rfl⟩

theorem change_ok (f : SF) (w : SF.Which) {u : Sym} (h : (match w with | .x => f.ux | .y => f.uy | .values => f.uv) = u) : ∃ g, f.changeUnit w u = .ok g ∧
    (w ≠ .x → g.ux = f.ux) ∧ (w ≠ .y → g.uy = f.uy) ∧ (w ≠ .values → g.uv = f.uv) := by
  subst h
  have hr : ∀ v : Sym, v.Compat v := fun v => ⟨rfl, rfl, rfl⟩
  cases w <;> simp [SF.changeUnit, Unum.asUnit, hr, Except.map, SF.setValues]

theorem convert_ok (s : SP) {f : SF} (h : f.ux = s.ux ∧ f.uy = s.uy ∧ f.uv = s.uv) : ∃ g, convert s f = (g, .ok ⟨⟩) := by
  obtain ⟨f1, h1, -, a1, a2⟩ := change_ok f .x h.1
  obtain ⟨f2, h2, -, -, b2⟩ := change_ok f1 .y ((a1 (by decide)).trans h.2.1)
  obtain ⟨f3, h3, -⟩ := change_ok f2 .values ((b2 (by decide)).trans ((a2 (by decide)).trans h.2.2))
  unfold convert
  simp only [h1, h2, h3]
  exact ⟨f3, rfl⟩

/-- `add_field` accepts a tight field with several rows and columns that is in the units of the collection. -/
theorem add_ok (s : SP) {f : SF} (hf : f.WF) (hu : PosUnits f) (ht : Tight f) (hw : Wide f) (he : s.fields ≠ [] → f.ux = s.ux ∧ f.uy = s.uy ∧ f.uv = s.uv) :
    ∃ s' f', addField s f = (s', f', .ok ⟨⟩) := by
  unfold addField
  by_cases h0 : s.fields = []
  · unfold inUnits
    rw [if_pos (by rw [h0]; rfl)]
    obtain ⟨g, hg⟩ := border_ok hf ht hw
    simp only [hg]
    exact ⟨_, _, rfl⟩
  · unfold inUnits
    rw [if_neg fun e => h0 (List.length_eq_zero_iff.mp e)]
    obtain ⟨u1, u2, u3⟩ := he h0
    obtain ⟨f1, hc⟩ := convert_ok s ⟨u1, u2, u3⟩
    obtain ⟨w, pu, e1, e2, e3, hph⟩ := convert_spec hf hu (by rw [← u1, ← u2, ← u3]; exact hu) hc
    have hr := reads_of_phys hu (e1.trans u1.symm) (e2.trans u2.symm) (e3.trans u3.symm) hph
    have ax : ∀ x, x ∈ f1.ax ↔ x ∈ f.ax := fun x => by rw [Probe.mem_ax w, Probe.mem_ax hf]; simp only [hr]
    have ay : ∀ x, x ∈ f1.ay ↔ x ∈ f.ay := fun x => by rw [Probe.mem_ay w, Probe.mem_ay hf]; simp only [hr]
    have ht' : Tight f1 := by
      unfold Tight
      simp only [hr, ax, ay]
      exact ht
    have hw' : Wide f1 := by
      unfold Wide
      simp only [ax, ay]
      exact hw
    obtain ⟨g, hg⟩ := border_ok w ht' hw'
    simp only [hc, hg]
    exact ⟨_, _, rfl⟩

theorem powLoop_ok (n : Nat) (u v w : Sym) (fs : List SF)
    (hf : ∀ f ∈ fs, f.WF ∧ PosUnits f ∧ (f.ux = u ∧ f.uy = v ∧ f.uv = w) ∧ Tight f ∧ Wide f) (acc : SP)
    (ha : acc.fields ≠ [] → acc.ux = u ∧ acc.uy = v ∧ acc.uv = w.npow n) : ∃ t, powLoop n acc fs = .ok t := by
  induction fs generalizing acc with
  | nil => exact ⟨acc, rfl⟩
  | cons f fs ih =>
    obtain ⟨wf, pu, ⟨e1, e2, e3⟩, ht, hw⟩ := hf f (by simp)
    have tm := pow_maps wf n
    have e3' : (f.pow n).uv = w.npow n := by rw [← e3]; rfl
    have pu' : PosUnits (f.pow n) := ⟨pu.1, pu.2.1, pow_pos pu.2.2 n⟩
    have he : acc.fields ≠ [] → (f.pow n).ux = acc.ux ∧ (f.pow n).uy = acc.uy ∧ (f.pow n).uv = acc.uv := fun hn => by
      obtain ⟨a1, a2, a3⟩ := ha hn; exact ⟨e1.trans a1.symm, e2.trans a2.symm, e3'.trans a3.symm⟩
    obtain ⟨s', f', hA⟩ := add_ok acc tm.1 pu' (tight_maps wf tm ht) hw he
    obtain ⟨g, k1, k2, k3, k4, k5, -⟩ := add_tight tm.1 pu' (tight_maps wf tm ht) he hA
    unfold powLoop
    simp only [hA]
    exact ih (fun f hf' => hf f (by simp [hf'])) s' fun _ => ⟨k3.trans e1, k4.trans e2, k5.trans e3'⟩

theorem mulLoop_ok (q : Rat) (u v w : Sym) (fs : List SF)
    (hf : ∀ f ∈ fs, f.WF ∧ PosUnits f ∧ (f.ux = u ∧ f.uy = v ∧ f.uv = w) ∧ Tight f ∧ Wide f) (acc : SP)
    (ha : acc.fields ≠ [] → acc.ux = u ∧ acc.uy = v ∧ acc.uv = w) : ∃ t, mulLoop q acc fs = .ok t := by
  induction fs generalizing acc with
  | nil => exact ⟨acc, rfl⟩
  | cons f fs ih =>
    obtain ⟨wf, pu, ⟨e1, e2, e3⟩, ht, hw⟩ := hf f (by simp)
    have tm := mul_times wf q
    have he : acc.fields ≠ [] → (f.mulNum q).ux = acc.ux ∧ (f.mulNum q).uy = acc.uy ∧ (f.mulNum q).uv = acc.uv := fun hn => by
      obtain ⟨a1, a2, a3⟩ := ha hn; exact ⟨e1.trans a1.symm, e2.trans a2.symm, e3.trans a3.symm⟩
    obtain ⟨s', f', hA⟩ := add_ok acc (f := f.mulNum q) tm.1 pu (tight_times wf tm ht) hw he
    obtain ⟨g, k1, k2, k3, k4, k5, -⟩ := add_tight (f := f.mulNum q) tm.1 pu (tight_times wf tm ht) he hA
    unfold mulLoop
    simp only [hA]
    exact ih (fun f hf' => hf f (by simp [hf'])) s' fun _ => ⟨k3.trans e1, k4.trans e2, k5.trans e3⟩

/-- C376: the power of a collection of fields with several rows and columns is computed. -/
theorem C376_computed_partial {s : SP} (hs : Good s) (hw : ∀ f ∈ s.fields, Wide f) (n : Nat) : ∃ t, powAll s n = .ok t :=
  powLoop_ok n s.ux s.uy s.uv s.fields (fun f hf => ⟨(hs f hf).1, (hs f hf).2.1, (hs f hf).2.2.1, (hs f hf).2.2.2, hw f hf⟩) SP.empty fun h => absurd rfl h

/-- C277: the product of a collection of fields with several rows and columns is computed. -/
theorem C277_computed_partial {s : SP} (hs : Good s) (hw : ∀ f ∈ s.fields, Wide f) (q : Rat) : ∃ t, mulAll s q = .ok t :=
  mulLoop_ok q s.ux s.uy s.uv s.fields (fun f hf => ⟨(hs f hf).1, (hs f hf).2.1, (hs f hf).2.2.1, (hs f hf).2.2.2, hw f hf⟩) SP.empty fun h => absurd rfl h

theorem border_line {f : SF} (hf : f.WF) {x0 : Rat} (hx : f.ax = [x0]) {y y' v : Rat} (h0 : f.Reads x0 y none) (h1 : f.Reads x0 y' (some v)) :
    border f = (f, .error .valueError) := by
  obtain ⟨i, j, hi, hj, hc⟩ := h1
  have hi0 : i = 0 := by
    rw [hx] at hi
    cases i with
    | zero => rfl
    | succ i => simp at hi
  subst hi0
  have hjl : j < f.ay.length := (List.getElem?_eq_some_iff.1 hj).1
  have hk : f.mask.get 0 j = false := by
    unfold SF.cell at hc
    by_cases hk : f.mask.get 0 j = true
    · rw [if_pos hk] at hc; cases hc
    · exact Bool.eq_false_iff.2 hk
  have ny : f.mask.ny = f.ay.length := hf.my
  have nx : f.mask.nx = 1 := by rw [hf.mx, hx]; rfl
  have r0 : f.rowValid 0 = true := by
    unfold SF.rowValid
    rw [List.any_eq_true]
    exact ⟨j, List.mem_range.2 (by rw [ny]; exact hjl), by rw [hk]; rfl⟩
  have e1 : SF.firstLast ((List.range f.mask.nx).filter f.rowValid) = .ok (0, 0) := by
    rw [nx]
    simp [List.range_succ, r0, SF.firstLast]
  have hc0 : j ∈ (List.range f.mask.ny).filter f.colValid := by
    rw [List.mem_filter]
    refine ⟨List.mem_range.2 (by rw [ny]; exact hjl), ?_⟩
    unfold SF.colValid
    rw [List.any_eq_true]
    exact ⟨0, List.mem_range.2 (by rw [nx]; exact one_pos), by rw [hk]; rfl⟩
  obtain ⟨a, b, e2⟩ : ∃ a b, SF.firstLast ((List.range f.mask.ny).filter f.colValid) = .ok (a, b) := by
    generalize (List.range f.mask.ny).filter f.colValid = l at hc0
    cases l with
    | nil => cases hc0
    | cons a l =>
      unfold SF.firstLast
      simp only [List.head?_cons]
      rw [List.getLast?_eq_some_getLast (List.cons_ne_nil a l)]
      exact ⟨_, _, rfl⟩
  have hm : ¬ f.anyMasked = false := fun h => SF.no_mask_reads hf.loose h x0 y h0
  unfold border SF.cropMaskedSoft
  rw [if_neg hm]
  unfold SF.softCrop
  simp only [e1, e2]
  unfold SF.cropInd
  simp [Axis.cropIndsInd, Except.map]

/-- C376 and C277 are violated: a collection that begins with a field of one column, with a masked point between its values, is neither raised to a power nor
multiplied by a number: ValueError. -/
theorem C376_line_violated {s : SP} {f : SF} {fs : List SF} (hs : s.fields = f :: fs) (hf : f.WF) {x0 : Rat} (hx : f.ax = [x0]) {y y' v : Rat}
    (h0 : f.Reads x0 y none) (h1 : f.Reads x0 y' (some v)) (n : Nat) (q : Rat) : powAll s n = .error .valueError ∧ mulAll s q = .error .valueError := by
  have tp := pow_maps hf n
  have tm := mul_times hf q
  have bp : border (f.pow n) = (f.pow n, .error .valueError) :=
    border_line tp.1 hx ((tp.2.1 _ _ _).2 ⟨_, h0, rfl⟩) ((tp.2.1 _ _ _).2 ⟨_, h1, rfl⟩)
  have bm : border (f.mulNum q) = (f.mulNum q, .error .valueError) :=
    border_line tm.1 hx ((tm.2 _ _ _).2 ⟨_, h0, rfl⟩) ((tm.2 _ _ _).2 ⟨_, h1, rfl⟩)
  constructor
  · unfold powAll
    rw [hs]
    simp only [powLoop, addField, inUnits, SP.empty, List.length_nil, if_true, bp]
  · unfold mulAll
    rw [hs]
    simp only [mulLoop, addField, inUnits, SP.empty, List.length_nil, if_true, bm]

example : ∃ s, Built s ∧ s.fields ≠ [] ∧ (powAll s 2).toOption.isSome := by
  refine ⟨_, .add .empty SF.bordered_WF (by unfold PosUnits; decide +kernel) (f' := (addField SP.empty SF.bordered).2.1) (s' := (addField SP.empty SF.bordered).1) rfl, ?_, ?_⟩
  · decide +kernel
  · decide +kernel

/-- Two columns, the first one masked, the other one with a masked point between two values. -/
def thin : SF := ⟨[0, 1], [0, 1, 2], ⟨2, 3, fun _ j => some j⟩, ⟨2, 3, fun i j => decide (i = 0) || decide (j = 1)⟩, Sym.one, Sym.one, Sym.one⟩

theorem thin_WF : thin.WF :=
  ⟨by unfold Inc thin; decide +kernel, by unfold Inc thin; decide +kernel, by simp [thin], by simp [thin], rfl, rfl, rfl, rfl, fun _ _ _ _ h => (by cases h)⟩

/-- Such a collection is made by `add_field`. -/
example : ∃ s, Built s ∧ powAll s 2 = .error .valueError ∧ mulAll s 3 = .error .valueError := by
  refine ⟨_, .add .empty thin_WF (by unfold PosUnits; decide +kernel) (f' := (addField SP.empty thin).2.1) (s' := (addField SP.empty thin).1) rfl, ?_⟩
  constructor <;> rfl

end IMT.Spatial
