import Verif.Scalar.ArithModel
import Verif.Scalar.Import

/-!
Properties C16, C17, C18: arithmetic of scalar fields is pointwise arithmetic of readings.
-/

namespace IMT.SF

/-- Sum of two readings, masked as soon as one of them is (`c` converts the unit of the second). -/
def sumReading (c : Rat) : Option Rat → Option Rat → Option Rat
  | some a, some b => some (a + b * c)
  | _, _ => none

/-- Quotient of two readings: masked if one of them is, or if the divisor is zero. -/
def quotReading : Option Rat → Option Rat → Option Rat
  | some a, some b => if b = 0 then none else some (a / b)
  | _, _ => none

/-- Product of two readings. -/
def prodReading : Option Rat → Option Rat → Option Rat
  | some a, some b => some (a * b)
  | _, _ => none

/-! ### helper lemmas -/

theorem cell_of_mask_or {f g : SF} (hf : f.WF) (hg : g.WF) (hx : f.ax = g.ax) (hy : f.ay = g.ay)
    {op : Option Rat → Option Rat → Option Rat} (h0 : ∀ a, op none a = none) (h1 : ∀ a, op a none = none)
    {v : Grid (Option Rat)} {m : Grid Bool}
    {i j : Nat} (hi : i < f.ax.length) (hj : j < f.ay.length)
    (hv : v.get i j = op (f.cell i j) (g.cell i j)) (hm : m.get i j = (f.mask.get i j || g.mask.get i j)) :
    (if m.get i j then none else v.get i j) = op (f.cell i j) (g.cell i j) := by
  rw [hm, hv, Reads.cellMask hf hi hj, Reads.cellMask hg (hx ▸ hi) (hy ▸ hj)]
  cases f.cell i j <;> cases g.cell i j <;> simp [h0, h1]

theorem reads_pointwise {f g h : SF} (hf : f.WF) (hx : f.ax = g.ax) (hy : f.ay = g.ay)
    (hhx : h.ax = f.ax) (hhy : h.ay = f.ay) (op : Option Rat → Option Rat → Option Rat)
    (hc : ∀ i j, i < f.ax.length → j < f.ay.length → h.cell i j = op (f.cell i j) (g.cell i j))
    (x y : Rat) (r : Option Rat) :
    h.Reads x y r ↔ ∃ a b, f.Reads x y a ∧ g.Reads x y b ∧ r = op a b := by
  constructor
  · rintro ⟨i, j, hi, hj, rfl⟩
    rw [hhx] at hi
    rw [hhy] at hj
    exact ⟨_, _, ⟨i, j, hi, hj, rfl⟩, ⟨i, j, hx ▸ hi, hy ▸ hj, rfl⟩,
      hc i j (getElem?_some_lt hi) (getElem?_some_lt hj)⟩
  · rintro ⟨a, b, ⟨i, j, hi, hj, rfl⟩, ⟨i', j', hi', hj', rfl⟩, rfl⟩
    rw [← hx] at hi'
    rw [← hy] at hj'
    obtain rfl := hf.incx.idx_inj hi hi'
    obtain rfl := hf.incy.idx_inj hj hj'
    exact ⟨i, j, hhx ▸ hi, hhy ▸ hj, hc i j (getElem?_some_lt hi) (getElem?_some_lt hj)⟩

theorem ratio_pure (a b : Sym) : Unum.ratio ⟨1, a⟩ ⟨1, b⟩ = a.size / b.size := by
  unfold Unum.ratio Unum.phys; simp

theorem unitsMatch_true {f g : SF} (hv : f.uv.Compat g.uv) (hux : f.ux = g.ux) (huy : f.uy = g.uy) :
    f.unitsMatch g = true := by
  unfold unitsMatch
  rw [← hux, ← huy, decide_eq_true hv, decide_eq_true (show f.ux.Compat f.ux from ⟨rfl, rfl, rfl⟩),
    decide_eq_true (show f.uy.Compat f.uy from ⟨rfl, rfl, rfl⟩)]
  rfl

/-! ### C16 -/

/-- C16: on one grid, the sum is defined as soon as the dimensions agree; it is masked exactly where one of the
fields is, and holds elsewhere the sum expressed in the unit of the first field. -/
theorem C16_add_pointwise {f g : SF} (hf : f.WF) (hg : g.WF) (hx : f.ax = g.ax) (hy : f.ay = g.ay)
    (hv : f.uv.Compat g.uv) (hux : f.ux = g.ux) (huy : f.uy = g.uy) :
    ∃ h, f.add g = .ok h ∧ h.WF ∧
      (∀ x y r, h.Reads x y r ↔ ∃ a b, f.Reads x y a ∧ g.Reads x y b ∧ r = sumReading (g.uv.size / f.uv.size) a b) ∧
      h.ux = f.ux ∧ h.uy = f.uy ∧ h.uv = f.uv := by
  have e : f.add g = .ok (f.addSame g) := by
    unfold add
    rw [if_neg (by rw [unitsMatch_true hv hux huy]; simp), if_pos ⟨hx, hy⟩]
  refine ⟨_, e, ⟨hf.incx, hf.incy, hf.nex, hf.ney, hf.vx, hf.vy, hf.mx, hf.my, ?_⟩, ?_, rfl, rfl, rfl⟩
  · intro i j hi hj h
    have hi : i < f.ax.length := hi
    have hj : j < f.ay.length := hj
    simp only [addSame, setValues, setMask] at h ⊢
    rw [Reads.cellMask hf hi hj, Reads.cellMask hg (hx ▸ hi) (hy ▸ hj)]
    cases hfc : f.cell i j <;> cases hgc : g.cell i j <;> rw [hfc, hgc] at h <;> simp [nanOp] at h ⊢
  · refine reads_pointwise (h := f.addSame g) hf hx hy rfl rfl (sumReading (g.uv.size / f.uv.size)) ?_
    intro i j hi hj
    refine cell_of_mask_or (op := sumReading (g.uv.size / f.uv.size)) hf hg hx hy (fun _ => rfl)
      (fun a => by cases a <;> rfl) hi hj ?_ rfl
    simp only [addSame, setValues, setMask, addFact, ratio_pure]
    cases f.cell i j <;> cases g.cell i j <;> rfl

/-- C16: the sum does not depend on the order, physically: both orders have the same readings once expressed in
the unit of the first field. -/
theorem C16_add_comm {f g h k : SF} (hf : f.WF) (hg : g.WF) (hx : f.ax = g.ax) (hy : f.ay = g.ay)
    (hv : f.uv.Compat g.uv) (hux : f.ux = g.ux) (huy : f.uy = g.uy) (pf : 0 < f.uv.size) (pg : 0 < g.uv.size)
    (h1 : f.add g = .ok h) (h2 : g.add f = .ok k) (x y : Rat) (r s : Option Rat)
    (hr : h.Reads x y r) (hs : k.Reads x y s) : r.map (· * f.uv.size) = s.map (· * g.uv.size) := by
  obtain ⟨h', e1, _, r1, _⟩ := C16_add_pointwise hf hg hx hy hv hux huy
  obtain ⟨k', e2, _, r2, _⟩ := C16_add_pointwise hg hf hx.symm hy.symm ⟨hv.1.symm, hv.2.1.symm, hv.2.2.symm⟩
    hux.symm huy.symm
  rw [h1] at e1; cases e1
  rw [h2] at e2; cases e2
  obtain ⟨a, b, ha, hb, rfl⟩ := (r1 x y r).mp hr
  obtain ⟨b', a', hb', ha', rfl⟩ := (r2 x y s).mp hs
  obtain rfl := ha.unique hf ha'
  obtain rfl := hb.unique hg hb'
  cases a <;> cases b <;> simp [sumReading]
  field_simp
  ring

/-- C16: subtraction is the pointwise difference. -/
theorem C16_sub_pointwise {f g : SF} (hf : f.WF) (hg : g.WF) (hx : f.ax = g.ax) (hy : f.ay = g.ay)
    (hv : f.uv.Compat g.uv) (hux : f.ux = g.ux) (huy : f.uy = g.uy) :
    ∃ h, f.sub g = .ok h ∧ h.WF ∧
      (∀ x y r, h.Reads x y r ↔ ∃ a b, f.Reads x y a ∧ g.Reads x y b ∧
        r = sumReading (-(g.uv.size / f.uv.size)) a b) := by
  have wn : g.neg.WF := setValues_WF hg (by simp [Grid.map, values, hg.vx]) (by simp [Grid.map, values, hg.vy])
  obtain ⟨h, e, w, hr, _⟩ := C16_add_pointwise (g := g.neg) hf wn hx hy hv hux huy
  refine ⟨h, e, w, ?_⟩
  intro x y r
  rw [hr]
  have hn : ∀ b, g.neg.Reads x y b ↔ ∃ c, g.Reads x y c ∧ b = c.map (fun v => -v) := by
    intro b
    exact reads_map (f := g) (g := g.neg) rfl rfl (fun c => c.map (fun v => -v))
      (fun i j _ _ => setValues_cell _ _ _ _) x y b
  have key : ∀ a c, sumReading (g.neg.uv.size / f.uv.size) a (Option.map (fun v => -v) c)
      = sumReading (-(g.uv.size / f.uv.size)) a c := by
    intro a c
    have : g.neg.uv = g.uv := rfl
    rw [this]
    cases a <;> cases c <;> simp [sumReading]
  constructor
  · rintro ⟨a, b, ha, hb, rfl⟩
    obtain ⟨c, hc, rfl⟩ := (hn b).mp hb
    exact ⟨a, c, ha, hc, key a c⟩
  · rintro ⟨a, c, ha, hc, rfl⟩
    exact ⟨a, c.map (fun v => -v), ha, (hn _).mpr ⟨c, hc, rfl⟩, (key a c).symm⟩

/-- C16: fields whose values have different dimensions are refused. -/
theorem C16_add_refused {f g : SF} (h : ¬ f.uv.Compat g.uv) : f.add g = .error .valueError := by
  unfold add unitsMatch; simp [h]

/-- C16 fails when the two axes carry different units of one dimension: the coordinates are compared as bare
numbers, so a field on millimetres is added to a field on metres point by point (core/scalarfield.py:84-92). -/
theorem C16_axis_units_violated :
    ∃ f g h : SF, f.WF ∧ g.WF ∧ f.add g = .ok h ∧ f.Reads 1 (-1) (some 10) ∧ g.Reads 1 (-1) (some 10) ∧
      h.Reads 1 (-1) (some 20) ∧ (1 : Rat) * f.ux.size ≠ 1 * g.ux.size := by
  refine ⟨sample, { sample with ux := Sym.m }, sample.addSame { sample with ux := Sym.m }, sample_WF, ?_, ?_, ⟨1, 0, ?_⟩, ⟨1, 0, ?_⟩, ⟨1, 0, ?_⟩, ?_⟩
  · exact ⟨sample_WF.incx, sample_WF.incy, sample_WF.nex, sample_WF.ney, rfl, rfl, rfl, rfl, sample_WF.nan⟩
  · unfold add; rw [if_neg (by decide +kernel), if_pos ⟨rfl, rfl⟩]
  all_goals decide +kernel

example : (sample.add sample).map (fun h => [h.cell 0 1, h.cell 1 1, h.cell 2 1])
    = .ok [some 2, none, some 42] := by decide +kernel

/-! ### C17 -/

theorem sharedIdx_getElem (l m : List Rat) (k : Nat) (x : Rat) (hk : (sharedAx l m)[k]? = some x) :
    ∃ i : Nat, (sharedIdx l m)[k]? = some i ∧ l[i]? = some x := by
  have hmap : (sharedIdx l m).map (fun i : Nat => l[i]?) = (sharedAx l m).map some := by
    have e : (List.range l.length).map (fun i : Nat => l[i]?) = l.map some := by
      apply List.ext_getElem?
      intro i
      simp only [List.getElem?_map]
      by_cases hi : i < l.length
      · rw [List.getElem?_range hi, List.getElem?_eq_getElem hi]; simp [hi]
      · rw [List.getElem?_eq_none (by simpa using hi), List.getElem?_eq_none (by simpa using hi)]; rfl
    have e2 : (sharedAx l m).map some = (l.map some).filter
        (fun o => match o with | some x => decide (x ∈ m) | none => false) := by
      rw [List.filter_map]; rfl
    rw [e2, ← e, List.filter_map]
    rfl
  have h1 : ((sharedIdx l m).map (fun i : Nat => l[i]?))[k]? = some (some x) := by
    rw [hmap, List.getElem?_map, hk]; rfl
  rw [List.getElem?_map] at h1
  obtain ⟨i, hi, hx⟩ := Option.map_eq_some_iff.mp h1
  exact ⟨i, hi, hx⟩

theorem shared_eq {l m : List Rat} (hl : Inc l) (hm : Inc m) : sharedAx l m = sharedAx m l := by
  apply inc_ext (hl.filter _) (hm.filter _)
  intro x; simp [List.mem_filter, and_comm]

theorem sharedIdx_nil {l m : List Rat} (hs : sharedIdx l m = []) : sharedAx l m = [] := by
  by_contra hne
  obtain ⟨x, hx⟩ := List.exists_mem_of_ne_nil _ hne
  obtain ⟨k, hk⟩ := List.getElem?_of_mem hx
  obtain ⟨i, hi, _⟩ := sharedIdx_getElem l m k x hk
  rw [hs] at hi; simp at hi

theorem two_shared {l m : List Rat} (h : ∃ x x', x ≠ x' ∧ x ∈ l ∧ x ∈ m ∧ x' ∈ l ∧ x' ∈ m) :
    2 ≤ (sharedAx l m).length := by
  obtain ⟨x, x', hne, h1, h2, h3, h4⟩ := h
  have m1 : x ∈ sharedAx l m := by simp [sharedAx, h1, h2]
  have m2 : x' ∈ sharedAx l m := by simp [sharedAx, h3, h4]
  match hs : sharedAx l m with
  | [] => rw [hs] at m1; simp at m1
  | [a] => rw [hs] at m1 m2; simp at m1 m2; exact absurd (m1.trans m2.symm) hne
  | _ :: _ :: _ => simp

/-- The value computed for the `(i, j)` shared point is the sum of the two readings there. -/
theorem shared_cell {f g : SF} (hf : f.WF) (hg : g.WF) {i j : Nat} {x y : Rat}
    (hi : (sharedAx f.ax g.ax)[i]? = some x) (hj : (sharedAx f.ay g.ay)[j]? = some y) :
    ∃ a b, f.Reads x y a ∧ g.Reads x y b ∧
      (if (f.sharedMask g).get i j = true then none else (f.sharedVals g).get i j)
        = sumReading (g.uv.size / f.uv.size) a b := by
  obtain ⟨p, hp, hpx⟩ := sharedIdx_getElem _ _ i x hi
  obtain ⟨q, hq, hqy⟩ := sharedIdx_getElem _ _ j y hj
  rw [shared_eq hf.incx hg.incx] at hi
  rw [shared_eq hf.incy hg.incy] at hj
  obtain ⟨p', hp', hpx'⟩ := sharedIdx_getElem _ _ i x hi
  obtain ⟨q', hq', hqy'⟩ := sharedIdx_getElem _ _ j y hj
  refine ⟨_, _, ⟨p, q, hpx, hqy, rfl⟩, ⟨p', q', hpx', hqy', rfl⟩, ?_⟩
  simp only [sharedMask, sharedVals, addFact, List.getD_eq_getElem?_getD, hp, hq, hp', hq', Option.getD_some,
    ratio_pure]
  rw [Reads.cellMask hf (getElem?_some_lt hpx) (getElem?_some_lt hqy),
    Reads.cellMask hg (getElem?_some_lt hpx') (getElem?_some_lt hqy')]
  cases f.cell p q <;> cases g.cell p' q' <;> rfl

/-- C17: fields on different grids are added on exactly the shared coordinates, with the pointwise sum and the
union of the masks.  Partial: at least two shared coordinates on each axis (with exactly one the import of the
result fails, `C17_single_shared_violated`). -/
theorem C17_add_shared_partial {f g : SF} (hf : f.WF) (hg : g.WF) (hd : ¬ (f.ax = g.ax ∧ f.ay = g.ay))
    (hv : f.uv.Compat g.uv) (hux : f.ux = g.ux) (huy : f.uy = g.uy)
    (hsx : ∃ x x', x ≠ x' ∧ x ∈ f.ax ∧ x ∈ g.ax ∧ x' ∈ f.ax ∧ x' ∈ g.ax)
    (hsy : ∃ y y', y ≠ y' ∧ y ∈ f.ay ∧ y ∈ g.ay ∧ y' ∈ f.ay ∧ y' ∈ g.ay) :
    ∃ h, f.add g = .ok h ∧ h.WF ∧
      (∀ x y r, h.Reads x y r ↔ ∃ a b, f.Reads x y a ∧ g.Reads x y b ∧ r = sumReading (g.uv.size / f.uv.size) a b) ∧
      h.ux = f.ux ∧ h.uy = f.uy ∧ h.uv = f.uv := by
  have h2x := two_shared hsx
  have h2y := two_shared hsy
  have hnx : sharedIdx f.ax g.ax ≠ [] := fun h => by rw [sharedIdx_nil h] at h2x; simp at h2x
  have hny : sharedIdx f.ay g.ay ≠ [] := fun h => by rw [sharedIdx_nil h] at h2y; simp at h2y
  have e0 : f.add g = f.addShared g := by
    unfold add; rw [if_neg (by rw [unitsMatch_true hv hux huy]; simp), if_neg hd]
  have e1 : f.addShared g = importArrays (sharedAx f.ax g.ax) (sharedAx f.ay g.ay) (f.sharedVals g)
      (.array (f.sharedMask g)) f.ux f.uy f.uv := by
    unfold addShared; rw [if_neg (by rintro (h | h); exacts [hnx h, hny h])]
  obtain ⟨h, e, w, hr, u⟩ := C15_import_reads_partial (ux := f.ux) (uy := f.uy) (uv := f.uv)
    (ax := sharedAx f.ax g.ax) (ay := sharedAx f.ay g.ay) (v := f.sharedVals g) (m := .array (f.sharedMask g))
    rfl rfl h2x h2y ⟨rfl, rfl⟩ (Or.inl (hf.incx.filter _)) (Or.inl (hf.incy.filter _))
    (Or.inl ⟨hf.incx.filter _, hf.incy.filter _⟩)
  refine ⟨h, by rw [e0, e1, e], w, ?_, u⟩
  intro x y r
  rw [hr]
  constructor
  · rintro ⟨i, j, hi, hj, rfl⟩
    exact shared_cell hf hg hi hj
  · rintro ⟨a, b, ha, hb, rfl⟩
    have hx : x ∈ sharedAx f.ax g.ax := by
      obtain ⟨i, _, hi, _⟩ := ha
      obtain ⟨i', _, hi', _⟩ := hb
      simp [sharedAx, List.mem_of_getElem? hi, List.mem_of_getElem? hi']
    have hy : y ∈ sharedAx f.ay g.ay := by
      obtain ⟨_, j, _, hj, _⟩ := ha
      obtain ⟨_, j', _, hj', _⟩ := hb
      simp [sharedAx, List.mem_of_getElem? hj, List.mem_of_getElem? hj']
    obtain ⟨i, hi⟩ := List.getElem?_of_mem hx
    obtain ⟨j, hj⟩ := List.getElem?_of_mem hy
    obtain ⟨a', b', ha', hb', e⟩ := shared_cell hf hg hi hj
    obtain rfl := ha.unique hf ha'
    obtain rfl := hb.unique hg hb'
    exact ⟨i, j, hi, hj, e.symm⟩

/-- C17: no shared coordinate on an axis is refused with ValueError. -/
theorem C17_add_disjoint_refused {f g : SF} (hf : f.WF)
    (hd : (∀ x ∈ f.ax, x ∉ g.ax) ∨ (∀ y ∈ f.ay, y ∉ g.ay)) : f.add g = .error .valueError := by
  unfold add
  by_cases hu : f.unitsMatch g = false
  · rw [if_pos hu]
  · rw [if_neg hu]
    have hne : ¬ (f.ax = g.ax ∧ f.ay = g.ay) := by
      rintro ⟨h1, h2⟩
      rcases hd with hd | hd
      · obtain ⟨x, hx⟩ := List.exists_mem_of_ne_nil _ hf.nex
        exact hd x hx (h1 ▸ hx)
      · obtain ⟨x, hx⟩ := List.exists_mem_of_ne_nil _ hf.ney
        exact hd x hx (h2 ▸ hx)
    have hnil : ∀ l m : List Rat, (∀ x ∈ l, x ∉ m) → sharedIdx l m = [] := by
      intro l m h
      unfold sharedIdx
      rw [List.filter_eq_nil_iff]
      intro i hi
      rw [List.mem_range] at hi
      rw [List.getElem?_eq_getElem hi]
      simpa using h _ (List.getElem_mem hi)
    rw [if_neg hne]
    unfold addShared
    rw [if_pos]
    rcases hd with hd | hd
    · exact Or.inl (hnil _ _ hd)
    · exact Or.inr (hnil _ _ hd)

/-- C17 fails when the grids share exactly one coordinate on an axis: IndexError from the import. -/
theorem C17_single_shared_violated :
    ∃ f g : SF, f.WF ∧ g.WF ∧ (∃ x y a b, f.Reads x y a ∧ g.Reads x y b) ∧ f.add g = .error .indexError := by
  refine ⟨sample, sample.setOrigin (some (-3)) none, sample_WF, (C12_setOrigin_shifts sample_WF _ _).1,
    ⟨3, -1, _, _, ⟨2, 0, by decide +kernel, by decide +kernel, rfl⟩, ⟨0, 0, by decide +kernel, by decide +kernel, rfl⟩⟩, ?_⟩
  unfold add
  rw [if_neg (by decide +kernel), if_neg (by decide +kernel)]
  unfold addShared
  rw [if_neg (by decide +kernel)]
  exact C15_import_single_point _ _ _ _ _ _ _ (by decide +kernel)

example : (sample.add (sample.setOrigin (some (-1)) none)).map (fun h => (h.ax, h.ay)) = .error .indexError := by
  decide +kernel

example : (sample.add ((sample.setOrigin (some (-1)) none).scale none none none |>.extendInplace 1 0 0 0 none
    |>.toOption.getD sample)).map (fun h => (h.ax, h.ay, [h.cell 0 0, h.cell 1 0]))
      = .ok ([0, 1], [-1, 1/2], [none, some 10]) := by
  decide +kernel

/-! ### C18 -/

theorem unit_size (u : Sym) : unitNum u * (unitSym u).size = u.size := by
  unfold unitNum unitSym
  by_cases h : u.Compat Sym.one
  · rw [if_pos h, if_pos h]; simp [Sym.one]
  · rw [if_neg h, if_neg h]; simp

theorem unitSym_pos {u : Sym} (h : 0 < u.size) : 0 < (unitSym u).size := by
  unfold unitSym
  by_cases h' : u.Compat Sym.one
  · rw [if_pos h']; simp [Sym.one]
  · rw [if_neg h']; exact h

theorem map_eq_of_size {u : Sym} (hu : 0 < u.size) (r s : Option Rat) :
    r = s.map (· * unitNum u) ↔ r.map (· * (unitSym u).size) = s.map (· * u.size) := by
  have hp := unitSym_pos hu
  have hs := unit_size u
  cases r with
  | none => cases s <;> simp
  | some a =>
    cases s with
    | none => simp
    | some b =>
      simp only [Option.map_some, Option.some.injEq]
      constructor
      · rintro rfl; rw [← hs]; ring
      · intro h
        rw [← hs, ← mul_assoc] at h
        exact mul_right_cancel₀ (ne_of_gt hp) h

/-- C18: the quotient of two fields on one grid is masked exactly where one of them is masked or the divisor is
zero, and designates the physical quotient elsewhere. -/
theorem C18_div_pointwise {f g : SF} (hf : f.WF) (hg : g.WF) (hx : f.ax = g.ax) (hy : f.ay = g.ay)
    (hux : f.ux = g.ux) (huy : f.uy = g.uy) (pf : 0 < f.uv.size) (pg : 0 < g.uv.size) :
    ∃ h, f.div g = .ok h ∧ h.WF ∧
      (∀ x y r, h.Reads x y r ↔ ∃ a b, f.Reads x y a ∧ g.Reads x y b ∧
        r.map (· * h.uv.size) = (quotReading a b).map (· * (f.uv.size / g.uv.size))) ∧
      h.ux = f.ux ∧ h.uy = f.uy ∧ 0 < h.uv.size := by
  have hs : f.sameGrid g = true := by unfold sameGrid; simp [hx, hy, hux, huy]
  have hq : 0 < (f.uv.div g.uv).size := div_pos pf pg
  unfold div
  rw [if_neg (by rw [hs]; simp)]
  refine ⟨_, rfl, ⟨hf.incx, hf.incy, hf.nex, hf.ney, hf.vx, hf.vy, hf.mx, hf.my, ?_⟩, ?_, rfl, rfl, unitSym_pos hq⟩
  · intro i j hi hj h
    have hi : i < f.ax.length := hi
    have hj : j < f.ay.length := hj
    simp only [setValues, setMask] at h ⊢
    rw [Reads.cellMask hf hi hj, Reads.cellMask hg (hx ▸ hi) (hy ▸ hj)]
    revert h
    generalize f.cell i j = a
    generalize g.cell i j = b
    intro h
    rcases a with _ | a <;> rcases b with _ | b <;> simp [divVal, nanOp] at h ⊢
    by_cases hb : b = 0 <;> simp [hb] at h
  · intro x y r
    have hr := reads_pointwise (h := { (f.setValues ⟨f.val.nx, f.val.ny, fun i j =>
      (divVal (f.cell i j) (g.cell i j)).map (· * unitNum (f.uv.div g.uv))⟩).setMask
        ⟨f.mask.nx, f.mask.ny, fun i j =>
          (f.mask.get i j || g.mask.get i j) || decide (g.cell i j = some 0)⟩ with
      uv := unitSym (f.uv.div g.uv) }) hf hx hy rfl rfl
      (fun a b => (quotReading a b).map (· * unitNum (f.uv.div g.uv))) ?_ x y r
    · rw [hr]
      constructor
      · rintro ⟨a, b, ha, hb, h⟩
        exact ⟨a, b, ha, hb, (map_eq_of_size hq _ _).mp h⟩
      · rintro ⟨a, b, ha, hb, h⟩
        exact ⟨a, b, ha, hb, (map_eq_of_size hq _ _).mpr h⟩
    · intro i j hi hj
      show (if ((f.mask.get i j || g.mask.get i j) || decide (g.cell i j = some 0)) = true then none
        else (divVal (f.cell i j) (g.cell i j)).map (· * unitNum (f.uv.div g.uv))) = _
      rw [Reads.cellMask hf hi hj, Reads.cellMask hg (hx ▸ hi) (hy ▸ hj)]
      generalize f.cell i j = a
      generalize g.cell i j = b
      rcases a with _ | a <;> rcases b with _ | b <;> simp [quotReading]
      by_cases hb : b = 0 <;> simp [hb, divVal, nanOp]

/-- C18: division by an array of the same shape, without NaN, follows the same rule. -/
theorem C18_divArr_pointwise {f : SF} (hf : f.WF) (a : Nat → Nat → Rat) :
    ∃ h, f.divArr ⟨f.ax.length, f.ay.length, fun i j => some (a i j)⟩ = .ok h ∧ h.WF ∧ h.ax = f.ax ∧ h.ay = f.ay ∧
      (∀ i j, i < f.ax.length → j < f.ay.length → h.cell i j = quotReading (f.cell i j) (some (a i j))) ∧
      h.uv = f.uv := by
  unfold divArr
  rw [if_pos ⟨hf.vx.symm, hf.vy.symm⟩]
  refine ⟨_, rfl, ⟨hf.incx, hf.incy, hf.nex, hf.ney, hf.vx, hf.vy, hf.mx, hf.my, ?_⟩, rfl, rfl, ?_, rfl⟩
  · intro i j hi hj h
    have hi : i < f.ax.length := hi
    have hj : j < f.ay.length := hj
    simp only [setMask] at h ⊢
    rw [Reads.cellMask hf hi hj] at h ⊢
    revert h
    generalize f.cell i j = c
    intro h
    rcases c with _ | c <;> simp [nanOp] at h ⊢
    by_cases hb : a i j = 0 <;> simp [hb] at h ⊢
  · intro i j hi hj
    show (if (f.mask.get i j || decide (some (a i j) = some 0)) = true then none
      else if (f.mask.get i j || decide (some (a i j) = some 0)) = true then f.cell i j
        else nanOp (· / ·) (f.cell i j) (some (a i j))) = _
    rw [Reads.cellMask hf hi hj]
    generalize f.cell i j = c
    rcases c with _ | c <;> simp [quotReading]
    by_cases hb : a i j = 0 <;> simp [hb, nanOp]

/-- C18: quotients of fields on different grids are refused. -/
theorem C18_div_refused {f g : SF} (h : f.ax ≠ g.ax ∨ f.ay ≠ g.ay) : f.div g = .error .valueError := by
  unfold div sameGrid
  rcases h with h | h <;> simp [h]

/-- C18 fails for `number / field`: an unmasked infinite value is shown where the field is zero
(core/scalarfield.py:207-211). -/
theorem C18_rdiv_violated :
    sample.WF ∧ sample.cell 0 0 = some 0 ∧ (rdivNum 1 sample).1.get 0 0 = .inf ∧
      (rdivNum 1 sample).2.get 0 0 = false := by
  refine ⟨sample_WF, ?_⟩; decide +kernel

/-- C18 fails for `array / field`: an unmasked infinity where the field is zero, and a masked point where the
array is zero although the quotient is 0 (core/scalarfield.py:218-227). -/
theorem C18_rdivArr_violated :
    (rdivArr ⟨3, 2, fun i _ => if i = 2 then 0 else 1⟩ sample).1.get 0 0 = .inf ∧
    (rdivArr ⟨3, 2, fun i _ => if i = 2 then 0 else 1⟩ sample).2.get 0 0 = false ∧
    sample.cell 2 0 = some 20 ∧
    (rdivArr ⟨3, 2, fun i _ => if i = 2 then 0 else 1⟩ sample).2.get 2 0 = true := by decide +kernel

/-- C18 fails for an array holding NaN: the quotient shows an unmasked undefined number. -/
theorem C18_divArr_nan_violated :
    (sample.divArr ⟨3, 2, fun i _ => if i = 0 then none else some 2⟩).map
      (fun h => (h.cell 0 0, h.mask.get 0 0)) = .ok (none, false) := by decide +kernel

example : (sample.divArr ⟨3, 2, fun i _ => some (i : Rat)⟩).map (fun h => [h.cell 0 0, h.cell 1 0, h.cell 1 1, h.cell 2 1])
    = .ok [none, some 10, none, some (21/2)] := by decide +kernel

example : (sample.div sample).map (fun h => [h.cell 0 0, h.cell 0 1, h.cell 1 1, h.cell 2 1])
    = .ok [none, some 1, none, some 1] := by decide +kernel

/-! ### C81 -/

/-- C81: the product of two fields on one grid is masked exactly where one of them is, and designates the
physical product elsewhere. -/
theorem C81_mul_pointwise {f g : SF} (hf : f.WF) (hg : g.WF) (hx : f.ax = g.ax) (hy : f.ay = g.ay)
    (hux : f.ux = g.ux) (huy : f.uy = g.uy) (pf : 0 < f.uv.size) (pg : 0 < g.uv.size) :
    ∃ h, f.mul g = .ok h ∧ h.WF ∧
      (∀ x y r, h.Reads x y r ↔ ∃ a b, f.Reads x y a ∧ g.Reads x y b ∧
        r.map (· * h.uv.size) = (prodReading a b).map (· * (f.uv.size * g.uv.size))) ∧
      h.ux = f.ux ∧ h.uy = f.uy ∧ 0 < h.uv.size := by
  have hs : f.sameGrid g = true := by unfold sameGrid; simp [hx, hy, hux, huy]
  have hq : 0 < (f.uv.mul g.uv).size := mul_pos pf pg
  unfold mul
  rw [if_neg (by rw [hs]; simp)]
  refine ⟨_, rfl, ⟨hf.incx, hf.incy, hf.nex, hf.ney, hf.vx, hf.vy, hf.mx, hf.my, ?_⟩, ?_, rfl, rfl, unitSym_pos hq⟩
  · intro i j hi hj h
    have hi : i < f.ax.length := hi
    have hj : j < f.ay.length := hj
    simp only [setValues, setMask] at h ⊢
    rw [Reads.cellMask hf hi hj, Reads.cellMask hg (hx ▸ hi) (hy ▸ hj)]
    cases hfc : f.cell i j <;> cases hgc : g.cell i j <;> rw [hfc, hgc] at h <;> simp [nanOp] at h ⊢
  · intro x y r
    have hr := reads_pointwise (h := { (f.setValues ⟨f.val.nx, f.val.ny, fun i j =>
      (nanOp (· * ·) (f.cell i j) (g.cell i j)).map (· * unitNum (f.uv.mul g.uv))⟩).setMask
        ⟨f.mask.nx, f.mask.ny, fun i j => f.mask.get i j || g.mask.get i j⟩ with
      uv := unitSym (f.uv.mul g.uv) }) hf hx hy rfl rfl
      (fun a b => (prodReading a b).map (· * unitNum (f.uv.mul g.uv))) ?_ x y r
    · rw [hr]
      constructor
      · rintro ⟨a, b, ha, hb, h⟩
        exact ⟨a, b, ha, hb, (map_eq_of_size hq _ _).mp h⟩
      · rintro ⟨a, b, ha, hb, h⟩
        exact ⟨a, b, ha, hb, (map_eq_of_size hq _ _).mpr h⟩
    · intro i j hi hj
      show (if (f.mask.get i j || g.mask.get i j) = true then none
        else (nanOp (· * ·) (f.cell i j) (g.cell i j)).map (· * unitNum (f.uv.mul g.uv))) = _
      rw [Reads.cellMask hf hi hj, Reads.cellMask hg (hx ▸ hi) (hy ▸ hj)]
      cases f.cell i j <;> cases g.cell i j <;> simp [prodReading, nanOp]

/-- C81: products of fields on different grids are refused. -/
theorem C81_mul_refused {f g : SF} (h : f.ax ≠ g.ax ∨ f.ay ≠ g.ay) : f.mul g = .error .valueError := by
  unfold mul sameGrid
  rcases h with h | h <;> simp [h]

/-- C81: a product followed by a quotient by the same field gives back the readings of the first field, masked
where the second is masked or zero (values without units). -/
theorem C81_mul_div {f g h k : SF} (hf : f.WF) (hg : g.WF) (hx : f.ax = g.ax) (hy : f.ay = g.ay)
    (hux : f.ux = g.ux) (huy : f.uy = g.uy) (pf : 0 < f.uv.size) (pg : 0 < g.uv.size)
    (h1 : f.mul g = .ok h) (h2 : h.div g = .ok k) (x y : Rat) (r : Option Rat) :
    k.Reads x y r ↔ ∃ a b, f.Reads x y a ∧ g.Reads x y b ∧
      r.map (· * k.uv.size) = if b = none ∨ b = some 0 then none else a.map (· * f.uv.size) := by
  obtain ⟨h', e1, wh, r1, u1, u2, ph⟩ := C81_mul_pointwise hf hg hx hy hux huy pf pg
  rw [h1] at e1; cases e1
  have hax : h.ax = f.ax ∧ h.ay = f.ay := by
    unfold mul at h1
    by_cases hs : f.sameGrid g = false
    · rw [if_pos hs] at h1; cases h1
    · rw [if_neg hs] at h1; cases h1; exact ⟨rfl, rfl⟩
  obtain ⟨k', e2, wk, r2, _, _, pk⟩ := C18_div_pointwise wh hg (hax.1.trans hx) (hax.2.trans hy)
    (u1.trans hux) (u2.trans huy) ph pg
  rw [h2] at e2; cases e2
  rw [r2]
  have key : ∀ a b c : Option Rat, c.map (· * h.uv.size) = (prodReading a b).map (· * (f.uv.size * g.uv.size)) →
      (quotReading c b).map (· * (h.uv.size / g.uv.size))
        = if b = none ∨ b = some 0 then none else a.map (· * f.uv.size) := by
    intro a b c hc
    rcases b with _ | b
    · cases c <;> simp [quotReading]
    · by_cases hb : b = 0
      · subst hb; cases c <;> simp [quotReading]
      · rw [if_neg (by simp [hb])]
        rcases a with _ | a
        · rcases c with _ | c
          · simp [quotReading]
          · simp [prodReading] at hc
        · rcases c with _ | c
          · simp [prodReading] at hc
          · simp only [prodReading, Option.map_some, Option.some.injEq] at hc
            simp only [quotReading, if_neg hb, Option.map_some, Option.some.injEq]
            field_simp
            rw [hc]; ring
  constructor
  · rintro ⟨c, b, hc, hb, e⟩
    obtain ⟨a, b', ha, hb', e'⟩ := (r1 x y c).mp hc
    obtain rfl := hb.unique hg hb'
    exact ⟨a, b, ha, hb, by rw [e, key a b c e']⟩
  · rintro ⟨a, b, ha, hb, e⟩
    refine ⟨(prodReading a b).map (· * (f.uv.size * g.uv.size / h.uv.size)), b, ?_, hb, ?_⟩
    · refine (r1 x y _).mpr ⟨a, b, ha, hb, ?_⟩
      cases prodReading a b <;> simp
      field_simp
    · rw [e, key a b]
      cases prodReading a b <;> simp
      field_simp

example : (sample.mul sample).map (fun h => ([h.cell 0 0, h.cell 1 0, h.cell 1 1, h.cell 2 1], h.uv))
    = .ok ([some 0, some 100, none, some 441], Sym.s.mul Sym.s) := by decide +kernel

end IMT.SF
